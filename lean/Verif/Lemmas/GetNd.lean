import Verif.Model.GetNd
import Verif.Spec.GetNd
import Verif.Lemmas.NdMem
import Verif.Lemmas.Nondominated2d

set_option autoImplicit false
set_option linter.unusedSectionVars false

/-! # Helper lemmas: `get_nondominated_set` -/

namespace Moo

section
variable {F : Type}

theorem nKept_le (nd : ℕ → Bool) (size : ℕ) : nKept nd size ≤ size := by
  simpa [nKept] using List.length_filter_le (fun i => nd i) (List.range size)

theorem filter_length_compl {β : Type} (q : β → Bool) (l : List β) : (l.filter (fun i => !q i)).length = l.length - (l.filter (fun i => q i)).length := by
  induction l with
  | nil => rfl
  | cons a l ih =>
    have := List.length_filter_le (fun i => q i) l
    cases h : q a <;> simp [h, ih] <;> omega

theorem nKept_compl (nd : ℕ → Bool) (size : ℕ) : ((List.range size).filter (fun i => !nd i)).length = size - nKept nd size := by
  simpa [nKept] using filter_length_compl nd (List.range size)

theorem nKept_congr {nd nd' : ℕ → Bool} {size : ℕ} (h : ∀ i < size, nd i = nd' i) : nKept nd size = nKept nd' size := by
  unfold nKept
  rw [List.filter_congr (fun i hi => h i (List.mem_range.1 hi))]

theorem keptFlat_congr {x : ℕ → ℕ → F} {dim : ℕ} {nd nd' : ℕ → Bool} {size : ℕ} (h : ∀ i < size, nd i = nd' i) :
    keptFlat x dim size nd = keptFlat x dim size nd' := by
  unfold keptFlat
  rw [List.filter_congr (fun i hi => h i (List.mem_range.1 hi))]

/-! ## the number of flags cleared with two objectives -/

theorem nd2dScanR_count (ge ne : ℕ → ℕ → Bool) (kw : Bool) : ∀ (js : List ℕ) (k pos : ℕ) (nd : ℕ → Bool) (n : ℤ), (∀ q, pos ≤ q → nd q = true) →
    (nd2dScanR ge ne kw k pos js nd n).2 =
      n + ((List.range' pos js.length).filter (fun q => !(nd2dScanR ge ne kw k pos js nd n).1 q)).length ∧
    ∀ q < pos, (nd2dScanR ge ne kw k pos js nd n).1 q = nd q := by
  intro js
  induction js with
  | nil => intro k pos nd n _; simp [nd2dScanR]
  | cons j js ih =>
    intro k pos nd n h
    have hu : ∀ q, pos + 1 ≤ q → upd nd pos false q = true := fun q hq => by
      rw [upd_apply, if_neg (by omega)]; exact h q (by omega)
    unfold nd2dScanR
    rw [List.length_cons, List.range'_succ]
    split_ifs
    · obtain ⟨h1, h2⟩ := ih k (pos + 1) (upd nd pos false) (n + 1) hu
      refine ⟨?_, fun q hq => ?_⟩
      · have h3 := h2 pos (by omega)
        rw [upd_apply, if_pos rfl] at h3
        rw [List.filter_cons_of_pos (by simp [h3]), List.length_cons, h1]
        push_cast
        ring
      · rw [h2 q (by omega), upd_apply, if_neg (by omega)]
    · obtain ⟨h1, h2⟩ := ih k (pos + 1) nd n (fun q hq => h q (by omega))
      refine ⟨?_, fun q hq => h2 q (by omega)⟩
      have h3 := h2 pos (by omega)
      rw [h pos le_rfl] at h3
      rw [List.filter_cons_of_neg (by simp [h3]), h1]
    · obtain ⟨h1, h2⟩ := ih j (pos + 1) nd n (fun q hq => h q (by omega))
      refine ⟨?_, fun q hq => h2 q (by omega)⟩
      have h3 := h2 pos (by omega)
      rw [h pos le_rfl] at h3
      rw [List.filter_cons_of_neg (by simp [h3]), h1]

theorem ndUnsort_count (nd garbage : ℕ → Bool) (p : List ℕ) (size : ℕ) (hp : p.Perm (List.range size)) :
    ((List.range size).filter (fun r => !ndUnsort nd 0 p garbage r)).length = ((List.range size).filter (fun q => !nd q)).length := by
  have hl : p.length = size := by rw [hp.length_eq]; simp
  have hn : p.Nodup := hp.nodup_iff.2 List.nodup_range
  rw [← (hp.filter _).length_eq]
  have hpm : p = (List.range size).map (fun q => p.getD q 0) := by
    apply List.ext_getElem
    · simp [hl]
    · intro m h1 h2
      simp [h1]
  conv_lhs => rw [hpm]
  rw [List.filter_map, List.length_map]
  congr 1
  apply List.filter_congr
  intro q hq
  rw [List.mem_range] at hq
  have hq' : q < p.length := by omega
  have := ndUnsort_get nd 0 p garbage hn
  simp only [Function.comp]
  rw [← hpm]
  rw [show p.getD q 0 = p[q] by simp [hq']]
  have h := this q hq'
  simp at h
  rw [h]

/-- The number returned by `find_nondominated_set`, and the flags. -/
theorem findNdSetM_count (c : FCmp F) (neg : F → F) (sortFn : Blk F → List ℕ → List ℕ) (x : ℕ → ℕ → F) (dim size : ℕ) (mm : ℕ → ℤ)
    (hmm : dim = 2 → ∀ d < 2, mm d ≠ 0) (kw : Bool)
    (hs : ∀ b, (sortFn b (List.range size)).Perm (List.range size)) :
    ∃ nd, (nd = flagsR c neg (sortFn (flatPts (agreeRows neg mm x) 2 size) (List.range size)) x dim size mm kw (fun _ => false)) ∧
      findNdSetM c neg sortFn (flatPts x dim size) dim size (cells mm dim) AGREE_NONE (cells (fun _ => true) size) false kw =
      .ok (((if dim = 2 ∧ 2 ≤ size then size - nKept nd size else nKept nd size : ℕ) : ℤ), cells nd size) := by
  refine ⟨_, rfl, ?_⟩
  unfold findNdSetM flagsR
  by_cases h2 : size < 2
  · have h2' : ¬ (dim = 2 ∧ 2 ≤ size) := by omega
    simp only [h2, h2', if_true, if_false]
    simp [nKept]
  · rw [if_neg h2, if_neg h2]
    by_cases hd : dim = 2
    · subst hd
      rw [if_pos rfl, if_pos rfl, if_pos ⟨rfl, by omega⟩, forceAgreeMinimizeM_ok neg x 2 size mm (hmm rfl) AGREE_NONE (by decide)]
      simp only [bind, Except.bind, Bool.false_eq_true, if_false]
      rw [findNd2dM_ok c sortFn _ size (by omega) _ kw (fun _ => false) (hs _)]
      have hp := hs (flatPts (agreeRows neg mm x) 2 size)
      generalize sortFn (flatPts (agreeRows neg mm x) 2 size) (List.range size) = p at hp
      congr 2
      rw [← nKept_compl]
      have hl : p.length = size := by rw [hp.length_eq]; simp
      cases p with
      | nil => simp at hl; omega
      | cons k js =>
        simp only [nd2dR]
        rw [ndUnsort_count _ _ _ _ hp]
        obtain ⟨h3, h4⟩ := nd2dScanR_count (geY c (agreeRows neg mm x)) (neXY c (agreeRows neg mm x)) kw js k 1 (fun _ => true) 0 (fun _ _ => rfl)
        rw [h3]
        have e : List.range size = 0 :: List.range' 1 js.length := by
          rw [← hl, List.length_cons, List.range_eq_range', List.range'_succ]
        rw [e, List.filter_cons_of_neg (by simp [h4 0 (by omega)])]
        simp
    · rw [if_neg hd, if_neg hd, if_neg (by tauto)]
      rw [ndOuterM_ok c x dim size mm AGREE_NONE false kw _ _ (fun k hk => by rw [List.mem_range] at hk; omega)]
      simp only [bind, Except.bind]
      rw [ndOuterR_none]
      simp only [Bool.false_eq_true, if_false]
      rw [countM_ok _ size _ _ (fun k hk => List.mem_range.1 hk)]
      simp only
      congr 2
      exact countFlags_eq _ _

/-! ## copying the rows -/

theorem flat_slice (x : ℕ → ℕ → F) {dim size n : ℕ} (hn : n < size) :
    ((flatPts x dim size).drop (dim * n)).take dim = ((List.range dim).map (x n)).map some := by
  have hb : dim * n + dim ≤ dim * size := by
    calc dim * n + dim = dim * (n + 1) := by ring
      _ ≤ dim * size := Nat.mul_le_mul_left _ hn
  apply List.ext_getElem
  · simp [flatPts, cells, length_blk]; omega
  · intro m h1 h2
    simp only [List.length_map, List.length_range] at h2
    simp only [flatPts, cells, blk, List.getElem_take, List.getElem_drop, List.getElem_map, List.getElem_range]
    rw [Nat.mul_comm dim n, flat_div h2, flat_mod h2]

theorem getNdLoopM_ok (x : ℕ → ℕ → F) (dim size : ℕ) (nd : ℕ → Bool) : ∀ (ns : List ℕ) (k m : ℕ) (done : List F), (∀ n ∈ ns, n < size) →
    done.length = dim * k →
    getNdLoopM (flatPts x dim size) dim (cells nd size) ns k (done.map some ++ allocBlk m) =
      if dim * (ns.filter (fun i => nd i)).length ≤ m then
        .ok (k + (ns.filter (fun i => nd i)).length,
          (done ++ (ns.filter (fun i => nd i)).flatMap (fun i => (List.range dim).map (x i))).map some ++
            allocBlk (m - dim * (ns.filter (fun i => nd i)).length))
      else .error .outOfBounds := by
  intro ns
  induction ns with
  | nil => intro k m done _ _; simp [getNdLoopM]
  | cons n ns ih =>
    intro k m done hns hl
    have hn := hns n (by simp)
    have hns' : ∀ n ∈ ns, n < size := fun i hi => hns i (by simp [hi])
    unfold getNdLoopM
    rw [ld_cells hn]
    simp only [bind, Except.bind]
    cases hb : nd n with
    | false =>
      simp only [Bool.not_false, if_true]
      rw [ih k m done hns' hl, List.filter_cons_of_neg (by simp [hb])]
    | true =>
      simp only [Bool.not_true, Bool.false_eq_true, if_false]
      rw [List.filter_cons_of_pos (by simp [hb])]
      have hsrc : dim * n + dim ≤ (flatPts x dim size).length := by
        rw [flatPts, cells, length_blk]
        calc dim * n + dim = dim * (n + 1) := by ring
          _ ≤ dim * size := Nat.mul_le_mul_left _ hn
      have hex : dim * (n :: ns.filter (fun i => nd i)).length = dim + dim * (ns.filter (fun i => nd i)).length := by
        rw [List.length_cons]; ring
      have hlen : (done.map some ++ (allocBlk m : Blk F)).length = dim * k + m := by simp [allocBlk, hl]
      by_cases hm : dim ≤ m
      · rw [cpAtBlk, if_pos ⟨by omega, hsrc⟩]
        simp only
        have e : (done.map some ++ (allocBlk m : Blk F)).take (dim * k) ++ ((flatPts x dim size).drop (dim * n)).take dim ++
            (done.map some ++ (allocBlk m : Blk F)).drop (dim * k + dim) =
            (done ++ (List.range dim).map (x n)).map some ++ allocBlk (m - dim) := by
          rw [flat_slice x hn, List.take_append_of_le_length (by simp [hl]), List.take_of_length_le (by simp [hl]),
            List.drop_append, show (done.map some).drop (dim * k + dim) = [] from List.drop_eq_nil_of_le (by simp [hl])]
          simp [allocBlk, hl]
        rw [e, ih (k + 1) (m - dim) _ hns' (by simp [hl]; ring), hex]
        by_cases hc : dim * (ns.filter (fun i => nd i)).length ≤ m - dim
        · rw [if_pos hc, if_pos (by omega)]
          simp only [List.length_cons, List.flatMap_cons, List.append_assoc]
          congr 2
          · omega
          · rw [Nat.sub_sub]
        · rw [if_neg hc, if_neg (by omega)]
      · rw [cpAtBlk, if_neg (by omega)]
        simp only
        rw [hex, if_neg (by omega)]

/-- `get_nondominated_set` as a function of the flags. -/
theorem getNdSetM_ok (c : FCmp F) (neg : F → F) (sortFn : Blk F → List ℕ → List ℕ) (asserts : Bool) (x : ℕ → ℕ → F) (dim size : ℕ) (mm : ℕ → ℤ)
    (hmm : dim = 2 → ∀ d < 2, mm d ≠ 0) (hs : ∀ b, (sortFn b (List.range size)).Perm (List.range size)) :
    ∃ nd, (nd = flagsR c neg (sortFn (flatPts (agreeRows neg mm x) 2 size) (List.range size)) x dim size mm false (fun _ => false)) ∧
      getNdSetM c neg sortFn asserts (flatPts x dim size) dim size (cells mm dim) =
        if dim = 2 ∧ 2 ≤ size then
          if size - nKept nd size < nKept nd size then .error .outOfBounds
          else if asserts ∧ nKept nd size ≠ size - nKept nd size then .error .assertion
          else .ok (((size - nKept nd size : ℕ) : ℤ), (keptFlat x dim size nd).map some ++ allocBlk (2 * (size - nKept nd size - nKept nd size)))
        else .ok ((nKept nd size : ℤ), (keptFlat x dim size nd).map some) := by
  obtain ⟨nd, hnd, e⟩ := findNdSetM_count c neg sortFn x dim size mm hmm false hs
  refine ⟨nd, hnd, ?_⟩
  unfold getNdSetM
  rw [nondomInitM_ok]
  simp only [bind, Except.bind]
  rw [e]
  simp only [Int.toNat_natCast]
  have hle := nKept_le nd size
  have hl := fun m => getNdLoopM_ok x dim size nd (List.range size) 0 m [] (fun n hn => List.mem_range.1 hn) rfl
  simp only [List.map_nil, List.nil_append, Nat.zero_add] at hl
  have hk : ((List.range size).filter (fun i => nd i)).length = nKept nd size := rfl
  have hr : ((List.range size).filter (fun i => nd i)).flatMap (fun i => (List.range dim).map (x i)) = keptFlat x dim size nd := rfl
  rw [hk, hr] at hl
  rw [if_neg (by split_ifs <;> omega), hl]
  by_cases hd : dim = 2 ∧ 2 ≤ size
  · obtain ⟨rfl, h2⟩ := hd
    simp only [h2, and_self, if_true]
    by_cases h3 : size - nKept nd size < nKept nd size
    · rw [if_neg (by omega), if_pos h3]
    · rw [if_pos (by omega), if_neg h3]
      simp only
      by_cases h4 : nKept nd size = size - nKept nd size
      · have h4' : ((nKept nd size : ℕ) : ℤ) = ((size - nKept nd size : ℕ) : ℤ) := by exact_mod_cast h4
        rw [if_neg (by simp [h4']), if_neg (by tauto)]
        congr 4
        omega
      · have h4' : ¬ ((nKept nd size : ℕ) : ℤ) = ((size - nKept nd size : ℕ) : ℤ) := by exact_mod_cast h4
        simp only [h4', decide_false, Bool.not_false, Bool.and_true, ne_eq, h4, not_false_eq_true, and_true]
        by_cases ha : asserts = true
        · rw [if_pos ha, if_pos ha]
        · rw [if_neg ha, if_neg ha]
          congr 4
          omega
  · simp only [hd, if_false]
    rw [if_pos (by rw [Nat.mul_comm])]
    simp [Nat.mul_comm, allocBlk]

end

end Moo
