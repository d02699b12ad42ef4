import Verif.Lemmas.HvRec
import Mathlib.Data.List.Perm.Basic

/-!
# `setup_cdllist` and `filter_ref`, and the value of `fpli_hv` for three or more objectives
-/

set_option autoImplicit false
set_option linter.unusedSectionVars false

namespace Moo

variable {x : ℕ → ℕ → ℝ} {ref : ℕ → ℝ} {pos : ℕ → ℕ → ℕ} {d : ℕ} {N : List ℕ}

theorem linkFrom_spec (j : ℕ) : ∀ (l : List ℕ) (a : ℕ) (S : HvState ℝ), (a :: l).Nodup → 0 ∉ l →
    LinkedFrom ((linkFrom j a l S).next j) ((linkFrom j a l S).prev j) a l ∧
    (∀ u, u ∉ a :: l → (linkFrom j a l S).next j u = S.next j u) ∧
    (∀ v, v ∉ l → v ≠ 0 → (linkFrom j a l S).prev j v = S.prev j v) ∧
    (∀ i, i ≠ j → (linkFrom j a l S).next i = S.next i ∧ (linkFrom j a l S).prev i = S.prev i) ∧
    (linkFrom j a l S).ignore = S.ignore ∧ (linkFrom j a l S).area = S.area ∧ (linkFrom j a l S).bound = S.bound
  | [], a, S, _, _ => by
    unfold linkFrom
    refine ⟨⟨?_, ?_⟩, ?_, ?_, ?_, rfl, rfl, rfl⟩
    · dsimp only; rw [upd2_same, upd_same]
    · dsimp only; rw [upd2_same, upd_same]
    · intro u hu; dsimp only; rw [upd2_same, upd_ne]; simpa using hu
    · intro v _ hv; dsimp only; rw [upd2_same, upd_ne _ _ hv]
    · intro i hi; dsimp only; rw [upd2_ne _ _ _ hi, upd2_ne _ _ _ hi]; exact ⟨rfl, rfl⟩
  | q :: qs, a, S, hnd, h0 => by
    have hnd' := List.nodup_cons.1 hnd
    obtain ⟨h1, h2, h3, h4, h5, h6, h7⟩ := linkFrom_spec j qs q
      { S with next := upd2 S.next j a q, prev := upd2 S.prev j q a } hnd'.2 (fun h => h0 (List.mem_cons_of_mem _ h))
    unfold linkFrom
    refine ⟨⟨?_, ?_, h1⟩, ?_, ?_, ?_, h5, h6, h7⟩
    · rw [h2 a hnd'.1]; dsimp only; rw [upd2_same, upd_same]
    · rw [h3 q (List.nodup_cons.1 hnd'.2).1 (fun h => h0 (by rw [h]; simp))]
      dsimp only; rw [upd2_same, upd_same]
    · intro u hu
      rw [h2 u (fun h => hu (List.mem_cons_of_mem _ h))]
      dsimp only; rw [upd2_same, upd_ne _ _ (fun h => hu (by rw [h]; simp))]
    · intro v hv hv0
      rw [h3 v (fun h => hv (List.mem_cons_of_mem _ h)) hv0]
      dsimp only; rw [upd2_same, upd_ne _ _ (fun h => hv (by rw [h]; simp))]
    · intro i hi
      rw [(h4 i hi).1, (h4 i hi).2]
      dsimp only; rw [upd2_ne _ _ _ hi, upd2_ne _ _ _ hi]; exact ⟨rfl, rfl⟩

theorem linkAll_spec (ords : ℕ → List ℕ) : ∀ (m : ℕ) (S : HvState ℝ), (∀ i < m, (ords i).Nodup ∧ 0 ∉ ords i) →
    (∀ i < m, Linked ((linkAll ords m S).next i) ((linkAll ords m S).prev i) (ords i)) ∧
    (∀ i, m ≤ i → (linkAll ords m S).next i = S.next i ∧ (linkAll ords m S).prev i = S.prev i) ∧
    (linkAll ords m S).ignore = S.ignore ∧ (linkAll ords m S).area = S.area ∧ (linkAll ords m S).bound = S.bound
  | 0, S, _ => ⟨fun i hi => absurd hi (by omega), fun _ _ => ⟨rfl, rfl⟩, rfl, rfl, rfl⟩
  | m + 1, S, h => by
    have hm := h m (by omega)
    obtain ⟨g1, _, _, g4, g5, g6, g7⟩ := linkFrom_spec m (ords m) 0 S (List.nodup_cons.2 ⟨hm.2, hm.1⟩) hm.2
    obtain ⟨f1, f2, f3, f4, f5⟩ := linkAll_spec ords m (linkFrom m 0 (ords m) S) (fun i hi => h i (by omega))
    unfold linkAll
    refine ⟨fun i hi => ?_, fun i hi => ?_, f3.trans g5, f4.trans g6, f5.trans g7⟩
    · by_cases him : i = m
      · subst him
        rw [(f2 i (le_refl _)).1, (f2 i (le_refl _)).2]; exact g1
      · exact f1 i (by omega)
    · rw [(f2 i (by omega)).1, (f2 i (by omega)).2]; exact g4 i (by omega)

theorem filterDeleteNode_spec (p : ℕ) : ∀ (m : ℕ) (S : HvState ℝ),
    (∀ i, (filterDeleteNode p m S).next i = if i < m then upd (S.next i) (S.prev i p) (S.next i p) else S.next i) ∧
    (∀ i, (filterDeleteNode p m S).prev i = if i < m then upd (S.prev i) (S.next i p) (S.prev i p) else S.prev i) ∧
    (filterDeleteNode p m S).ignore = S.ignore ∧ (filterDeleteNode p m S).area = S.area ∧
    (filterDeleteNode p m S).bound = S.bound
  | 0, S => ⟨fun i => by rw [if_neg (by omega)]; rfl, fun i => by rw [if_neg (by omega)]; rfl, rfl, rfl, rfl⟩
  | m + 1, S => by
    obtain ⟨h1, h2, h3, h4, h5⟩ := filterDeleteNode_spec p m S
    unfold filterDeleteNode filterDeleteStep
    set S1 := filterDeleteNode p m S with hS1
    have e : upd2 S1.prev m (S1.next m p) (S1.prev m p) m p = S1.prev m p := by
      rw [upd2_same]
      by_cases hp : p = S1.next m p
      · rw [← hp, upd_same]
      · rw [upd_ne _ _ hp]
    refine ⟨fun i => ?_, fun i => ?_, h3, h4, h5⟩
    · dsimp only
      rw [e]
      by_cases hi : i = m
      · subst hi
        rw [upd2_same, h1, h2, if_neg (by omega), if_neg (by omega), if_pos (by omega)]
      · rw [upd2_ne _ _ _ hi, h1]
        by_cases h : i < m
        · rw [if_pos h, if_pos (by omega)]
        · rw [if_neg h, if_neg (by omega)]
    · dsimp only
      by_cases hi : i = m
      · subst hi
        rw [upd2_same, h1, h2, if_neg (by omega), if_neg (by omega), if_pos (by omega)]
      · rw [upd2_ne _ _ _ hi, h2]
        by_cases h : i < m
        · rw [if_pos h, if_pos (by omega)]
        · rw [if_neg h, if_neg (by omega)]

theorem filterDim_spec (i : ℕ) (hi : i < d) (hsort : ∀ p ∈ N, ∀ q ∈ N, pos i p < pos i q → x p i ≤ x q i) (h0 : 0 ∉ N) :
    ∀ (r : List ℕ) (S : HvState ℝ), (∀ p ∈ r, p ∈ N) → r.Pairwise (fun a b => pos i a < pos i b) →
      Linked (S.next i) (S.prev i) r → (∀ k < d, LinkedSet (S.next k) (S.prev k) (pos k) r) →
      ∃ (r' : List ℕ) (S' : HvState ℝ), filterDim x ref d i r.length (lastD 0 r) r.length S = (r'.length, S') ∧ r'.Nodup ∧
        (∀ p, p ∈ r' ↔ p ∈ r ∧ x p i < ref i) ∧ (∀ k < d, LinkedSet (S'.next k) (S'.prev k) (pos k) r') ∧
        S'.ignore = S.ignore ∧ S'.area = S.area ∧ S'.bound = S.bound := by
  intro r
  induction r using List.reverseRecOn with
  | nil => intro S _ _ _ hls; exact ⟨[], S, rfl, List.nodup_nil, by simp, hls, rfl, rfl, rfl⟩
  | append_singleton r p ih =>
    intro S hN hpw hl hls
    have hz : 0 ∉ r ++ [p] := fun h => h0 (hN 0 h)
    have hnd := pairwise_pos_nodup hpw
    have hlen : (r ++ [p]).length = r.length + 1 := by simp
    rw [hlen, lastD_append_singleton]
    unfold filterDim
    by_cases hlt : x p i < ref i
    · rw [if_pos hlt]
      refine ⟨r ++ [p], S, by rw [hlen], hnd, fun q => ?_, hls, rfl, rfl, rfl⟩
      refine ⟨fun hq => ⟨hq, ?_⟩, fun hq => hq.1⟩
      rcases List.mem_append.1 hq with h | h
      · exact lt_of_le_of_lt (hsort q (hN q hq) p (hN p (by simp))
          ((List.pairwise_append.1 hpw).2.2 q h p (by simp))) hlt
      · simp at h; rw [h]; exact hlt
    · rw [if_neg hlt]
      dsimp only
      obtain ⟨g1, g2, g3, g4, g5⟩ := filterDeleteNode_spec p d S
      set S1 := filterDeleteNode p d S with hS1
      have hpr : p ∉ r := fun hp => (List.nodup_append.1 hnd).2.2 p hp p (by simp) rfl
      have hl1 : Linked (S1.next i) (S1.prev i) r := by
        rw [g1, g2, if_pos hi, if_pos hi]
        have := Linked.unlink (l1 := r) (p := p) (l2 := []) hl hnd hz
        rw [List.append_nil] at this; exact this
      have hls1 : ∀ k < d, LinkedSet (S1.next k) (S1.prev k) (pos k) r := by
        intro k hk
        rw [g1, g2, if_pos hk, if_pos hk]
        exact (hls k hk).unlink hz hpr
      have hprev : S1.prev i p = lastD 0 r := by
        have hat := LinkedFrom.at (l1 := r) (p := p) (l2 := []) hl
        have hnb := Linked.nbr (l1 := r) (p := p) (l2 := []) hl hnd hz
        rw [g2, if_pos hi, upd_ne _ _ (Ne.symm hnb.2.2.2)]; exact hat.1
      rw [hprev, Nat.add_sub_cancel]
      obtain ⟨r', S', f1, f2, f3, f4, f5, f6, f7⟩ := ih S1 (fun q hq => hN q (List.mem_append_left _ hq))
        (List.pairwise_append.1 hpw).1 hl1 hls1
      refine ⟨r', S', f1, f2, fun q => ?_, f4, f5.trans g3, f6.trans g4, f7.trans g5⟩
      rw [f3, List.mem_append, List.mem_singleton]
      constructor
      · rintro ⟨h1, h2⟩; exact ⟨Or.inl h1, h2⟩
      · rintro ⟨h1 | rfl, h2⟩
        · exact ⟨h1, h2⟩
        · exact absurd h2 hlt

theorem filterRef_spec (hsort : ∀ i < d, ∀ p ∈ N, ∀ q ∈ N, pos i p < pos i q → x p i ≤ x q i) (h0 : 0 ∉ N) (hN : N.Nodup)
    (S : HvState ℝ) (hls : ∀ k < d, LinkedSet (S.next k) (S.prev k) (pos k) N) : ∀ m, m ≤ d →
    ∃ (A : List ℕ) (S' : HvState ℝ), filterRef x ref d m N.length S = (A.length, S') ∧ A.Nodup ∧
      (∀ p, p ∈ A ↔ p ∈ N ∧ ∀ k < m, x p k < ref k) ∧ (∀ k < d, LinkedSet (S'.next k) (S'.prev k) (pos k) A) ∧
      S'.ignore = S.ignore ∧ S'.area = S.area ∧ S'.bound = S.bound := by
  intro m
  induction m with
  | zero =>
    intro _
    exact ⟨N, S, rfl, hN, fun p => ⟨fun h => ⟨h, fun k hk => absurd hk (by omega)⟩, fun h => h.1⟩, hls, rfl, rfl, rfl⟩
  | succ m ih =>
    intro hm
    obtain ⟨A, S', g1, g2, g3, g4, g5, g6, g7⟩ := ih (by omega)
    obtain ⟨l, hl1, hl2, hl3⟩ := g4 m (by omega)
    have hlen : l.length = A.length := length_eq_of_mem_iff (pairwise_pos_nodup hl2) g2 hl1
    have hlast : S'.prev m 0 = lastD 0 l := LinkedFrom.last hl3
    have hlsl : ∀ k < d, LinkedSet (S'.next k) (S'.prev k) (pos k) l := by
      intro k hk
      obtain ⟨l', h1, h2, h3⟩ := g4 k hk
      exact ⟨l', fun p => (h1 p).trans (hl1 p).symm, h2, h3⟩
    obtain ⟨r', S'', f1, f2, f3, f4, f5, f6, f7⟩ := filterDim_spec (ref := ref) m (by omega) (hsort m (by omega)) h0 l S'
      (fun p hp => ((g3 p).1 ((hl1 p).1 hp)).1) hl2 hl3 hlsl
    refine ⟨r', S'', ?_, f2, fun p => ?_, f4, f5.trans g5, f6.trans g6, f7.trans g7⟩
    · unfold filterRef
      rw [g1]
      dsimp only
      rw [hlast, ← hlen]; exact f1
    · rw [f3, hl1, g3]
      constructor
      · rintro ⟨⟨h1, h2⟩, h3⟩
        refine ⟨h1, fun k hk => ?_⟩
        rcases Nat.lt_succ_iff_lt_or_eq.1 hk with hk | rfl
        · exact h2 k hk
        · exact h3
      · rintro ⟨h1, h2⟩
        exact ⟨⟨h1, fun k hk => h2 k (by omega)⟩, h2 m (by omega)⟩

theorem idxOf_lt_of_getElem {l : List ℕ} (hl : l.Nodup) {i j : ℕ} (hi : i < l.length) (hj : j < l.length) :
    l.idxOf l[i] < l.idxOf l[j] ↔ i < j := by
  rw [hl.idxOf_getElem i hi, hl.idxOf_getElem j hj]

theorem pairwise_idxOf {l : List ℕ} (hl : l.Nodup) : l.Pairwise (fun a b => l.idxOf a < l.idxOf b) := by
  rw [List.pairwise_iff_getElem]
  intro i j hi hj hij
  exact (idxOf_lt_of_getElem hl hi hj).2 hij

theorem pairwise_of_idxOf {l : List ℕ} {R : ℕ → ℕ → Prop} (h : l.Pairwise R) {a b : ℕ} (ha : a ∈ l) (hb : b ∈ l)
    (hlt : l.idxOf a < l.idxOf b) : R a b := by
  rw [List.pairwise_iff_getElem] at h
  have h1 := List.idxOf_lt_length_iff.2 ha
  have h2 := List.idxOf_lt_length_iff.2 hb
  have := h _ _ h1 h2 hlt
  rwa [List.getElem_idxOf, List.getElem_idxOf] at this

theorem sublist_pair_iff {l : List ℕ} (hl : l.Nodup) {a b : ℕ} : [a, b].Sublist l ↔ a ∈ l ∧ b ∈ l ∧ l.idxOf a < l.idxOf b := by
  constructor
  · intro h
    have ha : a ∈ l := h.subset (by simp)
    have hb : b ∈ l := h.subset (by simp)
    refine ⟨ha, hb, ?_⟩
    have := (pairwise_idxOf hl).sublist h
    exact (List.pairwise_cons.1 this).1 b (by simp)
  · rintro ⟨ha, hb, hlt⟩
    obtain ⟨l1, l2, rfl⟩ := List.append_of_mem ha
    have hb2 : b ∈ l2 := by
      rcases List.mem_append.1 hb with h | h
      · exfalso
        have hpw := pairwise_idxOf hl
        have := (List.pairwise_append.1 hpw).2.2 b h a (by simp)
        omega
      · rcases List.mem_cons.1 h with rfl | h
        · omega
        · exact h
    exact (List.Sublist.cons_cons a (List.singleton_sublist.2 hb2)).trans (List.sublist_append_right _ _)

theorem compareNode_le {j a b : ℕ} (h : compareNode x j a b ≤ 0) : x a j ≤ x b j := by
  unfold compareNode at h
  split at h
  · exact le_of_lt ‹_›
  · split at h
    · omega
    · exact not_lt.1 ‹_›

theorem hvOrders_perm {n : ℕ} {ords : ℕ → List ℕ} (h : HvOrders x d n ords) (i : ℕ) (hi : i < d) :
    (ords i).Perm (List.range' 1 n) := by
  have key : ∀ m, m ≤ d - 1 → (ords (d - 1 - m)).Perm (List.range' 1 n) := by
    intro m
    induction m with
    | zero => intro _; exact h.1.1
    | succ m ih =>
      intro hm
      have := h.2 (d - 1 - (m + 1)) (by omega)
      have e : d - 1 - (m + 1) + 1 = d - 1 - m := by omega
      rw [e] at this
      exact this.1.trans (ih (by omega))
  have := key (d - 1 - i) (by omega)
  rwa [show d - 1 - (d - 1 - i) = i by omega] at this

theorem hvOrders_sorted {n : ℕ} {ords : ℕ → List ℕ} (h : HvOrders x d n ords) (i : ℕ) (hi : i < d) :
    (ords i).Pairwise (fun a b => x a i ≤ x b i) := by
  by_cases he : i + 1 < d
  · exact (h.2 i he).2.imp (fun hab => compareNode_le hab)
  · have : i = d - 1 := by omega
    subst this
    exact h.1.2.imp (fun hab => compareNode_le hab)

/-- Successive sorts order ties alike: nodes with equal coordinate `j` keep the order they had in the array that was sorted.  Only the dimensions
`2 ≤ j < d - 1` matter.  A stable `qsort` has this property. -/
def TiesConsistent (x : ℕ → ℕ → ℝ) (d : ℕ) (ords : ℕ → List ℕ) : Prop :=
  ∀ j, 2 ≤ j → j + 1 < d → ∀ a b, [a, b].Sublist (ords (j + 1)) → x a j = x b j → [a, b].Sublist (ords j)

theorem HV_nodeTable (pts : ℕ → ℕ → ℝ) (n : ℕ) :
    HV d (nodeTable pts) (List.range' 1 n) ref = HV d pts (List.range n) ref := by
  unfold HV
  congr 2
  ext y
  constructor
  · rintro ⟨p, hp, hy⟩
    rw [List.mem_range'_1] at hp
    exact ⟨p - 1, List.mem_range.2 (by omega), hy⟩
  · rintro ⟨p, hp, hy⟩
    rw [List.mem_range] at hp
    refine ⟨p + 1, List.mem_range'_1.2 (by omega), ?_⟩
    unfold nodeTable
    rw [Nat.add_sub_cancel]; exact hy

/-- The value of `fpli_hv` for `d ≥ 3`, for every function `R` that returns the hypervolume of the nodes in the lists. -/
theorem fpliHvN_eq_of (hd : 3 ≤ d) (n : ℕ) (ords : ℕ → List ℕ) (b0 : ℝ) (mem : HvState ℝ) (hord : HvOrders x d n ords)
    (hties : TiesConsistent x d ords) (hb : ∀ p, 1 ≤ p → p ≤ n → ∀ k < d, b0 ≤ x p k) (R : ℕ → HvState ℝ → ℝ)
    (hR : ∀ (pos : ℕ → ℕ → ℕ) (A : List ℕ) (S : HvState ℝ), A.length ≤ n → HvCtx x ref pos d A → HvCons x pos d A →
      HvPreC x ref pos A (d - 3 + 2) A A.length S → R A.length S = HV d x A ref) :
    (let r := filterRef x ref d d n (setupCdllist ords d b0 mem)
     if r.1 = 0 then 0 else if r.1 = 1 then boxProduct x ref (r.2.next 0 0) d else R r.1 r.2) = HV d x (List.range' 1 n) ref := by
  set N := List.range' 1 n with hNdef
  have hNnd : N.Nodup := by rw [hNdef]; exact List.nodup_range'
  have hN0 : 0 ∉ N := by rw [hNdef, List.mem_range'_1]; omega
  set pos : ℕ → ℕ → ℕ := fun i p => (ords i).idxOf p with hpos
  have hperm : ∀ i < d, (ords i).Perm N := fun i hi => hvOrders_perm hord i hi
  have hnd : ∀ i < d, (ords i).Nodup := fun i hi => (hperm i hi).nodup_iff.2 hNnd
  have hmem : ∀ i < d, ∀ p, p ∈ ords i ↔ p ∈ N := fun i hi p => (hperm i hi).mem_iff
  have hsort : ∀ i < d, ∀ p ∈ N, ∀ q ∈ N, pos i p < pos i q → x p i ≤ x q i := by
    intro i hi p hp q hq hlt
    exact pairwise_of_idxOf (hvOrders_sorted hord i hi) ((hmem i hi p).2 hp) ((hmem i hi q).2 hq) hlt
  -- setup
  set S0 := setupCdllist ords d b0 mem with hS0
  obtain ⟨s1, _, s3, s4, s5⟩ := linkAll_spec ords d
    { mem with
      ignore := fun _ => 0
      area := fun i p => if p = 0 ∧ i < d then 0 else mem.area i p
      bound := fun _ => b0 } (fun i hi => ⟨hnd i hi, fun h => hN0 ((hmem i hi 0).1 h)⟩)
  have hls0 : ∀ k < d, LinkedSet (S0.next k) (S0.prev k) (pos k) N :=
    fun k hk => ⟨ords k, hmem k hk, pairwise_idxOf (hnd k hk), s1 k hk⟩
  -- filter
  obtain ⟨A, S1, f1, f2, f3, f4, f5, f6, f7⟩ := filterRef_spec (ref := ref) hsort hN0 hNnd S0 hls0 d (le_refl _)
  have hNlen : N.length = n := by rw [hNdef, List.length_range']
  rw [hNlen] at f1
  have hdrop : HV d x N ref = HV d x A ref := by
    apply HV_drop
    · intro p hp; exact ((f3 p).1 hp).1
    · intro p hp
      by_cases h : p ∈ A
      · exact Or.inl h
      · right
        by_contra hcon
        push Not at hcon
        exact h ((f3 p).2 ⟨hp, hcon⟩)
  dsimp only
  rw [f1, hdrop]
  dsimp only
  by_cases hA0 : A.length = 0
  · rw [if_pos hA0, List.length_eq_zero_iff.1 hA0, HV_nil]
  rw [if_neg hA0]
  by_cases hA1 : A.length = 1
  · rw [if_pos hA1]
    obtain ⟨p, rfl⟩ := List.length_eq_one_iff.1 hA1
    obtain ⟨l, h1, h2, h3⟩ := f4 0 (by omega)
    have hl : l = [p] := by
      have hlen := length_eq_of_mem_iff (pairwise_pos_nodup h2) (List.nodup_singleton p) h1
      obtain ⟨q, rfl⟩ := List.length_eq_one_iff.1 hlen
      have := (h1 q).1 (by simp)
      simp at this; rw [this]
    subst hl
    have : S1.next 0 0 = p := h3.1
    rw [this]
    exact boxProduct_eq p d (fun k hk => (((f3 p).1 (by simp)).2 k hk).le)
  · rw [if_neg hA1]
    have ctx : HvCtx x ref pos d A :=
      { zero := fun h => hN0 ((f3 0).1 h).1
        below := fun p hp k hk => ((f3 p).1 hp).2 k hk
        sorted := fun i _ hi p hp q hq => hsort i hi p ((f3 p).1 hp).1 q ((f3 q).1 hq).1 }
    have cons : HvCons x pos d A := by
      intro i h2 hi q hq p hp hlt hle
      have hqN := ((f3 q).1 hq).1
      have hpN := ((f3 p).1 hp).1
      by_contra hcon
      have hne : pos i q ≠ pos i p := by
        intro he
        have hqi := (hmem i (by omega) q).2 hqN
        have : q = p := List.idxOf_inj (l := ords i) hqi |>.1 he
        rw [this] at hlt; omega
      have hlt' : pos i p < pos i q := by omega
      have heq : x q i = x p i := le_antisymm hle (hsort i (by omega) p hpN q hqN hlt')
      have := hties i h2 hi q p ((sublist_pair_iff (hnd (i + 1) hi)).2
        ⟨(hmem _ hi q).2 hqN, (hmem _ hi p).2 hpN, hlt⟩) heq
      exact hcon ((sublist_pair_iff (hnd i (by omega))).1 this).2.2
    have hpre : HvPreC x ref pos A (d - 3 + 2) A A.length S1 := by
      refine { nodup := f2, ne := fun h => hA0 (by rw [h]; rfl), len := rfl, sub := fun p hp => hp, lists := ?_, flags := ?_,
               cache := ?_, head := ?_ }
      · intro i _ hi; exact f4 i (by omega)
      · intro p _ h1
        have : S1.ignore p = 0 := by rw [f5]; exact congrFun s3 p
        omega
      · intro i h3 hi q hq hlt
        exfalso
        have hqN := ((f3 q).1 hq).1
        rw [hNdef, List.mem_range'_1] at hqN
        have hb' := hb q hqN.1 (by omega) i (by omega)
        have : S1.bound i = b0 := by rw [f7]; exact congrFun s5 i
        rw [this] at hlt
        exact absurd hlt (not_lt.2 hb')
      · intro i hi
        rw [f6]
        have : S0.area i 0 = if (0 : ℕ) = 0 ∧ i < d then 0 else mem.area i 0 := congrFun (congrFun s4 i) 0
        rw [this, if_pos ⟨rfl, by omega⟩]
    refine hR pos A S1 ?_ ctx cons hpre
    have hsub := List.subperm_of_subset f2 (fun p hp => ((f3 p).1 hp).1)
    rw [← hNlen]; exact hsub.length_le

/-- The value of `fpli_hv` for `d ≥ 3`. -/
theorem fpliHvN_eq (hd : 3 ≤ d) (n : ℕ) (ords : ℕ → List ℕ) (b0 : ℝ) (mem : HvState ℝ) (hord : HvOrders x d n ords)
    (hties : TiesConsistent x d ords) (hb : ∀ p, 1 ≤ p → p ≤ n → ∀ k < d, b0 ≤ x p k) :
    fpliHvN x d n ref ords b0 mem = HV d x (List.range' 1 n) ref := by
  refine fpliHvN_eq_of hd n ords b0 mem hord hties hb (fun c S => (hvRec x ref (d - 3) c S).1) ?_
  intro pos A S _ ctx cons hpre
  have post := hvRec_spec ctx cons (d - 3) (by omega) A A.length S hpre
  rw [post.val]
  have e : d - 3 + 2 + 1 = d := by omega
  rw [e]

end Moo
