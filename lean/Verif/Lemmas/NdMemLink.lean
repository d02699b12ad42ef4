import Verif.Lemmas.RankMem
import Verif.Lemmas.NondominatedSpec
import Verif.Lemmas.ParetoRank

set_option autoImplicit false
set_option linter.unusedSectionVars false

/-! # Helper lemmas: the memory model and the order model compute the same -/

namespace Moo

section
variable {α : Type} [LinearOrder α]

/-! ## runs depend only on the relation between rows -/

theorem ndInner_eq_R {y : ℕ → ℕ → α} {m : ℕ} {mm : ℕ → ℤ} {agree : ℤ} {size : ℕ} {R : ℕ → ℕ → Bool}
    (hR : ∀ j < size, ∀ k < size, j ≠ k → leqPair m mm agree (y j) (y k) = (R j k, R k j)) (kw : Bool) {k : ℕ} (hk : k < size) :
    ∀ (js : List ℕ) (nd : ℕ → Bool), (∀ j ∈ js, k < j ∧ j < size) →
    ndInner y m mm agree false kw k js nd = .cont (ndInnerR R false kw k js nd).2 := by
  intro js
  induction js with
  | nil => intro nd _; rfl
  | cons j js ih =>
    intro nd hjs
    have hj := hjs j (by simp)
    have ih' := fun nd => ih nd (fun y hy => hjs y (by simp [hy]))
    unfold ndInner ndInnerR
    rw [hR j hj.2 k hk (by omega)]
    simp only [ih', Bool.false_and, Bool.false_eq_true, if_false]
    have : (!(!R j k || kw && R k j || (!R k j || R j k))) = false := by
      cases R j k <;> cases R k j <;> simp
    rw [this]
    simp only [Bool.false_eq_true, if_false]
    split_ifs <;> rfl

theorem ndOuter_eq_R {y : ℕ → ℕ → α} {m : ℕ} {mm : ℕ → ℤ} {agree : ℤ} {size : ℕ} {R : ℕ → ℕ → Bool}
    (hR : ∀ j < size, ∀ k < size, j ≠ k → leqPair m mm agree (y j) (y k) = (R j k, R k j)) (kw : Bool) :
    ∀ (ks : List ℕ) (nd : ℕ → Bool), (∀ k ∈ ks, k < size) →
    ndOuter y m size mm agree false kw ks nd = .cont (ndOuterR R size false kw ks nd).2 := by
  intro ks
  induction ks with
  | nil => intro nd _; rfl
  | cons k ks ih =>
    intro nd hks
    unfold ndOuter ndOuterR
    rw [ndInner_eq_R hR kw (hks k (by simp)) _ _ (by intro j hj; rw [List.mem_range'_1] at hj; omega)]
    simp only
    have := ndInnerR_none R kw k (List.range' (k + 1) (size - (k + 1))) nd
    rcases h : ndInnerR R false kw k (List.range' (k + 1) (size - (k + 1))) nd with ⟨_ | v, nd'⟩
    · exact ih _ (fun y hy => hks y (by simp [hy]))
    · rw [h] at this; simp at this

theorem leqPair_row (m : ℕ) (mm : ℕ → ℤ) (agree : ℤ) (y : ℕ → ℕ → α) (j k : ℕ) :
    leqPair m mm agree (y j) (y k) = (rowLe (ordCmp α) m mm agree y j k, rowLe (ordCmp α) m mm agree y k j) := by
  have hl : ∀ j k, rowLe (ordCmp α) m mm agree y j k = true ↔ leRow m mm agree (y j) (y k) := by
    intro j k
    unfold rowLe leRow
    rw [List.all_eq_true]
    simp only [List.mem_range]
    refine forall_congr' fun d => forall_congr' fun _ => ?_
    unfold leC leCoord ordCmp
    split_ifs <;> simp
  apply Prod.ext
  · rw [Bool.eq_iff_iff, leqPair_fst, hl]
  · rw [Bool.eq_iff_iff, leqPair_snd, hl]

/-- A relation between the rows, realised as the dominance relation of a table. -/
def embed (R : ℕ → ℕ → Bool) : ℕ → ℕ → ℕ := fun i d => if d = i ∨ R d i = true then 1 else 0

/-- Transitive between different rows. -/
def RTrans (size : ℕ) (R : ℕ → ℕ → Bool) : Prop :=
  ∀ i < size, ∀ j < size, ∀ k < size, i ≠ k → R i j = true → R j k = true → R i k = true

theorem embed_le {size : ℕ} {R : ℕ → ℕ → Bool} (hR : RTrans size R) {j k : ℕ} (hj : j < size) (hk : k < size) :
    (∀ d < size, embed R j d ≤ embed R k d) ↔ (j = k ∨ R j k = true) := by
  constructor
  · intro h
    have := h j hj
    unfold embed at this
    rw [if_pos (Or.inl rfl)] at this
    by_contra hc
    rw [if_neg hc] at this
    omega
  · rintro (rfl | h) d hd
    · exact le_rfl
    · unfold embed
      by_cases h1 : d = j ∨ R d j = true
      · rw [if_pos h1, if_pos]
        by_cases hdk : d = k
        · exact Or.inl hdk
        · right
          rcases h1 with rfl | h1
          · exact h
          · exact hR d hd j hj k hk hdk h1 h
      · rw [if_neg h1]; omega

theorem embed_leRow {size : ℕ} {R : ℕ → ℕ → Bool} (hR : RTrans size R) {j k : ℕ} (hj : j < size) (hk : k < size) :
    leRow size (fun _ => -1) AGREE_NONE (embed R j) (embed R k) ↔ (j = k ∨ R j k = true) := by
  rw [← embed_le hR hj hk]
  unfold leRow leCoord AGREE_NONE
  simp

theorem embed_pair {size : ℕ} {R : ℕ → ℕ → Bool} (hR : RTrans size R) (j : ℕ) (hj : j < size) (k : ℕ) (hk : k < size) (hne : j ≠ k) :
    leqPair size (fun _ => -1) AGREE_NONE (embed R j) (embed R k) = (R j k, R k j) := by
  apply Prod.ext
  · rw [Bool.eq_iff_iff, leqPair_fst, embed_leRow hR hj hk]; simp [hne]
  · rw [Bool.eq_iff_iff, leqPair_snd, embed_leRow hR hk hj]; simp [hne.symm]

/-- What the pairwise loop leaves, for any transitive relation between the rows. -/
theorem ndOuterR_final {size : ℕ} {R : ℕ → ℕ → Bool} (hR : RTrans size R) (kw : Bool) :
    ∀ i < size, (ndOuterR R size false kw (List.range (size - 1)) (fun _ => true)).2 i = true ↔
      ∀ j < size, j ≠ i → R j i = true → R i j = true ∧ (kw = true ∨ j < i) := by
  obtain ⟨nd', e, h⟩ := ndOuter_final (α := ℕ) (dim := size) (minmax := fun _ => -1) (agree := AGREE_NONE) (keep := kw) (pts := embed R)
    (size := size) (fun _ => true) (fun _ _ => rfl)
  rw [ndOuter_eq_R (embed_pair hR) kw _ _ (fun k hk => by rw [List.mem_range] at hk; omega)] at e
  simp only [NdStep.cont.injEq] at e
  subst e
  intro i hi
  rw [h i hi]
  refine forall_congr' fun j => forall_congr' fun hj => ?_
  unfold Beats
  rw [embed_leRow hR hj hi, embed_leRow hR hi hj]
  by_cases hji : j = i
  · subst hji; simp
  · have hij : i ≠ j := fun h => hji h.symm
    have hle : j ≤ i ↔ j < i := ⟨fun h => by omega, fun h => by omega⟩
    cases kw <;> simp [hji, hij, hle]

/-! ## two objectives -/

theorem nd2dScanR_eq (x : ℕ → ℕ → α) (kw : Bool) : ∀ (js : List ℕ) (k pos : ℕ) (nd : ℕ → Bool) (n : ℤ),
    nd2dScanR (geY (ordCmp α) x) (neXY (ordCmp α) x) kw k pos js nd n = nd2dScan x kw k pos js nd n := by
  intro js
  induction js with
  | nil => intro k pos nd n; rfl
  | cons j js ih =>
    intro k pos nd n
    unfold nd2dScanR nd2dScan
    simp only [ih]
    have h1 : (geY (ordCmp α) x j k = true) ↔ x j 1 ≥ x k 1 := by simp [geY, ordCmp]
    have h2 : ((!kw || neXY (ordCmp α) x j k) = true) ↔ ((!kw || decide (x j 0 ≠ x k 0) || decide (x j 1 ≠ x k 1)) = true) := by
      simp [neXY, ordCmp, or_assoc]
    simp only [h1, h2]

theorem nd2dR_eq (x : ℕ → ℕ → α) (kw : Bool) (garbage nd : ℕ → Bool) (p : List ℕ) :
    nd2dR (geY (ordCmp α) x) (neXY (ordCmp α) x) kw garbage nd p = findNondominatedSet2d x kw garbage nd p := by
  cases p with
  | nil => rfl
  | cons k js => simp only [nd2dR, findNondominatedSet2d, nd2dScanR_eq]

theorem nd2dScan_congr {x x' : ℕ → ℕ → α} (h : ∀ k, ∀ d < 2, x k d = x' k d) (kw : Bool) : ∀ (js : List ℕ) (k pos : ℕ) (nd : ℕ → Bool) (n : ℤ),
    nd2dScan x kw k pos js nd n = nd2dScan x' kw k pos js nd n := by
  intro js
  induction js with
  | nil => intro k pos nd n; rfl
  | cons j js ih =>
    intro k pos nd n
    unfold nd2dScan
    rw [h j 0 (by omega), h j 1 (by omega), h k 0 (by omega), h k 1 (by omega)]
    simp only [ih]

theorem findNd2d_congr {x x' : ℕ → ℕ → α} (h : ∀ k, ∀ d < 2, x k d = x' k d) (kw : Bool) (garbage nd : ℕ → Bool) (p : List ℕ) :
    findNondominatedSet2d x kw garbage nd p = findNondominatedSet2d x' kw garbage nd p := by
  cases p with
  | nil => rfl
  | cons k js => simp only [findNondominatedSet2d, nd2dScan_congr h]

/-- The memory model and the order model give the same flags. -/
theorem isNondominated_flagsR [Neg α] (sortFn : Blk α → List ℕ → List ℕ) (garbage : ℕ → Bool) (x : ℕ → ℕ → α) (dim size : ℕ) (mx : ℕ → Bool) (kw : Bool) :
    isNondominated (fun pp n => sortFn (flatPts pp 2 n) (List.range n)) garbage x dim size mx kw =
      some (flagsR (ordCmp α) Neg.neg (sortFn (flatPts (agreeRows Neg.neg (minmaxFromBool mx) x) 2 size) (List.range size)) x dim size
        (minmaxFromBool mx) kw garbage) := by
  unfold isNondominated findNondominatedSet_ flagsR
  by_cases h2 : size < 2
  · simp only [if_pos h2]; rfl
  · rw [if_neg h2, if_neg h2]
    by_cases hd : dim = 2
    · subst hd
      rw [if_pos rfl, if_pos rfl]
      have hfa : ∃ pp, forceAgreeMinimize x 2 (minmaxFromBool mx) AGREE_NONE = some pp ∧ ∀ k, ∀ d < 2, pp k d = agreeRows Neg.neg (minmaxFromBool mx) x k d := by
        unfold forceAgreeMinimize
        rw [if_neg (by decide)]
        by_cases hc : (List.range 2).all (fun d => !decide (minmaxFromBool mx d > 0)) = true
        · rw [if_pos hc]
          refine ⟨x, rfl, fun k d hd => ?_⟩
          rw [List.all_eq_true] at hc
          have := hc d (List.mem_range.2 hd)
          simp only [Bool.not_eq_true', decide_eq_false_iff_not] at this
          simp [agreeRows, this]
        · rw [if_neg hc, if_neg]
          · refine ⟨_, rfl, fun k d hd => ?_⟩
            simp [agreeRows, hd]
          · simp [minmaxFromBool_ne]
      obtain ⟨pp, e, hpp⟩ := hfa
      rw [e]
      simp only [Bool.false_eq_true, if_false]
      rw [nd2dR_eq, findNd2d_congr hpp, flat_congr (fun k _ d hd => hpp k d hd)]
      rfl
    · rw [if_neg hd, if_neg hd]
      rw [ndOuter_eq_R (R := rowLe (ordCmp α) dim (minmaxFromBool mx) AGREE_NONE x) (fun j _ k _ _ => leqPair_row _ _ _ _ _ _) kw _ _
        (fun k hk => by rw [List.mem_range] at hk; omega)]
      rfl

/-! ## ranks -/

theorem rkDominates_row (m : ℕ) (y : ℕ → ℕ → α) (j k : ℕ) : rkDominates (y j) (y k) m = rkLe (ordCmp α) m y j k := by
  unfold rkDominates rkLe ordCmp
  have : ∀ (l : List ℕ) (s : Bool), l.foldl (fun s d => s && decide (y j d ≤ y k d)) s = (s && l.all (fun d => decide (y j d ≤ y k d))) := by
    intro l
    induction l with
    | nil => intro s; simp
    | cons d l ih => intro s; rw [List.foldl_cons, ih]; simp [Bool.and_assoc]
  rw [this]; simp

theorem rkInner_eq_R {y : ℕ → ℕ → α} {m size level : ℕ} {R : ℕ → ℕ → Bool}
    (hR : ∀ j < size, ∀ k < size, j ≠ k → rkDominates (y j) (y k) m = R j k) {j : ℕ} (hj : j < size) :
    ∀ (ks : List ℕ) (rank : ℕ → ℕ) (nn : Bool), (∀ k ∈ ks, k < size) → rkInner y m level j ks rank nn = rkInnerR R level j ks rank nn := by
  intro ks
  induction ks with
  | nil => intro rank nn _; rfl
  | cons k ks ih =>
    intro rank nn hks
    have hk := hks k (by simp)
    have ih' := fun rank nn => ih rank nn (fun y hy => hks y (by simp [hy]))
    unfold rkInner rkInnerR
    by_cases h1 : k = j
    · rw [if_pos h1, if_pos h1, ih']
    · rw [if_neg h1, if_neg h1]
      simp only
      rw [hR j hj k hk (fun h => h1 h.symm), hR k hk j hj h1]
      simp only [ih']

theorem rkPass_eq_R {y : ℕ → ℕ → α} {m size L : ℕ} {R : ℕ → ℕ → Bool}
    (hR : ∀ j < size, ∀ k < size, j ≠ k → rkDominates (y j) (y k) m = R j k) :
    ∀ (js : List ℕ) (rank : ℕ → ℕ) (nn : Bool), (∀ j ∈ js, j < size) → (∀ i < size, rank i ≤ L + 1) →
    rkPass y m size (L + 1) js rank nn = some (rkPassR R size (L + 1) js rank nn) := by
  intro js
  induction js with
  | nil => intro rank nn _ _; rfl
  | cons j js ih =>
    intro rank nn hjs hr
    have hj := hjs j (by simp)
    have ih' := fun rank nn => ih rank nn (fun y hy => hjs y (by simp [hy]))
    unfold rkPass rkPassR
    rw [if_neg (not_not.2 (hr j hj))]
    simp only [Nat.add_sub_cancel]
    by_cases h1 : rank j ≠ L
    · rw [if_pos h1, if_pos h1, ih' _ _ hr]
    · rw [if_neg h1, if_neg h1, rkInner_eq_R hR hj _ _ _ (fun k hk => List.mem_range.1 hk)]
      rw [not_not] at h1
      apply ih'
      intro i hi
      rcases (rkInnerR_facts R L j (List.range size) rank nn h1).1 i with h | ⟨-, h⟩
      · rw [h]; exact hr i hi
      · omega

theorem rkLevels_eq_R {y : ℕ → ℕ → α} {m size : ℕ} {R : ℕ → ℕ → Bool}
    (hR : ∀ j < size, ∀ k < size, j ≠ k → rkDominates (y j) (y k) m = R j k) :
    ∀ (fuel L : ℕ) (rank : ℕ → ℕ), (∀ i < size, rank i ≤ L) →
    rkLevels y m size fuel (L + 1) rank = (match rkLevelsR R size fuel (L + 1) rank with | none => .outOfFuel | some r => .done r) := by
  intro fuel
  induction fuel with
  | zero => intro L rank _; rfl
  | succ fuel ih =>
    intro L rank hr
    unfold rkLevels rkLevelsR
    rw [rkPass_eq_R hR _ _ _ (fun j hj => List.mem_range.1 hj) (fun i hi => by have := hr i hi; omega)]
    have hf := (rkPassR_facts R size L (List.range size) rank true (fun j hj => List.mem_range.1 hj)).1
    simp only
    split_ifs with h
    · rfl
    · apply ih
      intro i hi
      have := hr i hi
      rcases hf i with h | ⟨-, h⟩ <;> omega

theorem rkSearch_eq_R (pos : ℕ → ℕ → α) (last : ℕ → ℕ) (nf k : ℕ) : ∀ (fuel low high : ℕ), low < high → high ≤ nf + 1 →
    rkSearch pos last nf (pos k) fuel low high = rkSearchR (yLt (ordCmp α) pos k) (yGt (ordCmp α) pos k) last fuel low high := by
  intro fuel
  induction fuel with
  | zero => intro low high _ _; rfl
  | succ fuel ih =>
    intro low high h1 h2
    unfold rkSearch rkSearchR
    have hm : low + (high - low) / 2 ≤ nf := by omega
    simp only
    rw [if_neg (not_not.2 hm)]
    have c1 : (yLt (ordCmp α) pos k (last (low + (high - low) / 2)) = true) ↔ pos k 1 < pos (last (low + (high - low) / 2)) 1 := by
      simp [yLt, ordCmp]
    have c2 : (yGt (ordCmp α) pos k (last (low + (high - low) / 2)) = true) ↔ (pos k 1 > pos (last (low + (high - low) / 2)) 1 ∨
      (pos k 1 = pos (last (low + (high - low) / 2)) 1 ∧ pos k 0 > pos (last (low + (high - low) / 2)) 0)) := by
      simp [yGt, ordCmp]
    simp only [c1, c2]
    split_ifs with h4 h5 h6 h7
    · exact ih _ _ h5 (by omega)
    · rfl
    · exact ih _ _ h7 h2
    · rfl
    · rfl

theorem rk2dStep_eq_R (pos : ℕ → ℕ → α) {k : ℕ} {s : Rk2d} :
    rk2dStep pos k s = rk2dStepR (yLt (ordCmp α) pos) (yGt (ordCmp α) pos) (xyEq (ordCmp α) pos) true k s := by
  unfold rk2dStep rk2dStepR
  simp only
  have c1 : (yLt (ordCmp α) pos k (s.last s.nFront) = true) ↔ pos k 1 < pos (s.last s.nFront) 1 := by simp [yLt, ordCmp]
  have c2 : (xyEq (ordCmp α) pos k (s.last s.nFront) = true) ↔ (pos k 1 = pos (s.last s.nFront) 1 ∧ pos k 0 = pos (s.last s.nFront) 0) := by
    simp [xyEq, ordCmp]
  simp only [c1, c2]
  rw [rkSearch_eq_R pos s.last s.nFront k (s.nFront + 2) 0 (s.nFront + 1) (by omega) le_rfl]
  by_cases hlt : pos k 1 < pos (s.last s.nFront) 1
  · rw [if_pos hlt, if_pos hlt]
    obtain ⟨low, er, hr⟩ := rkSearchR_le (gt := yGt (ordCmp α) pos k) (c1.2 hlt) (s.nFront + 2) 0 (s.nFront + 1) (by omega) le_rfl (by omega)
    rw [er]
    simp only
    rw [if_neg (not_not.2 hr)]
    congr 1
    simp [yLt, xyEq, ordCmp]
    intro _
    tauto
  · rw [if_neg hlt, if_neg hlt]

theorem rk2dLoop_eq_R (pos : ℕ → ℕ → α) : ∀ (ks : List ℕ) (s : Rk2d),
    rk2dLoop pos ks s = rk2dLoopR (yLt (ordCmp α) pos) (yGt (ordCmp α) pos) (xyEq (ordCmp α) pos) true ks s := by
  intro ks
  induction ks with
  | nil => intro s; rfl
  | cons k ks ih =>
    intro s
    unfold rk2dLoop rk2dLoopR
    rw [rk2dStep_eq_R]
    cases rk2dStepR (yLt (ordCmp α) pos) (yGt (ordCmp α) pos) (xyEq (ordCmp α) pos) true k s with
    | none => rfl
    | some s' => exact ih s'

theorem paretoRank2d_eq_R (garbage : ℕ → ℕ) (x : ℕ → ℕ → α) {size : ℕ} (h0 : 0 < size) (p : List ℕ) :
    paretoRank2d garbage x size p = (match rank2dR (ordCmp α) p true garbage x size with | none => .assertFail | some r => .done r) := by
  unfold paretoRank2d rank2dR
  rw [if_neg (by omega)]
  simp only
  rw [rk2dLoop_eq_R]
  cases rk2dLoopR (yLt (ordCmp α) (fun k => x (p.getD k 0))) (yGt (ordCmp α) (fun k => x (p.getD k 0))) (xyEq (ordCmp α) (fun k => x (p.getD k 0))) true
    (List.range' 1 (size - 1)) ⟨0, fun _ => 0, fun _ => 0⟩ with
  | none => rfl
  | some s => rfl

/-- Without assertions the steps are the same as with them, as long as none fails. -/
theorem rk2dStepR_asserts {lt gt same : ℕ → ℕ → Bool} {k : ℕ} {s s' : Rk2d} (h : rk2dStepR lt gt same true k s = some s') (b : Bool) :
    rk2dStepR lt gt same b k s = some s' := by
  cases b with
  | true => exact h
  | false =>
    unfold rk2dStepR at h ⊢
    by_cases hlt : lt k (s.last s.nFront) = true
    · rw [if_pos hlt] at h ⊢
      cases e : rkSearchR (lt k) (gt k) s.last (s.nFront + 2) 0 (s.nFront + 1) with
      | none => rw [e] at h; simp at h
      | some low =>
        rw [e] at h
        simp only at h ⊢
        split_ifs at h
        rw [← h]
        simp
    · rw [if_neg hlt] at h ⊢
      exact h

theorem rk2dLoopR_asserts {lt gt same : ℕ → ℕ → Bool} (b : Bool) : ∀ (ks : List ℕ) {s s' : Rk2d}, rk2dLoopR lt gt same true ks s = some s' →
    rk2dLoopR lt gt same b ks s = some s' := by
  intro ks
  induction ks with
  | nil => intro s s' h; exact h
  | cons k ks ih =>
    intro s s' h
    unfold rk2dLoopR at h ⊢
    cases e : rk2dStepR lt gt same true k s with
    | none => rw [e] at h; simp at h
    | some s1 =>
      rw [e] at h
      rw [rk2dStepR_asserts e b]
      exact ih h

theorem rank2dR_asserts {F : Type} {c : FCmp F} {p : List ℕ} {garbage : ℕ → ℕ} {x : ℕ → ℕ → F} {size : ℕ} {r : ℕ → ℕ} (b : Bool)
    (h : rank2dR c p true garbage x size = some r) : rank2dR c p b garbage x size = some r := by
  unfold rank2dR at h ⊢
  rw [Option.map_eq_some_iff] at h
  obtain ⟨s, e, hr⟩ := h
  rw [rk2dLoopR_asserts b _ e]
  simp [hr]

end

end Moo
