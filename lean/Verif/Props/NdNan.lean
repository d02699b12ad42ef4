import Verif.Props.NdMem

set_option autoImplicit false
set_option linter.unusedSectionVars false

/-!
# Rows with NaN in dominance filtering and nondominated sorting

A double is `some a` or NaN (`none`); every comparison with NaN is false (`ieeeCmp`).  `v` gives the values of the rows without NaN.
-/

namespace Moo

section
variable {α : Type} [LinearOrder α]

/-- The row has a NaN among its first `dim` values. -/
def HasNan (dim : ℕ) (p : ℕ → Option α) : Prop := ∃ d < dim, p d = none

instance (dim : ℕ) (p : ℕ → Option α) : Decidable (HasNan dim p) := by unfold HasNan; infer_instance

/-- The comparison of two rows by the code. -/
theorem rowLe_ieee {dim : ℕ} {mx : ℕ → Bool} {data : ℕ → ℕ → Option α} {v : ℕ → ℕ → α} {n : ℕ}
    (hv : ∀ i < n, ¬ HasNan dim (data i) → ∀ d < dim, data i d = some (v i d)) {j k : ℕ} (hj : j < n) (hk : k < n) :
    rowLe (ieeeCmp α) dim (minmaxFromBool mx) AGREE_NONE data j k = true ↔
      ¬ HasNan dim (data j) ∧ ¬ HasNan dim (data k) ∧ WeakDom dim mx (v j) (v k) := by
  unfold rowLe
  rw [List.all_eq_true]
  simp only [List.mem_range]
  have hle : ∀ d (a b : Option α), leC (ieeeCmp α) (minmaxFromBool mx) AGREE_NONE d a b =
      if mx d then (ieeeCmp α).le b a else (ieeeCmp α).le a b := by
    intro d a b
    unfold leC minmaxFromBool AGREE_NONE AGREE_MAXIMISE AGREE_MINIMISE
    cases mx d <;> simp
  simp only [hle]
  constructor
  · intro h
    have hcl : ¬ HasNan dim (data j) ∧ ¬ HasNan dim (data k) := by
      constructor <;> rintro ⟨d, hd, hn⟩ <;> have := h d hd <;> rw [hn] at this <;>
        cases mx d <;> (try cases data j d) <;> (try cases data k d) <;> simp [ieeeCmp] at this
    refine ⟨hcl.1, hcl.2, fun d hd => ?_⟩
    have := h d hd
    rw [hv j hj hcl.1 d hd, hv k hk hcl.2 d hd] at this
    unfold AtLeastAsGood
    cases hm : mx d <;> simpa [hm, ieeeCmp] using this
  · rintro ⟨h1, h2, h3⟩ d hd
    rw [hv j hj h1 d hd, hv k hk h2 d hd]
    have := h3 d hd
    unfold AtLeastAsGood at this
    cases hm : mx d <;> simpa [hm, ieeeCmp] using this

theorem rkLe_ieee {dim : ℕ} {data : ℕ → ℕ → Option α} {v : ℕ → ℕ → α} {n : ℕ}
    (hv : ∀ i < n, ¬ HasNan dim (data i) → ∀ d < dim, data i d = some (v i d)) {j k : ℕ} (hj : j < n) (hk : k < n) :
    rkLe (ieeeCmp α) dim data j k = true ↔
      ¬ HasNan dim (data j) ∧ ¬ HasNan dim (data k) ∧ WeakDom dim (fun _ => false) (v j) (v k) := by
  rw [← rowLe_ieee hv hj hk]
  unfold rkLe rowLe leC minmaxFromBool AGREE_NONE AGREE_MINIMISE
  simp

/-- **C104.** With any number of objectives other than two, a row with a NaN is always kept and has no influence on the other rows: these are filtered as if
the rows with NaN were not there. -/
theorem C104_filter_ignores_nan (neg : Option α → Option α) (sortFn : Blk (Option α) → List ℕ → List ℕ) (data : ℕ → ℕ → Option α) (v : ℕ → ℕ → α)
    (dim n : ℕ) (mx : ℕ → Bool) (keepWeakly : Bool) (hdim : dim ≠ 2)
    (hv : ∀ i < n, ¬ HasNan dim (data i) → ∀ d < dim, data i d = some (v i d))
    (hs : ∀ b, (sortFn b (List.range n)).Perm (List.range n)) :
    ∃ nd, isNondominatedM (ieeeCmp α) neg sortFn (flatPts data dim n) dim n (cells mx dim) keepWeakly = .ok (cells nd n) ∧
      (∀ i < n, HasNan dim (data i) → nd i = true) ∧
      ∀ i < n, ¬ HasNan dim (data i) → (nd i = true ↔
        (∀ j < n, ¬ HasNan dim (data j) → ¬ Dom dim mx (v j) (v i)) ∧
        (keepWeakly = false → ∀ j < n, i < j → ¬ HasNan dim (data j) → ¬ SameVec dim (v j) (v i))) := by
  refine ⟨_, isNondominatedM_ok (ieeeCmp α) neg sortFn data dim n mx keepWeakly (fun _ => false) hs, ?_⟩
  unfold flagsR
  by_cases h2 : n < 2
  · rw [if_pos h2]
    refine ⟨fun _ _ _ => rfl, fun i hi hc => ⟨fun _ => ⟨fun j hj _ hd => ?_, fun _ j hj hij => by omega⟩, fun _ => rfl⟩⟩
    have : j = i := by omega
    subst this
    exact (dom_iff dim mx _ _).1 hd |>.2 (weakDom_refl dim mx _)
  · rw [if_neg h2, if_neg hdim]
    have hR : RTrans n (rowLe (ieeeCmp α) dim (minmaxFromBool mx) AGREE_NONE data) := by
      intro i hi j hj k hk _ h1 h2
      rw [rowLe_ieee hv hi hj] at h1
      rw [rowLe_ieee hv hj hk] at h2
      rw [rowLe_ieee hv hi hk]
      exact ⟨h1.1, h2.2.1, weakDom_trans h1.2.2 h2.2.2⟩
    have key := ndOuterR_final hR keepWeakly
    refine ⟨fun i hi hn => ?_, fun i hi hc => ?_⟩
    · rw [key i hi]
      intro j hj _ h
      rw [rowLe_ieee hv hj hi] at h
      exact absurd hn h.2.1
    · rw [key i hi]
      constructor
      · intro h
        refine ⟨fun j hj hcj hd => ?_, fun hkw j hj hij hcj hsame => ?_⟩
        · rw [dom_iff] at hd
          have hji : j ≠ i := by rintro rfl; exact hd.2 hd.1
          have := (h j hj hji ((rowLe_ieee hv hj hi).2 ⟨hcj, hc, hd.1⟩)).1
          rw [rowLe_ieee hv hi hj] at this
          exact hd.2 this.2.2
        · have hw := (sameVec_iff (mx := mx)).1 hsame
          have := (h j hj (by omega) ((rowLe_ieee hv hj hi).2 ⟨hcj, hc, hw.1⟩)).2
          rcases this with h' | h'
          · rw [hkw] at h'; simp at h'
          · omega
      · rintro ⟨h, h'⟩ j hj hji hR1
        rw [rowLe_ieee hv hj hi] at hR1
        have hw : WeakDom dim mx (v i) (v j) := by
          by_contra hno
          exact h j hj hR1.1 ((dom_iff dim mx _ _).2 ⟨hR1.2.2, hno⟩)
        refine ⟨(rowLe_ieee hv hi hj).2 ⟨hc, hR1.1, hw⟩, ?_⟩
        cases hk : keepWeakly with
        | true => exact Or.inl rfl
        | false =>
          right
          by_contra hle
          exact h' hk j hj (by omega) hR1.1 ((sameVec_iff (mx := mx)).2 ⟨hR1.2.2, hw⟩)

/-- The rows without NaN, in order. -/
def cleanRows (dim n : ℕ) (data : ℕ → ℕ → Option α) : List ℕ := (List.range n).filter (fun i => decide (¬ HasNan dim (data i)))

/-- **C104.** With any number of objectives other than two, a row with a NaN has rank 1 and the other rows have the ranks they would have if the rows
with NaN were deleted. -/
theorem C104_rank_ignores_nan (sortFn : Blk (Option α) → List ℕ → List ℕ) (data : ℕ → ℕ → Option α) (v : ℕ → ℕ → α) (dim n fuel : ℕ)
    (hdim : dim ≠ 2) (hf : n < fuel) (asserts : Bool)
    (hv : ∀ i < n, ¬ HasNan dim (data i) → ∀ d < dim, data i d = some (v i d)) :
    ∃ rank, paretoRankM (ieeeCmp α) sortFn asserts fuel (flatPts data dim n) dim n = .ok (cells rank n) ∧
      (∀ i < n, HasNan dim (data i) → rank i = 1) ∧
      ∀ t (ht : t < (cleanRows dim n data).length),
        InFront dim (cleanRows dim n data).length (fun _ => false) (fun s => v ((cleanRows dim n data).getD s 0))
          (rank (cleanRows dim n data)[t]) t := by
  obtain ⟨rank, er, -, hM⟩ := paretoRankGeneralM_ok (ieeeCmp α) data dim n fuel hf
  unfold paretoRankM
  rw [if_neg hdim]
  refine ⟨rank, hM, ?_⟩
  generalize hRdef : rkLe (ieeeCmp α) dim data = R at er
  have hRi : ∀ {j k : ℕ}, j < n → k < n → (R j k = true ↔
      ¬ HasNan dim (data j) ∧ ¬ HasNan dim (data k) ∧ WeakDom dim (fun _ => false) (v j) (v k)) := by
    intro j k hj hk; rw [← hRdef]; exact rkLe_ieee hv hj hk
  have hR : RTrans n R := by
    intro i hi j hj k hk _ h1 h2
    rw [hRi hi hj] at h1
    rw [hRi hj hk] at h2
    rw [hRi hi hk]
    exact ⟨h1.1, h2.2.1, weakDom_trans h1.2.2 h2.2.2⟩
  have hw : ∀ {j k : ℕ}, j < n → k < n → (WeakDom n (fun _ => false) (embed R j) (embed R k) ↔ (j = k ∨ R j k = true)) := by
    intro j k hj hk
    rw [← embed_le hR hj hk]
    unfold WeakDom AtLeastAsGood
    simp
  have hD : ∀ j < n, ∀ k < n, j ≠ k → rkDominates (embed R j) (embed R k) n = R j k := by
    intro j hj k hk hne
    rw [rkDominates_row, Bool.eq_iff_iff]
    unfold rkLe ordCmp
    rw [List.all_eq_true]
    simp only [List.mem_range, decide_eq_true_eq]
    rw [embed_le hR hj hk]
    simp [hne]
  obtain ⟨rank', e', h'⟩ := C08_general_peels (embed R) n n fuel hf
  unfold paretoRankGeneral at e'
  rw [rkLevels_eq_R hD fuel 1 (fun _ => 1) (fun _ _ => le_rfl), er] at e'
  simp only [RankOut.done.injEq] at e'
  subst e'
  -- dominance between embedded rows
  have hdom : ∀ {j k : ℕ}, j < n → k < n → (Dom n (fun _ => false) (embed R j) (embed R k) ↔
      ¬ HasNan dim (data j) ∧ ¬ HasNan dim (data k) ∧ Dom dim (fun _ => false) (v j) (v k)) := by
    intro j k hj hk
    rw [dom_iff, dom_iff, hw hj hk, hw hk hj, hRi hj hk, hRi hk hj]
    by_cases hjk : j = k
    · subst hjk
      constructor
      · rintro ⟨-, h⟩; exact absurd (Or.inl rfl) h
      · rintro ⟨-, -, h, h'⟩; exact absurd h h'
    · have hkj : k ≠ j := fun h => hjk h.symm
      simp only [hjk, hkj, false_or]
      tauto
  have hrem : ∀ r i, Remaining n n (fun _ => false) (embed R) r i → i < n := by
    intro r
    induction r with
    | zero => intro i h; exact h
    | succ r ih => intro i h; exact ih i h.1
  set idx := cleanRows dim n data with hidx
  have hmem : ∀ i, i ∈ idx ↔ i < n ∧ ¬ HasNan dim (data i) := by
    intro i; rw [hidx]; unfold cleanRows; simp
  have hgetD : ∀ t (ht : t < idx.length), idx.getD t 0 = idx[t] := fun t ht => List.getD_eq_getElem _ _ ht
  have hsub : ∀ r t (ht : t < idx.length), Remaining dim idx.length (fun _ => false) (fun s => v (idx.getD s 0)) r t ↔
      Remaining n n (fun _ => false) (embed R) r idx[t] := by
    intro r
    induction r with
    | zero =>
      intro t ht
      exact ⟨fun _ => ((hmem _).1 (List.getElem_mem ht)).1, fun _ => ht⟩
    | succ r ih =>
      intro t ht
      have hc := (hmem _).1 (List.getElem_mem ht)
      have hlen : ∀ r s, Remaining dim idx.length (fun _ => false) (fun s => v (idx.getD s 0)) r s → s < idx.length := by
        intro r
        induction r with
        | zero => intro s h; exact h
        | succ r ih => intro s h; exact ih s h.1
      constructor
      · rintro ⟨h1, s, h2, h3⟩
        have hs := hlen r s h2
        refine ⟨(ih t ht).1 h1, idx[s], (ih s hs).1 h2, ?_⟩
        have hcs := (hmem _).1 (List.getElem_mem hs)
        rw [hdom hcs.1 hc.1]
        simp only [hgetD s hs, hgetD t ht] at h3
        exact ⟨hcs.2, hc.2, h3⟩
      · rintro ⟨h1, j, h2, h3⟩
        have hj := hrem r j h2
        rw [hdom hj hc.1] at h3
        obtain ⟨s, hs, rfl⟩ := List.getElem_of_mem ((hmem j).2 ⟨hj, h3.1⟩)
        refine ⟨(ih t ht).2 h1, s, (ih s hs).2 h2, ?_⟩
        simp only [hgetD s hs, hgetD t ht]
        exact h3.2.2
  refine ⟨fun i hi hn => ?_, fun t ht => ?_⟩
  · obtain ⟨h1, h2, -⟩ := h' i hi
    by_contra hne
    obtain ⟨m, hm⟩ : ∃ m, rank i - 1 = m + 1 := ⟨rank i - 2, by omega⟩
    rw [hm] at h2
    obtain ⟨-, j, hj, hd⟩ := h2
    rw [hdom (hrem _ _ hj) hi] at hd
    exact hd.2.1 hn
  · have hc := (hmem _).1 (List.getElem_mem ht)
    obtain ⟨h1, h2, h3⟩ := h' idx[t] hc.1
    refine ⟨h1, (hsub _ t ht).2 h2, fun s hs hd => ?_⟩
    have hslen : s < idx.length := by
      have hlen : ∀ r s, Remaining dim idx.length (fun _ => false) (fun s => v (idx.getD s 0)) r s → s < idx.length := by
        intro r
        induction r with
        | zero => intro s h; exact h
        | succ r ih => intro s h; exact ih s h.1
      exact hlen _ s hs
    have hcs := (hmem _).1 (List.getElem_mem hslen)
    refine h3 idx[s] ((hsub _ s hslen).1 hs) ?_
    rw [hdom hcs.1 hc.1]
    simp only [hgetD s hslen, hgetD t ht] at hd
    exact ⟨hcs.2, hc.2, hd⟩

end

/-! ## Two objectives -/

/-- With two objectives a NaN hides dominated points: of `(0,0)`, `(1,NaN)`, `(2,1)` all are kept, although `(0,0)` dominates `(2,1)`; without the
second point `(2,1)` is removed.  (The first objectives differ, so that `qsort` has only one possible result.) -/
theorem C104_false_2d_filter :
    isNondominatedM (ieeeCmp ℤ) (Option.map Neg.neg) (fun _ l => l)
      [some (some 0), some (some 0), some (some 1), some none, some (some 2), some (some 1)] 2 3 [some false, some false] true =
      .ok [some true, some true, some true] ∧
    isNondominatedM (ieeeCmp ℤ) (Option.map Neg.neg) (fun _ l => l)
      [some (some 0), some (some 0), some (some 2), some (some 1)] 2 2 [some false, some false] true =
      .ok [some true, some false] := ⟨rfl, rfl⟩

/-- The same points have the ranks 1, 2, 3; without the second point, the third has rank 2. -/
theorem C104_false_2d_rank :
    paretoRankM (ieeeCmp ℤ) (fun _ l => l) true 4
      [some (some 0), some (some 0), some (some 1), some none, some (some 2), some (some 1)] 2 3 = .ok [some 1, some 2, some 3] ∧
    paretoRankM (ieeeCmp ℤ) (fun _ l => l) true 4
      [some (some 0), some (some 0), some (some 2), some (some 1)] 2 2 = .ok [some 1, some 2] := ⟨rfl, rfl⟩

/-- With a third objective, equal for all points, the same set is treated as `C104_filter_ignores_nan` and `C104_rank_ignores_nan` say. -/
example : isNondominatedM (ieeeCmp ℤ) (Option.map Neg.neg) (fun _ l => l)
      [some (some 0), some (some 0), some (some 7), some (some 1), some none, some (some 7), some (some 2), some (some 1), some (some 7)] 3 3
      [some false, some false, some false] true = .ok [some true, some true, some false] ∧
    paretoRankM (ieeeCmp ℤ) (fun _ l => l) true 4
      [some (some 0), some (some 0), some (some 7), some (some 1), some none, some (some 7), some (some 2), some (some 1), some (some 7)] 3 3 =
      .ok [some 1, some 1, some 2] := ⟨rfl, rfl⟩

/-- The hypotheses of both theorems are met by that set. -/
example : let data : ℕ → ℕ → Option ℤ := fun i d => if i = 1 ∧ d = 1 then none else some ((i : ℤ) * d)
    ∀ i < 3, ¬ HasNan 3 (data i) → ∀ d < 3, data i d = some ((i : ℤ) * d) := by
  intro data i _ h d hd
  by_cases hc : i = 1 ∧ d = 1
  · exact absurd ⟨d, hd, by simp [data, hc]⟩ h
  · simp [data, hc]

end Moo
