import Verif.Spec.VorobWrappers
import Verif.Model.VorobWrappers
import Verif.Props.EafLabels
import Verif.Props.Vorob
import Verif.Props.HvWrappers
import Verif.Props.DomWrappers

/-!
# C76: Vorob'ev threshold, expectation and deviation in the Python and R packages
-/

set_option autoImplicit false
set_option linter.unusedSectionVars false

namespace Moo

open MeasureTheory

section best

variable {K : Type*} [Field K] [LinearOrder K] [IsStrictOrderedRing K] {L : Type*} [LinearOrder L]

theorem asGood_iff (m : Bool) (a b : K) : AsGood m a b ↔ AtLeastAsGood m a b := Iff.rfl

theorem AsGood.trans {m : Bool} {a b c : K} (h : AsGood m a b) (h' : AsGood m b c) : AsGood m a c := by
  unfold AsGood at *
  cases m <;> simp at * <;> order

theorem AsGood.antisymm {m : Bool} {a b : K} (h : AsGood m a b) (h' : AsGood m b a) : a = b := by
  unfold AsGood at *
  cases m <;> simp at * <;> order

theorem labelCount_mono (mx : ℕ → Bool) (data : ℕ → ℕ → K) (labels : List L) (dim : ℕ) {w z : ℕ → K} (h : ∀ d < dim, AsGood (mx d) (w d) (z d)) :
    labelCount mx data labels dim w ≤ labelCount mx data labels dim z := by
  unfold labelCount
  apply Finset.card_le_card
  intro u hu
  simp only [Finset.mem_filter] at hu ⊢
  obtain ⟨h1, k, hk, h2⟩ := hu
  exact ⟨h1, k, hk, fun d hd => (h2 d hd).trans (h d hd)⟩

/-- Every vector attained by at least `k` sets is attained by a vector on the grid of the data that is at least as good. -/
theorem exists_grid (data : ℕ → ℕ → K) (labels : List L) (dim k : ℕ) (hk : 1 ≤ k) (z : ℕ → K) (hz : k ≤ labelCount (fun _ => false) data labels dim z) :
    ∃ w : ℕ → K, (∀ d < dim, w d ≤ z d) ∧ (∀ d < dim, ∃ i < labels.length, w d = data i d) ∧ k ≤ labelCount (fun _ => false) data labels dim w := by
  classical
  set I := (Finset.range labels.length).filter (fun i => ∀ d < dim, data i d ≤ z d) with hI
  have hne : I.Nonempty := by
    have : 0 < labelCount (fun _ => false) data labels dim z := by omega
    obtain ⟨u, hu⟩ := Finset.card_pos.1 this
    obtain ⟨-, j, hj, h⟩ := Finset.mem_filter.1 hu
    refine ⟨j, Finset.mem_filter.2 ⟨?_, fun d hd => by simpa [AsGood] using h d hd⟩⟩
    rw [Finset.mem_range]
    by_contra hc
    rw [List.getElem?_eq_none (not_lt.1 hc)] at hj
    cases hj
  refine ⟨fun d => I.sup' hne (fun i => data i d), ?_, ?_, ?_⟩
  · intro d hd
    exact Finset.sup'_le _ _ (fun i hi => (Finset.mem_filter.1 hi).2 d hd)
  · intro d _
    obtain ⟨i, hi, e⟩ := Finset.exists_mem_eq_sup' hne (fun i => data i d)
    exact ⟨i, Finset.mem_range.1 (Finset.mem_filter.1 hi).1, e⟩
  · refine hz.trans ?_
    unfold labelCount
    apply Finset.card_le_card
    intro u hu
    simp only [Finset.mem_filter] at hu ⊢
    obtain ⟨h1, j, hj, h2⟩ := hu
    refine ⟨h1, j, hj, fun d hd => ?_⟩
    have hj' : j ∈ I := by
      refine Finset.mem_filter.2 ⟨?_, fun d hd => by simpa [AsGood] using h2 d hd⟩
      rw [Finset.mem_range]
      by_contra hc
      rw [List.getElem?_eq_none (not_lt.1 hc)] at hj
      cases hj
    have := Finset.le_sup' (fun i => data i d) hj'
    exact this

/-- Every vector attained by at least `k` sets is at most as good as a best one. -/
theorem exists_best_min (data : ℕ → ℕ → K) (labels : List L) (dim k : ℕ) (hk : 1 ≤ k) (z : ℕ → K) (hz : k ≤ labelCount (fun _ => false) data labels dim z) :
    ∃ w : ℕ → K, (∀ d < dim, w d ≤ z d) ∧ BestForLabels (fun _ => false) data labels dim k w := by
  classical
  -- the candidates on the grid
  let ext : (Fin dim → K) → ℕ → K := fun w d => if h : d < dim then w ⟨d, h⟩ else 0
  let G : Finset (Fin dim → K) := (Fintype.piFinset (fun d : Fin dim => (Finset.range labels.length).image (fun i => data i d))).filter
    (fun w => (∀ d : Fin dim, w d ≤ z d) ∧ k ≤ labelCount (fun _ => false) data labels dim (ext w))
  have hmemG : ∀ w : ℕ → K, (∀ d < dim, w d ≤ z d) → (∀ d < dim, ∃ i < labels.length, w d = data i d) → k ≤ labelCount (fun _ => false) data labels dim w →
      (fun d : Fin dim => w d) ∈ G := by
    intro w h1 h2 h3
    refine Finset.mem_filter.2 ⟨?_, fun d => h1 d d.2, ?_⟩
    · rw [Fintype.mem_piFinset]
      intro d
      obtain ⟨i, hi, e⟩ := h2 d d.2
      exact Finset.mem_image.2 ⟨i, Finset.mem_range.2 hi, e.symm⟩
    · rw [labelCount_congr _ _ _ _ (z' := w)]
      · exact h3
      · intro d hd; simp [ext, hd]
  have hG : G.Nonempty := by
    obtain ⟨w, h1, h2, h3⟩ := exists_grid data labels dim k hk z hz
    exact ⟨_, hmemG w h1 h2 h3⟩
  obtain ⟨w, hw⟩ := G.exists_minimal hG
  obtain ⟨hwG, hmin⟩ := hw
  obtain ⟨-, hw1, hw2⟩ := Finset.mem_filter.1 hwG
  refine ⟨ext w, fun d hd => by simpa [ext, hd] using hw1 ⟨d, hd⟩, hw2, ?_⟩
  intro v hv hle d hd
  obtain ⟨v', h1, h2, h3⟩ := exists_grid data labels dim k hk v hv
  have hle' : ∀ d < dim, v d ≤ ext w d := fun d hd => by simpa [AsGood] using hle d hd
  have hv'G := hmemG v' (fun d hd => ((h1 d hd).trans (hle' d hd)).trans (by simpa [ext, hd] using hw1 ⟨d, hd⟩)) h2 h3
  have hle2 : (fun d : Fin dim => v' d) ≤ w := fun d => ((h1 d d.2).trans (hle' d d.2)).trans (by simp [ext])
  have := hmin hv'G hle2 ⟨d, hd⟩
  simp only at this
  have e : ext w d = w ⟨d, hd⟩ := by simp [ext, hd]
  have a := hle' d hd
  have b := h1 d hd
  rw [e] at a ⊢
  exact le_antisymm a (this.trans b)

/-- Every vector attained by at least `k` sets is at most as good as a best one. -/
theorem exists_best (mx : ℕ → Bool) (data : ℕ → ℕ → K) (labels : List L) (dim k : ℕ) (hk : 1 ≤ k) (z : ℕ → K) (hz : k ≤ labelCount mx data labels dim z) :
    ∃ w : ℕ → K, (∀ d < dim, AsGood (mx d) (w d) (z d)) ∧ BestForLabels mx data labels dim k w := by
  have hinv : ∀ v : K, ∀ d, (if mx d then -(if mx d then -v else v) else (if mx d then -v else v)) = v := by
    intro v d; by_cases h : mx d <;> simp [h]
  obtain ⟨w, h1, h2⟩ := exists_best_min (transformMax mx data) labels dim k hk (fun d => if mx d then -z d else z d) (by
    rw [labelCount_maximise]
    simp only [hinv]
    exact hz)
  refine ⟨fun d => if mx d then -w d else w d, fun d hd => ?_, (bestForLabels_maximise mx data labels dim k w).1 h2⟩
  have := h1 d hd
  unfold AsGood
  by_cases h : mx d <;> simp only [h, if_true, if_false, Bool.false_eq_true] at this ⊢
  · linarith
  · exact this

end best

section regions

variable {L : Type*} [LinearOrder L]

/-- A vector of `dim` objectives, continued by zeros. -/
def vorobExt {dim : ℕ} (y : Fin dim → ℝ) : ℕ → ℝ := fun d => if h : d < dim then y ⟨d, h⟩ else 0

theorem vorobExt_apply {dim : ℕ} (y : Fin dim → ℝ) (d : Fin dim) : vorobExt y d = y d := by simp [vorobExt]

theorem mem_labelRegion (dim : ℕ) (mx : ℕ → Bool) (data : ℕ → ℕ → ℝ) (labels : List L) (ref : ℕ → ℝ) (u : L) (y : Fin dim → ℝ) :
    y ∈ labelRegion dim mx data labels ref u ↔ LabelAttains mx data labels dim u (vorobExt y) ∧ ∀ d : Fin dim, AsGood (mx d) (y d) (ref d) := by
  unfold labelRegion LabelAttains
  simp only [Set.mem_ofPred_eq]
  refine and_congr_left fun _ => exists_congr fun k => and_congr_right fun _ => ⟨fun h d hd => ?_, fun h d => ?_⟩
  · have := h ⟨d, hd⟩
    rwa [← vorobExt_apply y ⟨d, hd⟩] at this
  · rw [← vorobExt_apply y d]; exact h d d.2

theorem mem_quantileRegion (dim : ℕ) (mx : ℕ → Bool) (data : ℕ → ℕ → ℝ) (labels : List L) (ref : ℕ → ℝ) {k : ℕ} (hk : 1 ≤ k) (y : Fin dim → ℝ) :
    y ∈ quantileRegion dim mx data labels ref k ↔ k ≤ labelCount mx data labels dim (vorobExt y) ∧ ∀ d : Fin dim, AsGood (mx d) (y d) (ref d) := by
  classical
  unfold quantileRegion labelCount
  simp only [Set.mem_ofPred_eq, mem_labelRegion]
  by_cases hb : ∀ d : Fin dim, AsGood (mx d) (y d) (ref d)
  · simp only [hb, implies_true, and_true]
  · simp only [hb, and_false, Finset.filter_false, Finset.card_empty, iff_false, not_le]
    omega

theorem quantileRegion_anti (dim : ℕ) (mx : ℕ → Bool) (data : ℕ → ℕ → ℝ) (labels : List L) (ref : ℕ → ℝ) {j k : ℕ} (h : j ≤ k) :
    quantileRegion dim mx data labels ref k ⊆ quantileRegion dim mx data labels ref j := fun _ hy => h.trans hy

/-- The best points attained by `k` sets dominate the region dominated by `k` sets. -/
theorem listRegion_best (dim : ℕ) (mx : ℕ → Bool) (data : ℕ → ℕ → ℝ) (labels : List L) (ref : ℕ → ℝ) {k : ℕ} (hk : 1 ≤ k) (VE : List (ℕ → ℝ))
    (h : ∀ z : ℕ → ℝ, (∃ p ∈ VE, ∀ d < dim, p d = z d) ↔ BestForLabels mx data labels dim k z) :
    listRegion dim mx VE ref = quantileRegion dim mx data labels ref k := by
  ext y
  rw [mem_quantileRegion dim mx data labels ref hk]
  unfold listRegion
  simp only [Set.mem_ofPred_eq]
  refine and_congr_left fun _ => ⟨?_, ?_⟩
  · rintro ⟨p, hp, hpy⟩
    have hb := (h p).1 ⟨p, hp, fun _ _ => rfl⟩
    refine hb.1.trans (labelCount_mono mx data labels dim fun d hd => ?_)
    have := hpy ⟨d, hd⟩
    rwa [← vorobExt_apply y ⟨d, hd⟩] at this
  · intro hc
    obtain ⟨w, h1, h2⟩ := exists_best mx data labels dim k hk (vorobExt y) hc
    obtain ⟨p, hp, e⟩ := (h w).2 h2
    refine ⟨p, hp, fun d => ?_⟩
    have := h1 d d.2
    rwa [vorobExt_apply, ← e d d.2] at this

theorem listRegion_eq (dim : ℕ) (mx : ℕ → Bool) (rows : List (ℕ → ℝ)) (ref : ℕ → ℝ) :
    listRegion dim mx rows ref = dominatedRegionMx dim rows.length mx (tableOfList rows) ref := by
  ext y
  unfold listRegion dominatedRegionMx tableOfList
  simp only [Set.mem_ofPred_eq, asGood_iff]
  refine and_congr_left fun _ => ⟨?_, ?_⟩
  · rintro ⟨p, hp, h⟩
    obtain ⟨i, hi, rfl⟩ := List.getElem_of_mem hp
    exact ⟨i, hi, fun k => by rw [List.getD_eq_getElem _ _ hi]; exact h k⟩
  · rintro ⟨i, hi, h⟩
    exact ⟨rows[i], List.getElem_mem hi, fun k => by have := h k; rwa [List.getD_eq_getElem _ _ hi] at this⟩

theorem listRegion_append (dim : ℕ) (mx : ℕ → Bool) (r s : List (ℕ → ℝ)) (ref : ℕ → ℝ) : listRegion dim mx (r ++ s) ref = listRegion dim mx r ref ∪ listRegion dim mx s ref := by
  ext y
  unfold listRegion
  simp only [Set.mem_ofPred_eq, Set.mem_union, List.mem_append]
  constructor
  · rintro ⟨⟨p, hp | hp, h⟩, h2⟩
    · exact Or.inl ⟨⟨p, hp, h⟩, h2⟩
    · exact Or.inr ⟨⟨p, hp, h⟩, h2⟩
  · rintro (⟨⟨p, hp, h⟩, h2⟩ | ⟨⟨p, hp, h⟩, h2⟩)
    · exact ⟨⟨p, Or.inl hp, h⟩, h2⟩
    · exact ⟨⟨p, Or.inr hp, h⟩, h2⟩

theorem listRegion_union (dim : ℕ) (mx : ℕ → Bool) (rows : List (ℕ → ℝ)) (ref : ℕ → ℝ) :
    listRegion dim mx rows ref = ⋃ p ∈ {p | p ∈ rows}, Set.Icc (fun d : Fin dim => if mx d then ref d else p d) (fun d : Fin dim => if mx d then p d else ref d) := by
  ext y
  simp only [listRegion, Set.mem_ofPred_eq, Set.mem_iUnion, Set.mem_Icc, Pi.le_def, exists_prop]
  constructor
  · rintro ⟨⟨p, hp, h⟩, h2⟩
    refine ⟨p, hp, fun d => ?_, fun d => ?_⟩ <;> have a := h d <;> have b := h2 d <;> unfold AsGood at a b <;>
      by_cases hm : mx d <;> simp [hm] at a b ⊢ <;> assumption
  · rintro ⟨p, hp, h, h2⟩
    refine ⟨⟨p, hp, fun d => ?_⟩, fun d => ?_⟩ <;> have a := h d <;> have b := h2 d <;> unfold AsGood <;>
      by_cases hm : mx d <;> simp [hm] at a b ⊢ <;> assumption

theorem listRegion_measurable (dim : ℕ) (mx : ℕ → Bool) (rows : List (ℕ → ℝ)) (ref : ℕ → ℝ) : MeasurableSet (listRegion dim mx rows ref) := by
  rw [listRegion_union]
  exact MeasurableSet.biUnion (List.finite_toSet rows).countable (fun p _ => measurableSet_Icc)

theorem listRegion_ne_top (dim : ℕ) (mx : ℕ → Bool) (rows : List (ℕ → ℝ)) (ref : ℕ → ℝ) : volume (listRegion dim mx rows ref) ≠ ⊤ := by
  rw [listRegion_union]
  have := (measure_biUnion_lt_top (μ := volume) (List.finite_toSet rows) (f := fun p => Set.Icc (fun d : Fin dim => if mx d then ref d else p d)
    (fun d : Fin dim => if mx d then p d else ref d)) (fun p _ => isCompact_Icc.measure_lt_top))
  exact this.ne

/-- The rows with label `u`. -/
def labelRows (data : ℕ → ℕ → ℝ) (labels : List L) (u : L) : List (ℕ → ℝ) := ((List.range labels.length).filter (fun i => decide (labels[i]? = some u))).map data

theorem labelRegion_eq (dim : ℕ) (mx : ℕ → Bool) (data : ℕ → ℕ → ℝ) (labels : List L) (ref : ℕ → ℝ) (u : L) :
    labelRegion dim mx data labels ref u = listRegion dim mx (labelRows data labels u) ref := by
  ext y
  unfold labelRegion listRegion labelRows
  simp only [Set.mem_ofPred_eq, List.mem_map, List.mem_filter, List.mem_range, decide_eq_true_eq]
  refine and_congr_left fun _ => ⟨?_, ?_⟩
  · rintro ⟨k, hk, h⟩
    exact ⟨data k, ⟨k, ⟨(List.getElem?_eq_some_iff.1 hk).1, hk⟩, rfl⟩, h⟩
  · rintro ⟨p, ⟨k, ⟨-, hk⟩, rfl⟩, h⟩
    exact ⟨k, hk, h⟩

theorem labelRegion_measurable (dim : ℕ) (mx : ℕ → Bool) (data : ℕ → ℕ → ℝ) (labels : List L) (ref : ℕ → ℝ) (u : L) : MeasurableSet (labelRegion dim mx data labels ref u) := by
  rw [labelRegion_eq]; exact listRegion_measurable _ _ _ _

theorem labelRegion_ne_top (dim : ℕ) (mx : ℕ → Bool) (data : ℕ → ℕ → ℝ) (labels : List L) (ref : ℕ → ℝ) (u : L) : volume (labelRegion dim mx data labels ref u) ≠ ⊤ := by
  rw [labelRegion_eq]; exact listRegion_ne_top _ _ _ _

/-- The number of sets that dominate `y`. -/
noncomputable def domCount (dim : ℕ) (mx : ℕ → Bool) (data : ℕ → ℕ → ℝ) (labels : List L) (ref : ℕ → ℝ) (y : Fin dim → ℝ) : ℝ :=
  ∑ u ∈ labels.toFinset, (labelRegion dim mx data labels ref u).indicator (fun _ => (1 : ℝ)) y

theorem mem_quantile_count (dim : ℕ) (mx : ℕ → Bool) (data : ℕ → ℕ → ℝ) (labels : List L) (ref : ℕ → ℝ) (k : ℕ) (y : Fin dim → ℝ) :
    y ∈ quantileRegion dim mx data labels ref k ↔ (k : ℝ) ≤ domCount dim mx data labels ref y := by
  classical
  have : domCount dim mx data labels ref y = ((labels.toFinset.filter (fun u => y ∈ labelRegion dim mx data labels ref u)).card : ℝ) := by
    unfold domCount
    rw [Finset.card_filter]
    push_cast
    apply Finset.sum_congr rfl
    intro u _
    simp [Set.indicator_apply]
  rw [this]
  unfold quantileRegion
  simp only [Set.mem_ofPred_eq, Nat.cast_le]

theorem domCount_measurable (dim : ℕ) (mx : ℕ → Bool) (data : ℕ → ℕ → ℝ) (labels : List L) (ref : ℕ → ℝ) : Measurable (domCount dim mx data labels ref) := by
  unfold domCount
  exact Finset.measurable_fun_sum _ (fun u _ => measurable_const.indicator (labelRegion_measurable dim mx data labels ref u))

theorem quantileRegion_measurable (dim : ℕ) (mx : ℕ → Bool) (data : ℕ → ℕ → ℝ) (labels : List L) (ref : ℕ → ℝ) (k : ℕ) : MeasurableSet (quantileRegion dim mx data labels ref k) := by
  have : quantileRegion dim mx data labels ref k = {y | (k : ℝ) ≤ domCount dim mx data labels ref y} := by
    ext y; exact mem_quantile_count dim mx data labels ref k y
  rw [this]
  exact measurableSet_le measurable_const (domCount_measurable dim mx data labels ref)

theorem quantileRegion_ne_top (dim : ℕ) (mx : ℕ → Bool) (data : ℕ → ℕ → ℝ) (labels : List L) (ref : ℕ → ℝ) {k : ℕ} (hk : 1 ≤ k) :
    volume (quantileRegion dim mx data labels ref k) ≠ ⊤ := by
  classical
  have hsub : quantileRegion dim mx data labels ref k ⊆ ⋃ u ∈ {u | u ∈ labels}, labelRegion dim mx data labels ref u := by
    intro y hy
    have : 0 < (labels.toFinset.filter (fun u => y ∈ labelRegion dim mx data labels ref u)).card := by
      unfold quantileRegion at hy
      simp only [Set.mem_ofPred_eq] at hy
      refine lt_of_lt_of_le (by omega) (hy.trans (le_of_eq ?_))
      congr!
    obtain ⟨u, hu⟩ := Finset.card_pos.1 this
    obtain ⟨h1, h2⟩ := Finset.mem_filter.1 hu
    exact Set.mem_biUnion (x := u) (List.mem_toFinset.1 h1) h2
  have := measure_biUnion_lt_top (μ := volume) (List.finite_toSet labels) (f := fun u => labelRegion dim mx data labels ref u)
    (fun u _ => (labelRegion_ne_top dim mx data labels ref u).lt_top)
  exact measure_ne_top_of_subset hsub this.ne

theorem vol_quantile_anti (dim : ℕ) (mx : ℕ → Bool) (data : ℕ → ℕ → ℝ) (labels : List L) (ref : ℕ → ℝ) {j k : ℕ} (hj : 1 ≤ j) (h : j ≤ k) :
    vol (quantileRegion dim mx data labels ref k) ≤ vol (quantileRegion dim mx data labels ref j) :=
  ENNReal.toReal_mono (quantileRegion_ne_top dim mx data labels ref hj) (measure_mono (quantileRegion_anti dim mx data labels ref h))

/-- The sum over the sets of the volumes of their parts in `S` is the integral of the number of sets. -/
theorem sum_vol_inter (dim : ℕ) (mx : ℕ → Bool) (data : ℕ → ℕ → ℝ) (labels : List L) (ref : ℕ → ℝ) (S : Set (Fin dim → ℝ)) (hS' : volume S ≠ ⊤) :
    ∑ u ∈ labels.toFinset, vol (labelRegion dim mx data labels ref u ∩ S) = ∫ y in S, domCount dim mx data labels ref y := by
  unfold domCount
  have : IsFiniteMeasure (volume.restrict S) := ⟨by rw [Measure.restrict_apply_univ]; exact hS'.lt_top⟩
  rw [integral_finsetSum]
  · apply Finset.sum_congr rfl
    intro u _
    rw [integral_indicator (labelRegion_measurable dim mx data labels ref u), Measure.restrict_restrict (labelRegion_measurable dim mx data labels ref u)]
    simp [vol, Measure.real]
  · intro u _
    exact (integrable_const (1 : ℝ)).indicator (labelRegion_measurable dim mx data labels ref u)

/-- Among the sets of equal volume, the region dominated by at least `k` sets has the least mean deviation. -/
theorem meanDeviation_quantile_le (dim : ℕ) (mx : ℕ → Bool) (data : ℕ → ℕ → ℝ) (labels : List L) (ref : ℕ → ℝ) {k : ℕ} (hk : 1 ≤ k) (M : Set (Fin dim → ℝ)) (hM : MeasurableSet M)
    (hM' : volume M ≠ ⊤) (h : vol M = vol (quantileRegion dim mx data labels ref k)) :
    meanDeviation dim mx data labels ref (quantileRegion dim mx data labels ref k) ≤ meanDeviation dim mx data labels ref M := by
  set Q := quantileRegion dim mx data labels ref k with hQdef
  have hQ : MeasurableSet Q := quantileRegion_measurable dim mx data labels ref k
  have hQ' : volume Q ≠ ⊤ := quantileRegion_ne_top dim mx data labels ref hk
  have hsd : ∀ S : Set (Fin dim → ℝ), MeasurableSet S → volume S ≠ ⊤ → ∀ u,
      vol (symmDiff (labelRegion dim mx data labels ref u) S) = vol (labelRegion dim mx data labels ref u) + vol S - 2 * vol (labelRegion dim mx data labels ref u ∩ S) := by
    intro S hS hS' u
    have hA := labelRegion_measurable dim mx data labels ref u
    have hA' := labelRegion_ne_top dim mx data labels ref u
    rw [vol_symmDiff hA hS hA' hS']
    have := measureReal_union_add_inter (μ := volume) (s := labelRegion dim mx data labels ref u) hS hA' hS'
    have e : vol (labelRegion dim mx data labels ref u ∪ S) + vol (labelRegion dim mx data labels ref u ∩ S) = vol (labelRegion dim mx data labels ref u) + vol S := this
    linarith
  have hsplit : ∀ S T : Set (Fin dim → ℝ), MeasurableSet T → volume S ≠ ⊤ →
      ∫ y in S, domCount dim mx data labels ref y = (∫ y in S ∩ T, domCount dim mx data labels ref y) + ∫ y in S \ T, domCount dim mx data labels ref y := by
    intro S T hT hS'
    rw [← sum_vol_inter dim mx data labels ref S hS', ← sum_vol_inter dim mx data labels ref _ (measure_ne_top_of_subset Set.inter_subset_left hS'),
      ← sum_vol_inter dim mx data labels ref _ (measure_ne_top_of_subset Set.sdiff_subset hS'), ← Finset.sum_add_distrib]
    apply Finset.sum_congr rfl
    intro u _
    have := measureReal_inter_add_sdiff (μ := volume) (s := labelRegion dim mx data labels ref u ∩ S) hT (measure_ne_top_of_subset Set.inter_subset_left (labelRegion_ne_top dim mx data labels ref u))
    have e : vol (labelRegion dim mx data labels ref u ∩ S ∩ T) + vol ((labelRegion dim mx data labels ref u ∩ S) \ T) = vol (labelRegion dim mx data labels ref u ∩ S) := this
    rw [← e, Set.inter_assoc, Set.inter_sdiff_assoc]
  have hint : ∀ S : Set (Fin dim → ℝ), volume S ≠ ⊤ → IntegrableOn (domCount dim mx data labels ref) S := by
    intro S hS'
    have : IsFiniteMeasure (volume.restrict S) := ⟨by rw [Measure.restrict_apply_univ]; exact hS'.lt_top⟩
    unfold domCount
    refine integrable_finsetSum _ (fun u _ => ?_)
    exact (integrable_const (1 : ℝ)).indicator (labelRegion_measurable dim mx data labels ref u)
  have hMQ : volume (M \ Q) ≠ ⊤ := measure_ne_top_of_subset Set.sdiff_subset hM'
  have hQM : volume (Q \ M) ≠ ⊤ := measure_ne_top_of_subset Set.sdiff_subset hQ'
  have h1 : ∫ y in M \ Q, domCount dim mx data labels ref y ≤ (k : ℝ) * vol (M \ Q) := by
    have := setIntegral_mono_on (hint _ hMQ) (integrableOn_const (C := (k : ℝ)) hMQ) (hM.diff hQ) (fun y hy => by
      by_contra hc
      exact hy.2 ((mem_quantile_count dim mx data labels ref k y).2 (not_le.1 hc).le))
    refine this.trans (le_of_eq ?_)
    rw [setIntegral_const, smul_eq_mul, mul_comm]
    rfl
  have h2 : (k : ℝ) * vol (Q \ M) ≤ ∫ y in Q \ M, domCount dim mx data labels ref y := by
    have := setIntegral_mono_on (integrableOn_const (C := (k : ℝ)) hQM) (hint _ hQM) (hQ.diff hM) (fun y hy =>
      (mem_quantile_count dim mx data labels ref k y).1 hy.1)
    refine le_trans (le_of_eq ?_) this
    rw [setIntegral_const, smul_eq_mul, mul_comm]
    rfl
  have h3 : vol (M \ Q) = vol (Q \ M) := by
    have a := measureReal_inter_add_sdiff (μ := volume) (s := M) hQ hM'
    have b := measureReal_inter_add_sdiff (μ := volume) (s := Q) hM hQ'
    have a' : vol (M ∩ Q) + vol (M \ Q) = vol M := a
    have b' : vol (Q ∩ M) + vol (Q \ M) = vol Q := b
    rw [Set.inter_comm] at b'
    linarith
  have key : ∑ u ∈ labels.toFinset, vol (labelRegion dim mx data labels ref u ∩ M) ≤ ∑ u ∈ labels.toFinset, vol (labelRegion dim mx data labels ref u ∩ Q) := by
    rw [sum_vol_inter dim mx data labels ref M hM', sum_vol_inter dim mx data labels ref Q hQ', hsplit M Q hQ hM', hsplit Q M hM hQ', Set.inter_comm Q M]
    rw [h3] at h1
    linarith
  unfold meanDeviation
  apply div_le_div_of_nonneg_right _ (Nat.cast_nonneg _)
  simp only [hsd Q hQ hQ', hsd M hM hM', h]
  rw [Finset.sum_sub_distrib, Finset.sum_sub_distrib, ← Finset.mul_sum, ← Finset.mul_sum]
  linarith

end regions

section search

variable {L : Type*} [LinearOrder L]

theorem leastLevel_mono {tol : ℝ} {n : ℕ} {p q : ℝ} {j k : ℕ} (hp : LeastLevel tol n p j) (hq : LeastLevel tol n q k) (h : p ≤ q) : j ≤ k :=
  hp.2.2.2 k hq.1 (h.trans hq.2.2.1)

/-- There is a vector that all sets attain. -/
theorem exists_attained_by_all (mx : ℕ → Bool) (data : ℕ → ℕ → ℝ) (labels : List L) (dim : ℕ) : ∃ z : ℕ → ℝ, labelCount mx data labels dim z = labels.toFinset.card := by
  classical
  obtain ⟨b, hb⟩ := exists_lower_bound (fun i k => -|data i k|) dim labels.length
  refine ⟨fun d => if mx d then b else -b, ?_⟩
  unfold labelCount
  rw [Finset.filter_true_of_mem]
  intro u hu
  obtain ⟨k, hk, rfl⟩ := List.getElem_of_mem (List.mem_toFinset.1 hu)
  refine ⟨k, List.getElem?_eq_getElem hk, fun d hd => ?_⟩
  have := hb k hk d hd
  unfold AsGood
  have h1 := neg_abs_le (data k d)
  have h2 := le_abs_self (data k d)
  by_cases h : mx d <;> simp only [h, if_true, if_false, Bool.false_eq_true] <;> linarith

theorem exists_bestForLabels (mx : ℕ → Bool) (data : ℕ → ℕ → ℝ) (labels : List L) (dim : ℕ) {k : ℕ} (hk : 1 ≤ k) (hk' : k ≤ labels.toFinset.card) :
    ∃ z : ℕ → ℝ, BestForLabels mx data labels dim k z := by
  obtain ⟨z, hz⟩ := exists_attained_by_all mx data labels dim
  obtain ⟨w, -, hw⟩ := exists_best mx data labels dim k hk z (hz ▸ hk')
  exact ⟨w, hw⟩

/-- What the search needs of the quantiles: the points at percentile `c`. -/
def IsQuantile (tol : ℝ) (dim : ℕ) (mx : ℕ → Bool) (data : ℕ → ℕ → ℝ) (labels : List L) (c : ℝ) (VE : List (ℕ → ℝ)) : Prop :=
  ∃ k, LeastLevel tol labels.toFinset.card c k ∧ (∀ z : ℕ → ℝ, (∃ p ∈ VE, ∀ d < dim, p d = z d) ↔ BestForLabels mx data labels dim k z) ∧
    (VE.map (fun p => (List.range dim).map p)).Nodup

theorem IsQuantile.ne_nil {tol : ℝ} {dim : ℕ} {mx : ℕ → Bool} {data : ℕ → ℕ → ℝ} {labels : List L} {c : ℝ} {VE : List (ℕ → ℝ)} (h : IsQuantile tol dim mx data labels c VE) :
    VE ≠ [] := by
  obtain ⟨k, h1, h2, -⟩ := h
  obtain ⟨z, hz⟩ := exists_bestForLabels mx data labels dim h1.1 h1.2.1
  obtain ⟨p, hp, -⟩ := (h2 z).2 hz
  exact List.ne_nil_of_mem hp

theorem IsQuantile.region {tol : ℝ} {dim : ℕ} {mx : ℕ → Bool} {data : ℕ → ℕ → ℝ} {labels : List L} {c : ℝ} {VE : List (ℕ → ℝ)} (h : IsQuantile tol dim mx data labels c VE)
    (ref : ℕ → ℝ) {k : ℕ} (hk : LeastLevel tol labels.toFinset.card c k) : listRegion dim mx VE ref = quantileRegion dim mx data labels ref k := by
  obtain ⟨k', h1, h2, -⟩ := h
  have := leastLevel_unique h1 hk
  subst this
  exact listRegion_best dim mx data labels ref h1.1 VE h2

/-- The loop, for any functions that give the quantiles and the hypervolumes. -/
theorem vorobSearch_spec {tol : ℝ} {dim : ℕ} {mx : ℕ → Bool} {data : ℕ → ℕ → ℝ} {labels : List L} {ref : ℕ → ℝ} {avg : ℝ} (havg : avg = meanHypervolume dim mx data labels ref)
    (quantile : ℝ → CallOut (List (ℕ → ℝ))) (hv : List (ℕ → ℝ) → CallOut ℝ) (mir : List (ℕ → ℝ) → List (ℕ → ℝ))
    (hq : ∀ c, 0 ≤ c → c ≤ 100 → quantile c = .error ∨ ∃ VE, quantile c = .value VE ∧ IsQuantile tol dim mx data labels c (mir VE) ∧
      hv VE = .value (vol (listRegion dim mx (mir VE) ref))) (iterations : ℕ) :
    vorobSearch quantile hv avg iterations 0 100 none = .running ∨
    (vorobSearch quantile hv avg iterations 0 100 none = .error ∧ ∃ c, 0 ≤ c ∧ c ≤ 100 ∧ quantile c = .error) ∨
    ∃ c VE, vorobSearch quantile hv avg iterations 0 100 none = .value (c, VE) ∧ IsVorobev tol dim mx data labels ref c (mir VE) avg := by
  have fin : ∀ {a b c : ℝ} {VE : List (ℕ → ℝ)}, 0 ≤ a → a < b → b ≤ 100 → (c = a ∨ c = b) → IsQuantile tol dim mx data labels c (mir VE) →
      (a = 0 ∨ ∃ k, LeastLevel tol labels.toFinset.card a k ∧ avg < vol (quantileRegion dim mx data labels ref k)) →
      (b = 100 ∨ ∃ k, LeastLevel tol labels.toFinset.card b k ∧ vol (quantileRegion dim mx data labels ref k) ≤ avg) →
      IsVorobev tol dim mx data labels ref c (mir VE) avg := by
    intro a b c VE h0 hab h1 hc hVE ha hb
    have hV := hVE
    obtain ⟨k, k1, k2, k3⟩ := hVE
    refine ⟨havg, ⟨k, k1, k2, hV.region ref k1⟩, k3, a, b, h0, hab, h1, hc, fun p j hp => ⟨fun h hpa => ?_, fun h hbp => ?_⟩⟩
    · obtain ⟨m, m1, m2⟩ := ha.resolve_left h.ne'
      exact m2.trans_le (vol_quantile_anti dim mx data labels ref hp.1 (leastLevel_mono hp m1 hpa))
    · obtain ⟨m, m1, m2⟩ := hb.resolve_left h.ne
      exact (vol_quantile_anti dim mx data labels ref m1.1 (leastLevel_mono m1 hp hbp)).trans m2
  have key : ∀ (f : ℕ) (a b : ℝ) (prev : Option ℝ), 0 ≤ a → a < b → b ≤ 100 →
      (a = 0 ∨ ∃ k, LeastLevel tol labels.toFinset.card a k ∧ avg < vol (quantileRegion dim mx data labels ref k)) →
      (b = 100 ∨ ∃ k, LeastLevel tol labels.toFinset.card b k ∧ vol (quantileRegion dim mx data labels ref k) ≤ avg) →
      vorobSearch quantile hv avg f a b prev = .running ∨
      (vorobSearch quantile hv avg f a b prev = .error ∧ ∃ c, 0 ≤ c ∧ c ≤ 100 ∧ quantile c = .error) ∨
      ∃ c VE, vorobSearch quantile hv avg f a b prev = .value (c, VE) ∧ IsVorobev tol dim mx data labels ref c (mir VE) avg := by
    intro f
    induction f with
    | zero => intro a b prev _ _ _ _ _; exact Or.inl rfl
    | succ f ih =>
      intro a b prev h0 hab h1 ha hb
      have hc1 : a < (a + b) / 2 := by linarith
      have hc2 : (a + b) / 2 < b := by linarith
      rcases hq ((a + b) / 2) (by linarith) (by linarith) with he | ⟨VE, hVE, hQ, hh⟩
      · refine Or.inr (Or.inl ⟨?_, _, by linarith, by linarith, he⟩)
        simp only [vorobSearch, he]
      · simp only [vorobSearch, hVE, hh]
        have hQ' := hQ
        obtain ⟨k, k1, -, -⟩ := hQ'
        have hreg := hQ.region ref k1
        by_cases ht : vol (listRegion dim mx (mir VE) ref) > avg
        · simp only [if_pos ht]
          have hnew : ((a + b) / 2 = 0 ∨ ∃ k, LeastLevel tol labels.toFinset.card ((a + b) / 2) k ∧ avg < vol (quantileRegion dim mx data labels ref k)) :=
            Or.inr ⟨k, k1, by rw [← hreg]; exact ht⟩
          split_ifs with hp
          · exact Or.inr (Or.inr ⟨_, _, rfl, fin (by linarith) hc2 h1 (Or.inl rfl) hQ hnew hb⟩)
          · exact ih _ _ _ (by linarith) hc2 h1 hnew hb
        · simp only [if_neg ht]
          have hnew : ((a + b) / 2 = 100 ∨ ∃ k, LeastLevel tol labels.toFinset.card ((a + b) / 2) k ∧ vol (quantileRegion dim mx data labels ref k) ≤ avg) :=
            Or.inr ⟨k, k1, by rw [← hreg]; exact not_lt.1 ht⟩
          split_ifs with hp
          · exact Or.inr (Or.inr ⟨_, _, rfl, fin h0 hc1 (by linarith) (Or.inr rfl) hQ ha hnew⟩)
          · exact ih _ _ _ h0 hc1 (by linarith) ha hnew
  exact key iterations 0 100 none le_rfl (by norm_num) le_rfl (Or.inl rfl) (Or.inl rfl)

theorem seqCalls_value {β γ : Type*} (l : List γ) (f : γ → β) : seqCalls (l.map (fun x => CallOut.value (f x))) = .value (l.map f) := by
  induction l with
  | nil => rfl
  | cons x l ih => simp only [List.map_cons, seqCalls, ih]

theorem exists_labels_of (labels : List L) (l : List ℕ) (h : ∀ j ∈ l, ∃ u, labels[j]? = some u ∧ labels.idxOf u = j) (hn : l.Nodup) :
    ∃ us : List L, us.Nodup ∧ (∀ u, u ∈ us ↔ ∃ j ∈ l, labels[j]? = some u) ∧ ∀ (β : Type) (F : Option L → β), l.map (fun j => F labels[j]?) = us.map (fun u => F (some u)) := by
  induction l with
  | nil => exact ⟨[], List.nodup_nil, by simp, fun _ _ => rfl⟩
  | cons j l ih =>
    obtain ⟨us, h1, h2, h3⟩ := ih (fun j hj => h j (List.mem_cons_of_mem _ hj)) (List.nodup_cons.1 hn).2
    obtain ⟨u, hu, hj⟩ := h j List.mem_cons_self
    refine ⟨u :: us, List.nodup_cons.2 ⟨fun hc => ?_, h1⟩, fun v => ?_, fun β F => ?_⟩
    · obtain ⟨j', hj', e⟩ := (h2 u).1 hc
      obtain ⟨u', e', hi⟩ := h j' (List.mem_cons_of_mem _ hj')
      obtain rfl := Option.some.inj (e.symm.trans e')
      exact (List.nodup_cons.1 hn).1 (by rw [← hj, hi]; exact hj')
    · rw [List.mem_cons, h2]
      constructor
      · rintro (rfl | ⟨i, hi, e⟩)
        · exact ⟨j, List.mem_cons_self, hu⟩
        · exact ⟨i, List.mem_cons_of_mem _ hi, e⟩
      · rintro ⟨i, hi, e⟩
        rcases List.mem_cons.1 hi with rfl | hi
        · exact Or.inl (Option.some.inj (e.symm.trans hu))
        · exact Or.inr ⟨i, hi, e⟩
    · rw [List.map_cons, List.map_cons, h3, hu]

/-- The labels in the order of their first occurrences. -/
theorem exists_firsts (labels : List L) : ∃ us : List L, us.Nodup ∧ us.toFinset = labels.toFinset ∧
    ∀ (β : Type) (F : Option L → β), (firsts labels).map (fun j => F labels[j]?) = us.map (fun u => F (some u)) := by
  obtain ⟨us, h1, h2, h3⟩ := exists_labels_of labels (firsts labels) (fun j hj => by
    unfold firsts at hj
    obtain ⟨-, h⟩ := List.mem_filter.1 hj
    obtain ⟨x, hx, e⟩ := of_decide_eq_true h
    exact ⟨x, hx, e⟩) ((List.nodup_range).filter _)
  refine ⟨us, h1, ?_, h3⟩
  ext u
  rw [List.mem_toFinset, List.mem_toFinset, h2]
  constructor
  · rintro ⟨j, -, e⟩
    exact List.mem_of_getElem? e
  · intro hu
    have hi := List.idxOf_lt_length_of_mem hu
    have e : labels[labels.idxOf u]? = some u := by rw [List.getElem?_eq_getElem hi, List.getElem_idxOf hi]
    refine ⟨labels.idxOf u, ?_, e⟩
    unfold firsts
    exact List.mem_filter.2 ⟨List.mem_range.2 hi, decide_eq_true ⟨u, e, rfl⟩⟩

theorem npMean_nodup {us : List L} (hn : us.Nodup) {labels : List L} (h : us.toFinset = labels.toFinset) (F : L → ℝ) :
    npMean (us.map F) = (∑ u ∈ labels.toFinset, F u) / labels.toFinset.card := by
  unfold npMean
  rw [← h, List.sum_toFinset F hn, List.length_map, List.toFinset_card_of_nodup hn]

theorem npUnique_toFinset (labels : List L) : (npUnique labels).Nodup ∧ (npUnique labels).toFinset = labels.toFinset := by
  refine ⟨?_, ?_⟩
  · unfold npUnique
    exact (List.perm_insertionSort _ _).nodup_iff.2 (List.nodup_dedup _)
  · ext u; simp [npUnique_mem]

/-- `apply_within_sets` with a function that returns a value for every set. -/
theorem apply_values (hv : List (ℕ → ℝ) → CallOut ℝ) (F : List (ℕ → ℝ) → ℝ) (h : ∀ rows, hv rows = .value (F rows)) (data : ℕ → ℕ → ℝ) (labels : List L) :
    ∃ l hs, applyWithinSets (fun g => [hv g]) data labels = some l ∧ seqCalls l = .value hs ∧ npMean hs = (∑ u ∈ labels.toFinset, F (labelRows data labels u)) / labels.toFinset.card := by
  obtain ⟨us, h1, h2, h3⟩ := exists_firsts labels
  rw [C40_apply_per_set]
  refine ⟨_, us.map (fun u => F (labelRows data labels u)), rfl, ?_, npMean_nodup h1 h2 _⟩
  have := h3 (CallOut ℝ) (fun o => hv (((List.range labels.length).filter (fun i => decide (labels[i]? = o))).map data))
  rw [this]
  simp only [h]
  exact seqCalls_value us _

end search

section wrappers

variable {L : Type*} [LinearOrder L]

/-- The C library sorts, the blocks grow, and the tolerance is small. -/
structure EafLibOk (el : EafLib ℝ L) : Prop where
  sortX : ∀ pts n, EafSortedX pts n (el.sortX pts n)
  sortY : ∀ pts n, EafSortedY pts n (el.sortY pts n)
  sortZ : ∀ pts n, EafSortedZ pts n (el.sortZ pts n)
  grow : GrowOk el.V
  tol_nonneg : 0 ≤ el.tol
  tol_lt : el.tol < 1

/-- Two objectives, or three and all values between the sentinels; not too many rows. -/
def EafRange (el : EafLib ℝ L) (nobj : ℕ) (data : ℕ → ℕ → ℝ) (n : ℕ) : Prop :=
  (nobj = 2 ∧ n ≤ 1073741823) ∨ (nobj = 3 ∧ n ≤ 32767 ∧ ∀ i < n, ∀ d < 2, el.mn < data i d ∧ data i d < el.mx)

theorem EafRange.two_le {el : EafLib ℝ L} {nobj : ℕ} {data : ℕ → ℕ → ℝ} {n : ℕ} (h : EafRange el nobj data n) : 2 ≤ nobj := by
  rcases h with h | h <;> omega

theorem resultPercentiles_one {c : ℝ} {n : ℕ} {ps : List ℝ} (h : ResultPercentiles (some [c]) n ps) : ps = [c] := by
  obtain ⟨h1, h2⟩ := h
  simp only [List.mem_singleton] at h2
  match ps, h1, h2 with
  | [], _, h2 => exact absurd ((h2 c).2 rfl) (by simp)
  | [p], _, h2 => rw [(h2 p).1 (by simp)]
  | p :: q :: l, h1, h2 =>
    have a := (h2 p).1 (by simp)
    have b := (h2 q).1 (by simp)
    have := List.rel_of_pairwise_cons h1 (a' := q) (by simp)
    rw [a, b] at this
    exact absurd this (lt_irrefl _)

theorem isQuantile_two {tol : ℝ} {mx : ℕ → Bool} {data : ℕ → ℕ → ℝ} {labels : List L} {c : ℝ} {b : List (ℝ × ℝ)} {k : ℕ} (hk : LeastLevel tol labels.toFinset.card c k)
    (hn : b.Nodup) (h : ∀ x y, (x, y) ∈ b ↔ BestForLabels mx data labels 2 k (vec2 x y)) (v : ℝ) :
    IsQuantile tol 2 mx data labels c ((b.map (fun q => [q.1, q.2, v])).map (fun row d => row.getD d 0)) := by
  refine ⟨k, hk, fun z => ?_, ?_⟩
  · have e : BestForLabels mx data labels 2 k z ↔ BestForLabels mx data labels 2 k (vec2 (z 0) (z 1)) := by
      apply bestForLabels_congr
      intro d hd
      rcases (by omega : d = 0 ∨ d = 1) with rfl | rfl <;> simp [vec2]
    rw [e, ← h]
    constructor
    · rintro ⟨p, hp, hz⟩
      rw [List.map_map, List.mem_map] at hp
      obtain ⟨q, hq, rfl⟩ := hp
      have h0 := hz 0 (by norm_num)
      have h1 := hz 1 (by norm_num)
      simp at h0 h1
      rw [← h0, ← h1]
      exact hq
    · intro hq
      refine ⟨_, List.mem_map_of_mem (List.mem_map_of_mem hq), fun d hd => ?_⟩
      rcases (by omega : d = 0 ∨ d = 1) with rfl | rfl <;> simp
  · rw [List.map_map, List.map_map]
    refine hn.map ?_
    intro q q' hq
    simp [List.range_succ] at hq
    exact Prod.ext hq.1 hq.2

theorem isQuantile_three {tol : ℝ} {mx : ℕ → Bool} {data : ℕ → ℕ → ℝ} {labels : List L} {c : ℝ} {b : List (ℝ × ℝ × ℝ)} {k : ℕ} (hk : LeastLevel tol labels.toFinset.card c k)
    (hn : b.Nodup) (h : ∀ x y z, (x, y, z) ∈ b ↔ BestForLabels mx data labels 3 k (vec3 x y z)) (v : ℝ) :
    IsQuantile tol 3 mx data labels c ((b.map (fun q => [q.1, q.2.1, q.2.2, v])).map (fun row d => row.getD d 0)) := by
  refine ⟨k, hk, fun z => ?_, ?_⟩
  · have e : BestForLabels mx data labels 3 k z ↔ BestForLabels mx data labels 3 k (vec3 (z 0) (z 1) (z 2)) := by
      apply bestForLabels_congr
      intro d hd
      rcases (by omega : d = 0 ∨ d = 1 ∨ d = 2) with rfl | rfl | rfl <;> simp [vec3]
    rw [e, ← h]
    constructor
    · rintro ⟨p, hp, hz⟩
      rw [List.map_map, List.mem_map] at hp
      obtain ⟨q, hq, rfl⟩ := hp
      have h0 := hz 0 (by norm_num)
      have h1 := hz 1 (by norm_num)
      have h2 := hz 2 (by norm_num)
      simp at h0 h1 h2
      rw [← h0, ← h1, ← h2]
      exact hq
    · intro hq
      refine ⟨_, List.mem_map_of_mem (List.mem_map_of_mem hq), fun d hd => ?_⟩
      rcases (by omega : d = 0 ∨ d = 1 ∨ d = 2) with rfl | rfl | rfl <;> simp
  · rw [List.map_map, List.map_map]
    refine hn.map ?_
    intro q q' hq
    simp [List.range_succ] at hq
    exact Prod.ext hq.1 (Prod.ext hq.2.1 hq.2.2)

theorem length_one_of {β : Type*} {l : List β} (h : l.length = 1) : ∃ b, l = [b] := List.length_eq_one_iff.1 h

/-- The calls of `eaf` in the loop of Python's `vorobT`. -/
theorem pyEafAt_spec {el : EafLib ℝ L} (hel : EafLibOk el) {nobj : ℕ} {data : ℕ → ℕ → ℝ} {labels : List L} (hn : labels ≠ []) (hs : labels.Pairwise (fun a b => a ≤ b))
    (hr : EafRange el nobj data labels.length) :
    ∃ N, ∀ fuel, N ≤ fuel → ∀ c, 0 ≤ c → c ≤ 100 → ∃ VE, pyEafAt { el with fuel := fuel } nobj data labels c = .value VE ∧
      IsQuantile el.tol nobj (fun _ => false) data labels c VE := by
  rcases hr with ⟨rfl, hsz⟩ | ⟨rfl, hsz, hb⟩
  · refine ⟨0, fun fuel _ c hc0 hc1 => ?_⟩
    obtain ⟨ps, blocks, e, h1, h2, h3⟩ := C60_py_eaf_2d_partial hn hs data (hel.sortX data labels.length) (hel.sortY data labels.length) (fuel := 2 * labels.length + 1) (by omega) hsz
      el.V hel.grow el.tol hel.tol_nonneg hel.tol_lt [c] (by simp [hc0, hc1])
    obtain rfl := resultPercentiles_one (by simpa using h1)
    obtain ⟨b, rfl⟩ := length_one_of (by simpa using h2)
    obtain ⟨k, k1, -, k2, k3⟩ := h3 0 (by simp) (by simp)
    refine ⟨_, ?_, isQuantile_two k1 k2 k3 c⟩
    simp only [pyEafAt, if_true, e]
    simp [eafTable2]
  · obtain ⟨N, hN⟩ := C60_py_eaf_3d_partial hn hs data (hel.sortZ data labels.length) hb (fuel := labels.length + 3) le_rfl el.junk hsz el.V hel.grow el.tol hel.tol_nonneg hel.tol_lt
    refine ⟨N, fun fuel hf c hc0 hc1 => ?_⟩
    obtain ⟨ps, blocks, e, h1, h2, h3⟩ := hN fuel hf [c] (by simp [hc0, hc1])
    obtain rfl := resultPercentiles_one (by simpa using h1)
    obtain ⟨b, rfl⟩ := length_one_of (by simpa using h2)
    obtain ⟨k, k1, k2, k3⟩ := h3 0 (by simp) (by simp)
    refine ⟨_, ?_, isQuantile_three k1 k2 k3 c⟩
    simp only [pyEafAt, if_neg (show ¬ (3 = 2) by omega), if_true, e]
    simp [eafTable3]

theorem pyHv_rows {lib : HvLib ℝ} (hlib : HvLibOk lib) {nobj : ℕ} (hd : 2 ≤ nobj) {ref : List ℝ} {r : ℕ → ℝ} (hr : PerObjective nobj ref r) (rows : List (ℕ → ℝ)) :
    pyHypervolume lib (tableOfList rows) nobj rows.length ref [false] = .value (vol (listRegion nobj (fun _ => false) rows r)) := by
  rw [listRegion_eq]
  exact C63_py_hypervolume hlib _ nobj _ hd ref [false] r (fun _ => false) hr ⟨Or.inl rfl, fun _ _ => rfl⟩

/-- **C76, Python `vorobT` (partial).** For two or three objectives and labels in nondecreasing order, with one reference value or one per objective: if the loop ends, the result is the
mean hypervolume of the sets, a threshold, and the best points attained by as many sets as the threshold asks for.  Missing: labels in another order (C60), the end of the loop
and the exact threshold (C48). -/
theorem C76_py_vorobT_partial {lib : HvLib ℝ} (hlib : HvLibOk lib) {el : EafLib ℝ L} (hel : EafLibOk el) {nobj : ℕ} {data : ℕ → ℕ → ℝ} {labels : List L} (hn : labels ≠ [])
    (hs : labels.Pairwise (fun a b => a ≤ b)) (hrange : EafRange el nobj data labels.length) {ref : List ℝ} {r : ℕ → ℝ} (hr : PerObjective nobj ref r) :
    ∃ N, ∀ fuel, N ≤ fuel → ∀ iterations, pyVorobT lib { el with fuel := fuel } (nobj + 1) data labels ref iterations = .running ∨
      ∃ c VE avg, pyVorobT lib { el with fuel := fuel } (nobj + 1) data labels ref iterations = .value (c, VE, avg) ∧
        IsVorobev el.tol nobj (fun _ => false) data labels r c VE avg := by
  have hd := hrange.two_le
  obtain ⟨N, hN⟩ := pyEafAt_spec hel hn hs hrange
  refine ⟨N, fun fuel hf iterations => ?_⟩
  obtain ⟨l, hvs, e1, e2, e3⟩ := apply_values _ _ (pyHv_rows hlib hd hr) data labels
  have havg : npMean hvs = meanHypervolume nobj (fun _ => false) data labels r := by
    rw [e3]
    unfold meanHypervolume
    simp only [labelRegion_eq]
  have hsp := vorobSearch_spec (tol := el.tol) havg (pyEafAt { el with fuel := fuel } nobj data labels)
    (fun rows => pyHypervolume lib (tableOfList rows) nobj rows.length ref [false]) id (fun c h0 h1 => by
      obtain ⟨VE, a, b⟩ := hN fuel hf c h0 h1
      exact Or.inr ⟨VE, a, b, pyHv_rows hlib hd hr VE⟩) iterations
  unfold pyVorobT
  simp only [if_neg (show ¬ nobj + 1 < 3 by omega), if_neg hn, Nat.add_sub_cancel, e1, e2]
  rcases hsp with h | ⟨-, c, h0, h1, hc⟩ | ⟨c, VE, h, hV⟩
  · left; rw [h]
  · obtain ⟨VE, a, -⟩ := hN fuel hf c h0 h1
    rw [a] at hc; cases hc
  · right
    exact ⟨c, VE, npMean hvs, by rw [h], hV⟩

/-- **C76, Python: wrong arguments.** Fewer than two objectives, no rows, or a reference point of a wrong length raise an exception in both functions. -/
theorem C76_py_vorobT_errors (lib : HvLib ℝ) (el : EafLib ℝ L) (ncols : ℕ) (data : ℕ → ℕ → ℝ) (labels : List L) (ref : List ℝ) (iterations : ℕ)
    (h : ncols < 3 ∨ labels = [] ∨ (ref.length ≠ 1 ∧ ref.length ≠ ncols - 1)) :
    pyVorobT lib el ncols data labels ref iterations = .error := by
  unfold pyVorobT
  split_ifs with h1 h2
  · rfl
  · rfl
  · have h3 := h.resolve_left h1 |>.resolve_left h2
    have he : ∀ rows : List (ℕ → ℝ), pyHypervolume lib (tableOfList rows) (ncols - 1) rows.length ref [false] = .error :=
      fun rows => C63_py_hypervolume_error lib _ _ _ ref [false] (by tauto)
    dsimp only
    rw [C40_apply_per_set]
    simp only [he]
    have hfn : firsts labels ≠ [] := by
      obtain ⟨us, -, h2', h3'⟩ := exists_firsts labels
      intro hc
      have := h3' ℕ (fun _ => 0)
      rw [hc] at this
      have hus : us = [] := by simpa using this.symm
      rw [hus] at h2'
      exact h2 (List.toFinset_eq_empty_iff _ |>.1 (by rw [← h2']; rfl))
    obtain ⟨j, l, e⟩ := List.exists_cons_of_ne_nil hfn
    rw [e]
    rfl

/-- The sums of `vorobDev`. -/
theorem deviation_sum (dim : ℕ) (mx : ℕ → Bool) (data : ℕ → ℕ → ℝ) (labels : List L) (hn : labels ≠ []) (ref : ℕ → ℝ) (VE : List (ℕ → ℝ)) :
    2 * ((∑ u ∈ labels.toFinset, vol (listRegion dim mx (labelRows data labels u ++ VE) ref)) / labels.toFinset.card) -
      (∑ u ∈ labels.toFinset, vol (listRegion dim mx (labelRows data labels u) ref)) / labels.toFinset.card - vol (listRegion dim mx VE ref) =
    meanDeviation dim mx data labels ref (listRegion dim mx VE ref) := by
  have hc : (labels.toFinset.card : ℝ) ≠ 0 := by
    have : labels.toFinset.card ≠ 0 := by
      rw [Finset.card_ne_zero, List.toFinset_nonempty_iff]
      exact hn
    exact_mod_cast this
  unfold meanDeviation
  have : ∀ u ∈ labels.toFinset, vol (symmDiff (labelRegion dim mx data labels ref u) (listRegion dim mx VE ref)) =
      2 * vol (listRegion dim mx (labelRows data labels u ++ VE) ref) - vol (listRegion dim mx (labelRows data labels u) ref) - vol (listRegion dim mx VE ref) := by
    intro u _
    rw [labelRegion_eq, vol_symmDiff (listRegion_measurable _ _ _ _) (listRegion_measurable _ _ _ _) (listRegion_ne_top _ _ _ _) (listRegion_ne_top _ _ _ _), listRegion_append]
  rw [Finset.sum_congr rfl this, Finset.sum_sub_distrib, Finset.sum_sub_distrib, ← Finset.mul_sum, Finset.sum_const, nsmul_eq_mul]
  field_simp

theorem pyVorobDevOf_spec {lib : HvLib ℝ} (hlib : HvLibOk lib) {nobj : ℕ} (hd : 2 ≤ nobj) (data : ℕ → ℕ → ℝ) {labels : List L} (hn : labels ≠ []) {ref : List ℝ} {r : ℕ → ℝ}
    (hr : PerObjective nobj ref r) (VE : List (ℕ → ℝ)) :
    pyVorobDevOf lib (nobj + 1) data labels ref nobj VE = .value (meanDeviation nobj (fun _ => false) data labels r (listRegion nobj (fun _ => false) VE r)) := by
  have hobj : ∀ rows : List (ℕ → ℝ), pyHypervolumeObject lib (tableOfList rows) nobj rows.length ref [false] = .value (vol (listRegion nobj (fun _ => false) rows r)) := by
    intro rows
    rw [C63_py_object_eq_function _ _ _ _ (by omega), pyHv_rows hlib hd hr]
  obtain ⟨l1, h1, e1, e2, e3⟩ := apply_values _ _ hobj data labels
  obtain ⟨l2, h2, f1, f2, f3⟩ := apply_values (fun g => pyHypervolumeObject lib (tableOfList (g ++ VE)) nobj (g ++ VE).length ref [false])
    (fun g => vol (listRegion nobj (fun _ => false) (g ++ VE) r)) (fun g => hobj (g ++ VE)) data labels
  unfold pyVorobDevOf
  simp only [if_neg (show ¬ nobj + 1 < 3 by omega), Nat.add_sub_cancel, hobj VE, if_neg hn, e1, f1, Option.map_some, e2, f2, ne_eq, not_true_eq_false, if_false]
  rw [e3, f3, deviation_sum nobj _ data labels hn]

/-- **C76, Python `vorobDev(x, ref, VE=VE)`.** For two and more objectives, labels in any order, and a matrix `VE` with as many columns as there are objectives: the mean over the sets of
the volume of the symmetric difference between the region dominated by the set and the one dominated by `VE`. -/
theorem C76_py_vorobDev {lib : HvLib ℝ} (hlib : HvLibOk lib) (el : EafLib ℝ L) {nobj : ℕ} (hd : 2 ≤ nobj) (data : ℕ → ℕ → ℝ) {labels : List L} (hn : labels ≠ []) {ref : List ℝ}
    {r : ℕ → ℝ} (hr : PerObjective nobj ref r) (m : ℕ) (VE : ℕ → ℕ → ℝ) (iterations : ℕ) :
    pyVorobDev lib el (nobj + 1) data labels ref (some (.mat m nobj VE)) iterations =
      .value (meanDeviation nobj (fun _ => false) data labels r (listRegion nobj (fun _ => false) ((List.range m).map VE) r)) :=
  pyVorobDevOf_spec hlib hd data hn hr _

/-- **C76, Python `vorobDev(x, ref)` (partial).** Without `VE`, it uses the expectation of `vorobT`; and no set of points with the same hypervolume as the expectation has a smaller
deviation.  (Under the conditions of `C76_py_vorobT_partial`.) -/
theorem C76_py_vorobDev_default_partial {lib : HvLib ℝ} (hlib : HvLibOk lib) {el : EafLib ℝ L} (hel : EafLibOk el) {nobj : ℕ} {data : ℕ → ℕ → ℝ} {labels : List L} (hn : labels ≠ [])
    (hs : labels.Pairwise (fun a b => a ≤ b)) (hrange : EafRange el nobj data labels.length) {ref : List ℝ} {r : ℕ → ℝ} (hr : PerObjective nobj ref r) :
    ∃ N, ∀ fuel, N ≤ fuel → ∀ iterations, pyVorobDev lib { el with fuel := fuel } (nobj + 1) data labels ref none iterations = .running ∨
      ∃ c VE avg v, pyVorobT lib { el with fuel := fuel } (nobj + 1) data labels ref iterations = .value (c, VE, avg) ∧
        pyVorobDev lib { el with fuel := fuel } (nobj + 1) data labels ref none iterations = .value v ∧
        v = meanDeviation nobj (fun _ => false) data labels r (listRegion nobj (fun _ => false) VE r) ∧
        ∀ points : List (ℕ → ℝ), vol (listRegion nobj (fun _ => false) points r) = vol (listRegion nobj (fun _ => false) VE r) →
          v ≤ meanDeviation nobj (fun _ => false) data labels r (listRegion nobj (fun _ => false) points r) := by
  obtain ⟨N, hN⟩ := C76_py_vorobT_partial hlib hel hn hs hrange hr
  refine ⟨N, fun fuel hf iterations => ?_⟩
  unfold pyVorobDev
  rcases hN fuel hf iterations with h | ⟨c, VE, avg, h, hV⟩
  · left; simp only [h]
  · right
    refine ⟨c, VE, avg, _, h, ?_, rfl, fun points hp => ?_⟩
    · simp only [h, Nat.add_sub_cancel]
      exact pyVorobDevOf_spec hlib hrange.two_le data hn hr VE
    · obtain ⟨k, k1, -, k2⟩ := hV.points
      rw [k2] at hp ⊢
      exact meanDeviation_quantile_le nobj _ data labels r k1.1 _ (listRegion_measurable _ _ _ _) (listRegion_ne_top _ _ _ _) hp

/-! ### R -/

theorem transformMaximise_spec (x : ℕ → ℕ → ℝ) (nobj : ℕ) (maximise : List Bool) (mx : ℕ → Bool) (hm : PerObjective nobj maximise mx) :
    ∃ y, transformMaximise x nobj maximise = some y ∧ ∀ i, ∀ k < nobj, y i k = if mx k then -x i k else x i k := by
  have hmem : ∀ k < nobj, mx k ∈ maximise := fun k hk => List.mem_of_getElem? (hm.2 k hk)
  unfold transformMaximise
  by_cases h1 : maximise.any id = true
  · by_cases h2 : maximise.all id = true
    · refine ⟨fun i k => -x i k, by rw [if_pos h1, if_pos h2], fun i k hk => ?_⟩
      have : mx k = true := by
        rw [List.all_eq_true] at h2
        simpa using h2 _ (hmem k hk)
      simp [this]
    · have hl : maximise.length = nobj := by
        rcases hm.1 with h | h
        · obtain ⟨a, rfl⟩ := List.length_eq_one_iff.1 h
          cases a <;> simp at h1 h2
        · exact h
      refine ⟨npNegateColumns x maximise, by rw [if_pos h1, if_neg h2, if_neg (by simpa using hl)], fun i k hk => ?_⟩
      by_cases h1 : maximise.length = 1
      · have hk0 : k = 0 := by omega
        have hk' := hm.2 k hk
        subst hk0
        rw [if_pos h1] at hk'
        simp [npNegateColumns, List.getD_eq_getElem?_getD, hk']
      · have hk' := hm.2 k hk
        rw [if_neg h1] at hk'
        simp [npNegateColumns, List.getD_eq_getElem?_getD, hk']
  · refine ⟨x, by rw [if_neg h1], fun i k hk => ?_⟩
    have : mx k = false := by
      by_contra hc
      exact h1 (List.any_eq_true.2 ⟨mx k, hmem k hk, by simpa using hc⟩)
    simp [this]

/-- The reference point is given for every objective, or no or all objectives are maximised. -/
def RReference (nobj : ℕ) (reference : List ℝ) (maximise : List Bool) : Prop := reference.length = nobj ∨ maximise.any id = false ∨ maximise.all id = true

theorem rVorobArguments_spec (data : ℕ → ℕ → ℝ) (nobj n : ℕ) (hd : 2 ≤ nobj) (hn : 1 ≤ n) (reference : List ℝ) (maximise : List Bool) (r : ℕ → ℝ) (mx : ℕ → Bool)
    (hr : PerObjective nobj reference r) (hm : PerObjective nobj maximise mx) (hrm : RReference nobj reference maximise) :
    ∃ x r', rVorobArguments nobj n data reference maximise = .value (x, r') ∧ (∀ i, ∀ k < nobj, x i k = if mx k then -data i k else data i k) ∧
      PerObjective nobj r' (fun k => if mx k then -r k else r k) := by
  obtain ⟨y, e, hy⟩ := transformMaximise_spec data nobj maximise mx hm
  have hmem : ∀ k < nobj, mx k ∈ maximise := fun k hk => List.mem_of_getElem? (hm.2 k hk)
  unfold rVorobArguments
  rw [if_neg (by omega)]
  by_cases h1 : maximise.any id = true
  · simp only [if_pos h1, e]
    by_cases h2 : maximise.all id = true
    · simp only [if_pos h2]
      refine ⟨_, _, rfl, hy, by simpa using hr.1, fun k hk => ?_⟩
      have : mx k = true := by
        rw [List.all_eq_true] at h2
        simpa using h2 _ (hmem k hk)
      rw [List.length_map, List.getElem?_map, hr.2 k hk]
      simp [this]
    · have hlr : reference.length = nobj := by
        rcases hrm with h | h | h
        · exact h
        · rw [h] at h1; cases h1
        · exact absurd h h2
      have hl : maximise.length = nobj := by
        rcases hm.1 with h | h
        · obtain ⟨a, rfl⟩ := List.length_eq_one_iff.1 h
          cases a <;> simp at h1 h2
        · exact h
      simp only [if_neg h2, hlr, lt_irrefl, if_false]
      refine ⟨_, _, rfl, hy, by simp [hl, hlr], fun k hk => ?_⟩
      have hr' := hr.2 k hk
      have hm' := hm.2 k hk
      rw [if_neg (by omega)] at hr' hm'
      rw [List.length_zipWith, hl, hlr, min_self, if_neg (by omega), List.getElem?_zipWith, hr', hm']
  · simp only [if_neg h1]
    refine ⟨_, _, rfl, fun i k hk => ?_, hr.1, fun k hk => ?_⟩ <;>
    · have : mx k = false := by
        by_contra hc
        exact h1 (List.any_eq_true.2 ⟨mx k, hmem k hk, by simpa using hc⟩)
      simp only [this, Bool.false_eq_true, if_false]
      try exact hr.2 k hk

/-- Mirrored points dominate the same volume. -/
theorem vol_mirror {β : Type*} {dim : ℕ} (hd : 2 ≤ dim) (l : List β) (f g : β → ℕ → ℝ) (mx : ℕ → Bool) (r r' : ℕ → ℝ) (hf : ∀ b ∈ l, ∀ k < dim, f b k = if mx k then -g b k else g b k)
    (hr : ∀ k < dim, r' k = if mx k then -r k else r k) :
    vol (listRegion dim (fun _ => false) (l.map f) r') = vol (listRegion dim mx (l.map g) r) := by
  obtain ⟨lib, hlib⟩ := exists_hvLib
  rw [listRegion_eq, listRegion_eq, List.length_map, List.length_map,
    ← fpliHv_mirrored hlib (tableOfList (l.map g)) (tableOfList (l.map f)) dim l.length hd mx r r' ?_ hr]
  · exact (fpliHv_mirrored hlib (tableOfList (l.map f)) (tableOfList (l.map f)) dim l.length hd (fun _ => false) r' r' (by simp) (by simp)).symm
  · intro i hi k hk
    have h1 : i < (l.map f).length := by simpa using hi
    have h2 : i < (l.map g).length := by simpa using hi
    simp only [tableOfList]
    rw [List.getD_eq_getElem _ _ h1, List.getD_eq_getElem _ _ h2, List.getElem_map, List.getElem_map]
    exact hf _ (List.getElem_mem hi) k hk

theorem vol_labelRegion_mirror {dim : ℕ} (hd : 2 ≤ dim) (x data : ℕ → ℕ → ℝ) (labels : List L) (mx : ℕ → Bool) (r r' : ℕ → ℝ) (hx : ∀ i, ∀ k < dim, x i k = if mx k then -data i k else data i k)
    (hr : ∀ k < dim, r' k = if mx k then -r k else r k) (u : L) :
    vol (labelRegion dim (fun _ => false) x labels r' u) = vol (labelRegion dim mx data labels r u) := by
  rw [labelRegion_eq, labelRegion_eq]
  exact vol_mirror hd _ x data mx r r' (fun i _ k hk => hx i k hk) hr

theorem labelCount_data (mx : ℕ → Bool) (data data' : ℕ → ℕ → ℝ) (labels : List L) (dim : ℕ) (h : ∀ i, ∀ d < dim, data i d = data' i d) (z : ℕ → ℝ) :
    labelCount mx data labels dim z = labelCount mx data' labels dim z := by
  have : ∀ u, LabelAttains mx data labels dim u z ↔ LabelAttains mx data' labels dim u z := by
    intro u
    unfold LabelAttains
    exact exists_congr fun k => and_congr_right fun _ => ⟨fun a d hd => h k d hd ▸ a d hd, fun a d hd => (h k d hd).symm ▸ a d hd⟩
  classical
  unfold labelCount
  congr 1
  ext u
  rw [Finset.mem_filter, Finset.mem_filter, this]

theorem bestForLabels_mirror (mx : ℕ → Bool) (x data : ℕ → ℕ → ℝ) (labels : List L) (dim k : ℕ) (hx : ∀ i, ∀ d < dim, x i d = if mx d then -data i d else data i d) (z : ℕ → ℝ) :
    BestForLabels (fun _ => false) x labels dim k z ↔ BestForLabels mx data labels dim k (fun d => if mx d then -z d else z d) := by
  rw [← bestForLabels_maximise]
  unfold BestForLabels
  simp only [labelCount_data (fun _ => false) x (transformMax mx data) labels dim hx]

theorem isQuantile_mirror {tol : ℝ} {dim : ℕ} {mx : ℕ → Bool} {x data : ℕ → ℕ → ℝ} {labels : List L} {c : ℝ} {VE : List (ℕ → ℝ)} {t : ℕ → ℕ → ℝ}
    (hx : ∀ i, ∀ d < dim, x i d = if mx d then -data i d else data i d) (ht : ∀ i, ∀ d < dim, t i d = if mx d then -tableOfList VE i d else tableOfList VE i d)
    (h : IsQuantile tol dim (fun _ => false) x labels c VE) : IsQuantile tol dim mx data labels c ((List.range VE.length).map t) := by
  obtain ⟨k, h1, h2, h3⟩ := h
  have hmir : ∀ (m : Bool) (a b : ℝ), ((if m then -a else a) = b ↔ a = if m then -b else b) := by
    intro m a b
    cases m
    · simp
    · simp only [if_true]; exact neg_eq_iff_eq_neg
  have htab : ∀ i (hi : i < VE.length), tableOfList VE i = VE[i] := fun i hi => List.getD_eq_getElem _ _ hi
  refine ⟨k, h1, fun z => ?_, ?_⟩
  · have e : BestForLabels mx data labels dim k z ↔ BestForLabels (fun _ => false) x labels dim k (fun d => if mx d then -z d else z d) := by
      rw [bestForLabels_mirror mx x data labels dim k hx]
      apply bestForLabels_congr
      intro d _
      by_cases hm : mx d <;> simp [hm]
    rw [e, ← h2]
    constructor
    · rintro ⟨p, hp, hz⟩
      obtain ⟨i, hi, rfl⟩ := List.mem_map.1 hp
      rw [List.mem_range] at hi
      refine ⟨VE[i], List.getElem_mem hi, fun d hd => ?_⟩
      rw [← hmir, ← htab i hi, ← ht i d hd]
      exact hz d hd
    · rintro ⟨p, hp, hz⟩
      obtain ⟨i, hi, rfl⟩ := List.getElem_of_mem hp
      refine ⟨t i, List.mem_map_of_mem (List.mem_range.2 hi), fun d hd => ?_⟩
      rw [ht i d hd, htab i hi, hmir]
      exact hz d hd
  · rw [List.map_map]
    refine List.Nodup.map_on ?_ List.nodup_range
    intro i hi j hj hij
    rw [List.mem_range] at hi hj
    have hi' : i < (VE.map (fun p => (List.range dim).map p)).length := by simpa using hi
    have hj' : j < (VE.map (fun p => (List.range dim).map p)).length := by simpa using hj
    refine (List.Nodup.getElem_inj_iff h3 (hi := hi') (hj := hj')).1 ?_
    rw [List.getElem_map, List.getElem_map]
    apply List.map_congr_left
    intro d hd
    have hij' := List.map_inj_left.1 hij d hd
    rw [List.mem_range] at hd
    rw [ht i d hd, ht j d hd, htab i hi, htab j hj] at hij'
    by_cases hm : mx d <;> simp only [hm, if_true, if_false, Bool.false_eq_true] at hij'
    · exact neg_inj.1 hij'
    · exact hij'

/-- The calls of `eaf` in the loop of R's `vorobT`. -/
theorem rEafAt_spec [Inhabited L] {el : EafLib ℝ L} (hel : EafLibOk el) (hord : ∀ labels, IsOrder labels (el.order labels)) {nobj : ℕ} {x : ℕ → ℕ → ℝ} {labels : List L} (hn : labels ≠ [])
    (hr : EafRange el nobj x labels.length) :
    ∃ N, ∀ fuel, N ≤ fuel → ∀ c, 0 ≤ c → c ≤ 100 → ∃ VE, IsQuantile el.tol nobj (fun _ => false) x labels c VE ∧
      rEafAt { el with fuel := fuel } nobj x labels c = if VE.length = 1 then .error else .value VE := by
  rcases hr with ⟨rfl, hsz⟩ | ⟨rfl, hsz, hb⟩
  · refine ⟨0, fun fuel _ c hc0 hc1 => ?_⟩
    obtain ⟨ps, blocks, e, h1, h2, h3⟩ := C59_r_eaf_2d hn (fun _ => false) x (hord labels) (hel.sortX _ _) (hel.sortY _ _) (fuel := 2 * labels.length + 1) (by omega) hsz
      el.V hel.grow el.tol hel.tol_nonneg hel.tol_lt (some [c]) (by simp [hc0, hc1])
    obtain rfl := resultPercentiles_one (by simpa using h1)
    obtain ⟨b, rfl⟩ := length_one_of (by simpa using h2)
    obtain ⟨k, k1, -, k2, k3⟩ := h3 0 (by simp) (by simp)
    refine ⟨_, isQuantile_two k1 k2 k3 c, ?_⟩
    simp only [rEafAt, if_true, e]
    simp [eafTable2]
  · obtain ⟨N, hN⟩ := C59_r_eaf_3d hn (fun _ => false) x (hord labels) (hel.sortZ _ _) (by simpa [transformMax] using hb) (fuel := labels.length + 3) le_rfl el.junk hsz el.V hel.grow el.tol
      hel.tol_nonneg hel.tol_lt
    refine ⟨N, fun fuel hf c hc0 hc1 => ?_⟩
    obtain ⟨ps, blocks, e, h1, h2, h3⟩ := hN fuel hf (some [c]) (by simp [hc0, hc1])
    obtain rfl := resultPercentiles_one (by simpa using h1)
    obtain ⟨b, rfl⟩ := length_one_of (by simpa using h2)
    obtain ⟨k, k1, k2, k3⟩ := h3 0 (by simp) (by simp)
    refine ⟨_, isQuantile_three k1 k2 k3 c, ?_⟩
    simp only [rEafAt, if_neg (show ¬ (3 = 2) by omega), if_true, e]
    simp [eafTable3]

theorem rHv_rows {lib : HvLib ℝ} (hlib : HvLibOk lib) {nobj : ℕ} (hd : 2 ≤ nobj) {ref : List ℝ} {r : ℕ → ℝ} (hr : PerObjective nobj ref r) (rows : List (ℕ → ℝ)) (hne : rows ≠ []) :
    rHvRows lib nobj ref rows = .value (vol (listRegion nobj (fun _ => false) rows r)) := by
  rw [listRegion_eq]
  exact C63_r_hypervolume hlib _ nobj _ hd (List.length_pos_of_ne_nil hne) ref [false] r (fun _ => false) hr ⟨Or.inl rfl, fun _ _ => rfl⟩

theorem labelRows_ne_nil {x : ℕ → ℕ → ℝ} {labels : List L} {u : L} (hu : u ∈ labels) : labelRows x labels u ≠ [] := by
  obtain ⟨k, hk, rfl⟩ := List.getElem_of_mem hu
  have : x k ∈ labelRows x labels labels[k] := by
    unfold labelRows
    exact List.mem_map_of_mem (List.mem_filter.2 ⟨List.mem_range.2 hk, decide_eq_true (List.getElem?_eq_getElem hk)⟩)
  exact List.ne_nil_of_mem this

theorem rSplit_values (x : ℕ → ℕ → ℝ) (labels : List L) (hv : List (ℕ → ℝ) → CallOut ℝ) (F : List (ℕ → ℝ) → ℝ) (h : ∀ rows, rows ≠ [] → hv rows = .value (F rows)) :
    ∃ hs, seqCalls ((rSplit x labels).map hv) = .value hs ∧ hs.length = (rSplit x labels).length ∧
      npMean hs = (∑ u ∈ labels.toFinset, F (labelRows x labels u)) / labels.toFinset.card := by
  refine ⟨(npUnique labels).map (fun u => F (labelRows x labels u)), ?_, by simp [rSplit], npMean_nodup (npUnique_toFinset labels).1 (npUnique_toFinset labels).2 _⟩
  rw [← seqCalls_value]
  congr 1
  unfold rSplit
  rw [List.map_map]
  apply List.map_congr_left
  intro u hu
  exact h (labelRows x labels u) (labelRows_ne_nil ((npUnique_mem labels u).1 hu))

/-- **C76, R `vorobT` (partial).** For two or three objectives in any directions and labels in any order: the loop does not end, or the result is as in `C76_py_vorobT_partial`, or
the call stops with an error; the latter only if at some percentile there is a single best point.  Missing: the end of the loop and the exact threshold (C48), and the results in
the case of a single point (`C76_false_r_single_point`). -/
theorem C76_r_vorobT_partial [Inhabited L] {lib : HvLib ℝ} (hlib : HvLibOk lib) {el : EafLib ℝ L} (hel : EafLibOk el) (hord : ∀ labels, IsOrder labels (el.order labels)) {nobj : ℕ}
    {data : ℕ → ℕ → ℝ} {labels : List L} (hn : labels ≠ []) {reference : List ℝ} {maximise : List Bool} {r : ℕ → ℝ} {mx : ℕ → Bool}
    (hrange : EafRange el nobj (transformMax mx data) labels.length) (hr : PerObjective nobj reference r) (hm : PerObjective nobj maximise mx) (hrm : RReference nobj reference maximise) :
    ∃ N, ∀ fuel, N ≤ fuel → ∀ iterations, rVorobT lib { el with fuel := fuel } nobj data labels reference maximise iterations = .running ∨
      (∃ c VE avg, rVorobT lib { el with fuel := fuel } nobj data labels reference maximise iterations = .value (c, VE, avg) ∧ IsVorobev el.tol nobj mx data labels r c VE avg) ∨
      (rVorobT lib { el with fuel := fuel } nobj data labels reference maximise iterations = .error ∧
        ∃ (c : ℝ) (k : ℕ) (w : ℕ → ℝ), 0 ≤ c ∧ c ≤ 100 ∧ LeastLevel el.tol labels.toFinset.card c k ∧ ∀ z, BestForLabels mx data labels nobj k z ↔ ∀ d < nobj, w d = z d) := by
  have hd := hrange.two_le
  have hlen : 1 ≤ labels.length := List.length_pos_of_ne_nil hn
  obtain ⟨x, r', e, hx, hr'⟩ := rVorobArguments_spec data nobj labels.length hd hlen reference maximise r mx hr hm hrm
  have hrange' : EafRange el nobj x labels.length := by
    rcases hrange with h | ⟨h1, h2, h3⟩
    · exact Or.inl h
    · refine Or.inr ⟨h1, h2, fun i hi d hd => ?_⟩
      rw [hx i d (by omega)]
      exact h3 i hi d hd
  obtain ⟨N, hN⟩ := rEafAt_spec hel hord hn hrange'
  refine ⟨N, fun fuel hf iterations => ?_⟩
  obtain ⟨hs, e1, -, e2⟩ := rSplit_values x labels (rHvRows lib nobj r') _ (rHv_rows hlib hd hr')
  have havg : npMean hs = meanHypervolume nobj mx data labels r := by
    rw [e2]
    unfold meanHypervolume
    congr 1
    apply Finset.sum_congr rfl
    intro u _
    rw [← labelRegion_eq]
    exact vol_labelRegion_mirror hd x data labels mx r _ hx (fun _ _ => rfl) u
  let mir : List (ℕ → ℝ) → List (ℕ → ℝ) := fun VE => match transformMaximise (tableOfList VE) nobj maximise with
    | some t => (List.range VE.length).map t
    | none => []
  have hsp := vorobSearch_spec (tol := el.tol) havg (rEafAt { el with fuel := fuel } nobj x labels) (rHvRows lib nobj r') mir (fun c h0 h1 => by
      obtain ⟨VE, hQ, he⟩ := hN fuel hf c h0 h1
      by_cases hl : VE.length = 1
      · left; rw [he, if_pos hl]
      · right
        obtain ⟨t, et, ht⟩ := transformMaximise_spec (tableOfList VE) nobj maximise mx hm
        have hmirE : mir VE = (List.range VE.length).map t := by simp only [mir, et]
        refine ⟨VE, by rw [he, if_neg hl], by rw [hmirE]; exact isQuantile_mirror hx ht hQ, ?_⟩
        rw [rHv_rows hlib hd hr' VE hQ.ne_nil, hmirE]
        congr 1
        have hVE : VE = (List.range VE.length).map (tableOfList VE) := by
          apply List.ext_getElem
          · simp
          · intro i h1 h2
            rw [List.getElem_map, List.getElem_range]
            exact (List.getD_eq_getElem _ _ h1).symm
        conv_lhs => rw [hVE]
        refine vol_mirror hd _ _ _ mx r _ (fun i _ k hk => ?_) (fun _ _ => rfl)
        rw [ht i k hk]
        by_cases hmk : mx k <;> simp [hmk]) iterations
  unfold rVorobT
  simp only [e, e1]
  rcases hsp with h | ⟨h, c, h0, h1, hc⟩ | ⟨c, VE, h, hV⟩
  · left; rw [h]
  · right; right
    refine ⟨by rw [h], ?_⟩
    obtain ⟨VE, hQ, he⟩ := hN fuel hf c h0 h1
    have hl : VE.length = 1 := by
      by_contra hl
      rw [he, if_neg hl] at hc
      cases hc
    obtain ⟨t, et, ht⟩ := transformMaximise_spec (tableOfList VE) nobj maximise mx hm
    obtain ⟨k, k1, k2, -⟩ := isQuantile_mirror hx ht hQ
    refine ⟨c, k, t 0, h0, h1, k1, fun z => ?_⟩
    rw [← k2, hl]
    simp
  · right; left
    obtain ⟨t, et, ht⟩ := transformMaximise_spec (tableOfList VE) nobj maximise mx hm
    have hmirE : mir VE = (List.range VE.length).map t := by simp only [mir, et]
    rw [hmirE] at hV
    exact ⟨c, _, npMean hs, by simp only [h, et], hV⟩

theorem rVorobDevOf_spec {lib : HvLib ℝ} (hlib : HvLibOk lib) {nobj : ℕ} (hd : 2 ≤ nobj) (data : ℕ → ℕ → ℝ) {labels : List L} (hn : labels ≠ []) {reference : List ℝ} {maximise : List Bool}
    {r : ℕ → ℝ} {mx : ℕ → Bool} (hr : PerObjective nobj reference r) (hm : PerObjective nobj maximise mx) (hrm : RReference nobj reference maximise) (m : ℕ) (h1m : 1 ≤ m) (VE : ℕ → ℕ → ℝ) :
    rVorobDevOf lib nobj data labels reference maximise nobj m VE = .value (meanDeviation nobj mx data labels r (listRegion nobj mx ((List.range m).map VE) r)) := by
  have hlen : 1 ≤ labels.length := List.length_pos_of_ne_nil hn
  obtain ⟨x, r', e, hx, hr'⟩ := rVorobArguments_spec data nobj labels.length hd hlen reference maximise r mx hr hm hrm
  obtain ⟨y, ey, -⟩ := transformMaximise_spec data nobj maximise mx hm
  obtain ⟨t, et, ht⟩ := transformMaximise_spec VE nobj maximise mx hm
  have hVne : (List.range m).map t ≠ [] := by
    intro hc
    have := congrArg List.length hc
    simp at this
    omega
  obtain ⟨h1, e1, -, e2⟩ := rSplit_values x labels (rHvRows lib nobj r') _ (rHv_rows hlib hd hr')
  obtain ⟨h2, f1, f2, f3⟩ := rSplit_values x labels (fun g => rHvRows lib nobj r' (g ++ (List.range m).map t)) (fun g => vol (listRegion nobj (fun _ => false) (g ++ (List.range m).map t) _))
    (fun rows hne => rHv_rows hlib hd hr' _ (by simp [hne]))
  unfold rVorobDevOf
  simp only [ey, et, e, rHv_rows hlib hd hr' _ hVne, e1, ne_eq, not_true_eq_false, if_false, f1]
  congr 1
  have hm2 : 2 * h2.sum / ((rSplit x labels).length : ℝ) = 2 * npMean h2 := by
    unfold npMean
    rw [f2]; ring
  rw [hm2, e2, f3]
  rw [← deviation_sum nobj mx data labels hn]
  have hv : ∀ u, vol (listRegion nobj (fun _ => false) (labelRows x labels u ++ (List.range m).map t) (fun k => if mx k then -r k else r k)) =
      vol (listRegion nobj mx (labelRows data labels u ++ (List.range m).map VE) r) := by
    intro u
    set idx := (List.range labels.length).filter (fun i => decide (labels[i]? = some u)) with hidx
    have ea : labelRows x labels u ++ (List.range m).map t = (idx.map Sum.inl ++ (List.range m).map Sum.inr).map (fun s : ℕ ⊕ ℕ => Sum.elim x t s) := by
      simp [labelRows, ← hidx]
    have eb : labelRows data labels u ++ (List.range m).map VE = (idx.map Sum.inl ++ (List.range m).map Sum.inr).map (fun s : ℕ ⊕ ℕ => Sum.elim data VE s) := by
      simp [labelRows, ← hidx]
    rw [ea, eb]
    refine vol_mirror hd _ _ _ mx r _ (fun b _ k hk => ?_) (fun _ _ => rfl)
    cases b with
    | inl i => exact hx i k hk
    | inr i => exact ht i k hk
  have hu : ∀ u, vol (listRegion nobj (fun _ => false) (labelRows x labels u) (fun k => if mx k then -r k else r k)) = vol (listRegion nobj mx (labelRows data labels u) r) := by
    intro u
    exact vol_mirror hd _ x data mx r _ (fun i _ k hk => hx i k hk) (fun _ _ => rfl)
  have hV : vol (listRegion nobj (fun _ => false) ((List.range m).map t) (fun k => if mx k then -r k else r k)) = vol (listRegion nobj mx ((List.range m).map VE) r) :=
    vol_mirror hd _ t VE mx r _ (fun i _ k hk => ht i k hk) (fun _ _ => rfl)
  simp only [hv, hu, hV]

/-- **C76, R `vorobDev(x, sets, reference, VE, maximise)`.** As `C76_py_vorobDev`, with directions. -/
theorem C76_r_vorobDev [Inhabited L] {lib : HvLib ℝ} (hlib : HvLibOk lib) (el : EafLib ℝ L) {nobj : ℕ} (hd : 2 ≤ nobj) (data : ℕ → ℕ → ℝ) {labels : List L} (hn : labels ≠ [])
    {reference : List ℝ} {maximise : List Bool} {r : ℕ → ℝ} {mx : ℕ → Bool} (hr : PerObjective nobj reference r) (hm : PerObjective nobj maximise mx)
    (hrm : RReference nobj reference maximise) (m : ℕ) (h1m : 1 ≤ m) (VE : ℕ → ℕ → ℝ) (iterations : ℕ) :
    rVorobDev lib el nobj data labels reference maximise (some (.mat m nobj VE)) iterations =
      .value (meanDeviation nobj mx data labels r (listRegion nobj mx ((List.range m).map VE) r)) :=
  rVorobDevOf_spec hlib hd data hn hr hm hrm m h1m VE

/-- **C76, R `vorobDev` without `VE` (partial).** As `C76_py_vorobDev_default_partial`, with directions; an error as in `C76_r_vorobT_partial`. -/
theorem C76_r_vorobDev_default_partial [Inhabited L] {lib : HvLib ℝ} (hlib : HvLibOk lib) {el : EafLib ℝ L} (hel : EafLibOk el) (hord : ∀ labels, IsOrder labels (el.order labels)) {nobj : ℕ}
    {data : ℕ → ℕ → ℝ} {labels : List L} (hn : labels ≠ []) {reference : List ℝ} {maximise : List Bool} {r : ℕ → ℝ} {mx : ℕ → Bool}
    (hrange : EafRange el nobj (transformMax mx data) labels.length) (hr : PerObjective nobj reference r) (hm : PerObjective nobj maximise mx) (hrm : RReference nobj reference maximise) :
    ∃ N, ∀ fuel, N ≤ fuel → ∀ iterations, rVorobDev lib { el with fuel := fuel } nobj data labels reference maximise none iterations = .running ∨
      (∃ c VE avg v, rVorobT lib { el with fuel := fuel } nobj data labels reference maximise iterations = .value (c, VE, avg) ∧
        rVorobDev lib { el with fuel := fuel } nobj data labels reference maximise none iterations = .value v ∧
        v = meanDeviation nobj mx data labels r (listRegion nobj mx VE r) ∧
        ∀ points : List (ℕ → ℝ), vol (listRegion nobj mx points r) = vol (listRegion nobj mx VE r) → v ≤ meanDeviation nobj mx data labels r (listRegion nobj mx points r)) ∨
      (rVorobT lib { el with fuel := fuel } nobj data labels reference maximise iterations = .error ∧
        rVorobDev lib { el with fuel := fuel } nobj data labels reference maximise none iterations = .error) := by
  obtain ⟨N, hN⟩ := C76_r_vorobT_partial hlib hel hord hn hrange hr hm hrm
  refine ⟨N, fun fuel hf iterations => ?_⟩
  unfold rVorobDev
  rcases hN fuel hf iterations with h | ⟨c, VE, avg, h, hV⟩ | ⟨h, -⟩
  · left; simp only [h]
  · right; left
    obtain ⟨k, k1, k0, k2⟩ := hV.points
    have hne : VE ≠ [] := by
      have : IsQuantile el.tol nobj mx data labels c VE := ⟨k, k1, k0, hV.once⟩
      exact this.ne_nil
    have hVE : (List.range VE.length).map (tableOfList VE) = VE := by
      apply List.ext_getElem
      · simp
      · intro i h1 h2
        rw [List.getElem_map, List.getElem_range]
        exact List.getD_eq_getElem _ _ h2
    refine ⟨c, VE, avg, _, h, ?_, rfl, fun points hp => ?_⟩
    · simp only [h]
      rw [rVorobDevOf_spec hlib hrange.two_le data hn hr hm hrm _ (List.length_pos_of_ne_nil hne), hVE]
    · rw [k2] at hp ⊢
      exact meanDeviation_quantile_le nobj _ data labels r k1.1 _ (listRegion_measurable _ _ _ _) (listRegion_ne_top _ _ _ _) hp
  · right; right; exact ⟨h, by simp only [h]⟩

/-- A library as assumed exists. -/
theorem exists_eafLib [Inhabited L] (mn mx : ℝ) : ∃ el : EafLib ℝ L, EafLibOk el ∧ (∀ labels, IsOrder labels (el.order labels)) ∧ el.mn = mn ∧ el.mx = mx := by
  choose sx hsx using fun (pts : ℕ → ℕ → ℝ) (n : ℕ) => exists_eafSortedX pts n
  choose sy hsy using fun (pts : ℕ → ℕ → ℝ) (n : ℕ) => exists_eafSortedY pts n
  choose sz hsz using fun (pts : ℕ → ℕ → ℝ) (n : ℕ) => exists_eafSortedZ pts n
  refine ⟨⟨⟨fun _ => 0, fun _ => 0, fun k m => m + m / 2 ^ k⟩, 0, mn, mx, 0, sx, sy, sz,
    fun labels => (List.range labels.length).mergeSort (fun a b => decide (labels.getD a default ≤ labels.getD b default)), 0⟩, ⟨hsx, hsy, hsz, ?_, le_rfl, one_pos⟩, fun labels => ⟨?_, ?_⟩, rfl, rfl⟩
  · exact fun _ _ => Nat.le_add_right _ _
  · exact List.mergeSort_perm _ _
  · rw [List.pairwise_map]
    have := List.pairwise_mergeSort (le := fun a b => decide (labels.getD a default ≤ labels.getD b default)) (by
      intro a b c h1 h2
      simp only [decide_eq_true_eq] at *
      exact h1.trans h2) (by
      intro a b
      simp only [Bool.or_eq_true, decide_eq_true_eq]
      exact le_total _ _) (List.range labels.length)
    exact this.imp (fun h => of_decide_eq_true h)

/-- **C76 is false of R**: if there is a single best point attained by half of the sets, `vorobT` stops with an error (the table of one row becomes a vector, because `drop = FALSE` is missing). -/
theorem C76_false_r_single_point [Inhabited L] {lib : HvLib ℝ} (hlib : HvLibOk lib) {el : EafLib ℝ L} (hel : EafLibOk el) (hord : ∀ labels, IsOrder labels (el.order labels)) {nobj : ℕ}
    {data : ℕ → ℕ → ℝ} {labels : List L} (hn : labels ≠ []) {reference : List ℝ} {maximise : List Bool} {r : ℕ → ℝ} {mx : ℕ → Bool}
    (hrange : EafRange el nobj (transformMax mx data) labels.length) (hr : PerObjective nobj reference r) (hm : PerObjective nobj maximise mx) (hrm : RReference nobj reference maximise)
    {k : ℕ} (hk : LeastLevel el.tol labels.toFinset.card 50 k) (hone : ∀ z z', BestForLabels mx data labels nobj k z → BestForLabels mx data labels nobj k z' → ∀ d < nobj, z d = z' d) :
    ∃ N, ∀ fuel, N ≤ fuel → ∀ iterations, 1 ≤ iterations → rVorobT lib { el with fuel := fuel } nobj data labels reference maximise iterations = .error := by
  have hd := hrange.two_le
  have hlen : 1 ≤ labels.length := List.length_pos_of_ne_nil hn
  obtain ⟨x, r', e, hx, hr'⟩ := rVorobArguments_spec data nobj labels.length hd hlen reference maximise r mx hr hm hrm
  have hrange' : EafRange el nobj x labels.length := by
    rcases hrange with h | ⟨h1, h2, h3⟩
    · exact Or.inl h
    · refine Or.inr ⟨h1, h2, fun i hi d hd => ?_⟩
      rw [hx i d (by omega)]
      exact h3 i hi d hd
  obtain ⟨N, hN⟩ := rEafAt_spec hel hord hn hrange'
  refine ⟨N, fun fuel hf iterations hit => ?_⟩
  obtain ⟨hs, e1, -, e2⟩ := rSplit_values x labels (rHvRows lib nobj r') _ (rHv_rows hlib hd hr')
  obtain ⟨VE, hQ, he⟩ := hN fuel hf 50 (by norm_num) (by norm_num)
  have hl : VE.length = 1 := by
    have h0 := List.length_pos_of_ne_nil hQ.ne_nil
    obtain ⟨k', k1, k2, k3⟩ := hQ
    obtain rfl := leastLevel_unique k1 hk
    by_contra hl
    have hlt : 1 < VE.length := by omega
    have hb : ∀ p ∈ VE, BestForLabels mx data labels nobj k' (fun d => if mx d then -p d else p d) := fun p hp =>
      (bestForLabels_mirror mx x data labels nobj k' hx p).1 ((k2 p).1 ⟨p, hp, fun _ _ => rfl⟩)
    have hsame := hone _ _ (hb VE[0] (List.getElem_mem _)) (hb VE[1] (List.getElem_mem _))
    have : (0 : ℕ) = 1 := by
      refine (List.Nodup.getElem_inj_iff k3 (hi := by simpa using h0) (hj := by simpa using hlt)).1 ?_
      rw [List.getElem_map, List.getElem_map]
      apply List.map_congr_left
      intro d hd
      have := hsame d (List.mem_range.1 hd)
      by_cases hm : mx d <;> simpa [hm] using this
    omega
  rw [if_pos hl] at he
  obtain ⟨f, rfl⟩ : ∃ f, iterations = f + 1 := ⟨iterations - 1, by omega⟩
  unfold rVorobT
  simp only [e, e1, vorobSearch]
  rw [show ((0 : ℝ) + 100) / 2 = 50 by norm_num, he]

/-- **C76, R: a single reference value with only some objectives maximised** is extended with `NA` (while `hypervolume` repeats it first, C63). -/
theorem C76_false_r_scalar_reference [Inhabited L] (lib : HvLib ℝ) (el : EafLib ℝ L) {nobj : ℕ} (hd : 2 ≤ nobj) (data : ℕ → ℕ → ℝ) {labels : List L} (hn : labels ≠ []) (v : ℝ)
    {maximise : List Bool} (h1 : maximise.any id = true) (h2 : maximise.all id = false) (hl : maximise.length = nobj) (iterations : ℕ) :
    rVorobT lib el nobj data labels [v] maximise iterations = .undefined ∧ rVorobDev lib el nobj data labels [v] maximise none iterations = .undefined ∧
    ∀ m VE, rVorobDev lib el nobj data labels [v] maximise (some (.mat m nobj VE)) iterations = .undefined := by
  have hlen : 1 ≤ labels.length := List.length_pos_of_ne_nil hn
  have ht : ∀ x : ℕ → ℕ → ℝ, ∃ y, transformMaximise x nobj maximise = some y := by
    intro x
    unfold transformMaximise
    rw [if_pos h1, if_neg (by simp [h2]), if_neg (by simpa using hl)]
    exact ⟨_, rfl⟩
  have e : rVorobArguments nobj labels.length data [v] maximise = .undefined := by
    obtain ⟨y, ey⟩ := ht data
    unfold rVorobArguments
    rw [if_neg (by omega), if_pos h1]
    simp only [ey]
    rw [if_neg (by simp [h2]), if_pos (by simp; omega)]
  have eT : rVorobT lib el nobj data labels [v] maximise iterations = .undefined := by simp only [rVorobT, e]
  refine ⟨eT, by simp only [rVorobDev, eT], fun m VE => ?_⟩
  obtain ⟨y, ey⟩ := ht data
  obtain ⟨t, et⟩ := ht VE
  simp only [rVorobDev, rVorobDevOf, ey, et, e]

/-- **C76: more than three objectives** are an error in both languages. -/
theorem C76_four_objectives [Inhabited L] {lib : HvLib ℝ} (hlib : HvLibOk lib) (el : EafLib ℝ L) {nobj : ℕ} (hd : 4 ≤ nobj) (data : ℕ → ℕ → ℝ) {labels : List L} (hn : labels ≠ [])
    {ref : List ℝ} {maximise : List Bool} {r : ℕ → ℝ} {mx : ℕ → Bool} (hr : PerObjective nobj ref r) (hm : PerObjective nobj maximise mx) (hrm : RReference nobj ref maximise)
    (iterations : ℕ) (hit : 1 ≤ iterations) :
    pyVorobT lib el (nobj + 1) data labels ref iterations = .error ∧ rVorobT lib el nobj data labels ref maximise iterations = .error := by
  obtain ⟨f, rfl⟩ : ∃ f, iterations = f + 1 := ⟨iterations - 1, by omega⟩
  constructor
  · obtain ⟨l, hvs, e1, e2, -⟩ := apply_values _ _ (pyHv_rows hlib (by omega) hr) data labels
    unfold pyVorobT
    simp only [if_neg (show ¬ nobj + 1 < 3 by omega), if_neg hn, Nat.add_sub_cancel, e1, e2, vorobSearch, pyEafAt, if_neg (show ¬ nobj = 2 by omega), if_neg (show ¬ nobj = 3 by omega)]
  · have hlen : 1 ≤ labels.length := List.length_pos_of_ne_nil hn
    obtain ⟨x, r', e, hx, hr'⟩ := rVorobArguments_spec data nobj labels.length (by omega) hlen ref maximise r mx hr hm hrm
    obtain ⟨hs, e1, -, e2⟩ := rSplit_values x labels (rHvRows lib nobj r') _ (rHv_rows hlib (by omega) hr')
    unfold rVorobT
    simp only [e, e1, vorobSearch, rEafAt, if_neg (show ¬ nobj = 2 by omega), if_neg (show ¬ nobj = 3 by omega)]

/-- With one set the loop of Python's `vorobT` ends in the second iteration. -/
theorem C76_py_vorobT_one_set {lib : HvLib ℝ} (hlib : HvLibOk lib) {el : EafLib ℝ L} (hel : EafLibOk el) {nobj : ℕ} {data : ℕ → ℕ → ℝ} {labels : List L} (hn : labels ≠ [])
    (hone : labels.toFinset.card = 1) (hs : labels.Pairwise (fun a b => a ≤ b)) (hrange : EafRange el nobj data labels.length) {ref : List ℝ} {r : ℕ → ℝ} (hr : PerObjective nobj ref r) :
    ∃ N, ∀ fuel, N ≤ fuel → ∀ iterations, 2 ≤ iterations → ∃ VE avg, pyVorobT lib { el with fuel := fuel } (nobj + 1) data labels ref iterations = .value (25, VE, avg) := by
  have hd := hrange.two_le
  obtain ⟨N, hN⟩ := pyEafAt_spec hel hn hs hrange
  refine ⟨N, fun fuel hf iterations hit => ?_⟩
  obtain ⟨f, rfl⟩ : ∃ f, iterations = f + 1 + 1 := ⟨iterations - 2, by omega⟩
  obtain ⟨l, hvs, e1, e2, e3⟩ := apply_values _ _ (pyHv_rows hlib hd hr) data labels
  have hlev : ∀ c, LeastLevel el.tol labels.toFinset.card c 1 ∨ ¬ ∃ k, LeastLevel el.tol labels.toFinset.card c k := by
    intro c
    by_cases h : ∃ k, LeastLevel el.tol labels.toFinset.card c k
    · obtain ⟨k, hk⟩ := h
      have : k = 1 := le_antisymm (by have := hk.2.1; omega) hk.1
      exact Or.inl (this ▸ hk)
    · exact Or.inr h
  have hq1 : ∀ y : Fin nobj → ℝ, ∀ u ∈ labels.toFinset, y ∈ quantileRegion nobj (fun _ => false) data labels r 1 ↔ y ∈ labelRegion nobj (fun _ => false) data labels r u := by
    classical
    intro y u hu
    obtain ⟨v, hv⟩ := Finset.card_eq_one.1 hone
    rw [hv] at hu
    obtain rfl := Finset.mem_singleton.1 hu
    unfold quantileRegion
    simp only [Set.mem_ofPred_eq, hv, Finset.filter_singleton]
    by_cases hy : y ∈ labelRegion nobj (fun _ => false) data labels r u <;> simp [hy]
  have havg : npMean hvs = vol (quantileRegion nobj (fun _ => false) data labels r 1) := by
    rw [e3]
    obtain ⟨u, hu⟩ := Finset.card_eq_one.1 hone
    have : quantileRegion nobj (fun _ => false) data labels r 1 = labelRegion nobj (fun _ => false) data labels r u := by
      ext y
      exact hq1 y u (by rw [hu]; exact Finset.mem_singleton_self u)
    rw [this, hone, hu, Finset.sum_singleton, ← labelRegion_eq]
    simp
  have hval : ∀ c, 0 ≤ c → c ≤ 100 → ∃ VE, pyEafAt { el with fuel := fuel } nobj data labels c = .value VE ∧
      vol (listRegion nobj (fun _ => false) VE r) = npMean hvs := by
    intro c h0 h1
    obtain ⟨VE, a, hQ⟩ := hN fuel hf c h0 h1
    refine ⟨VE, a, ?_⟩
    have hk : LeastLevel el.tol labels.toFinset.card c 1 := (hlev c).resolve_right (fun h => h (by obtain ⟨k, hk, -⟩ := hQ; exact ⟨k, hk⟩))
    rw [hQ.region r hk, havg]
  obtain ⟨V1, a1, b1⟩ := hval 50 (by norm_num) (by norm_num)
  obtain ⟨V2, a2, b2⟩ := hval 25 (by norm_num) (by norm_num)
  refine ⟨V2, npMean hvs, ?_⟩
  unfold pyVorobT
  simp only [if_neg (show ¬ nobj + 1 < 3 by omega), if_neg hn, Nat.add_sub_cancel, e1, e2, vorobSearch]
  rw [show ((0 : ℝ) + 100) / 2 = 50 by norm_num, a1]
  simp only [pyHv_rows hlib hd hr, b1, gt_iff_lt, lt_irrefl, if_false, reduceCtorEq]
  rw [show ((0 : ℝ) + 50) / 2 = 25 by norm_num, a2]
  simp only [b2, if_true]

/-! ### The hypotheses are met -/

/-- Two sets: `{(1, 3), (3, 1)}` and `{(2, 2)}`. -/
def vorobExData : ℕ → ℕ → ℝ := fun i d => (([[1, 3], [3, 1], [2, 2]] : List (List ℝ)).getD i []).getD d 0

example : ∃ (lib : HvLib ℝ) (el : EafLib ℝ ℤ), HvLibOk lib ∧ EafLibOk el ∧ ([1, 1, 2] : List ℤ) ≠ [] ∧ ([1, 1, 2] : List ℤ).Pairwise (fun a b => a ≤ b) ∧
    EafRange el 2 vorobExData 3 ∧ PerObjective 2 [(4 : ℝ)] (fun _ => 4) := by
  obtain ⟨lib, h1⟩ := exists_hvLib
  obtain ⟨el, h2, -, -, -⟩ := exists_eafLib (L := ℤ) 0 0
  exact ⟨lib, el, h1, h2, by decide, by decide, Or.inl ⟨rfl, by norm_num⟩, Or.inl rfl, fun _ _ => rfl⟩

example : ∃ (lib : HvLib ℝ) (el : EafLib ℝ ℤ), HvLibOk lib ∧ EafLibOk el ∧ (∀ labels, IsOrder labels (el.order labels)) ∧
    EafRange el 2 (transformMax (fun d => decide (d = 1)) vorobExData) 3 ∧ PerObjective 2 [(4 : ℝ), 0] (fun d => if d = 0 then 4 else 0) ∧
    PerObjective 2 [false, true] (fun d => decide (d = 1)) ∧ RReference 2 [(4 : ℝ), 0] [false, true] := by
  obtain ⟨lib, h1⟩ := exists_hvLib
  obtain ⟨el, h2, h3, -, -⟩ := exists_eafLib (L := ℤ) 0 0
  refine ⟨lib, el, h1, h2, h3, Or.inl ⟨rfl, by norm_num⟩, ⟨Or.inr rfl, fun k hk => ?_⟩, ⟨Or.inr rfl, fun k hk => ?_⟩, Or.inl rfl⟩ <;>
  · rcases (by omega : k = 0 ∨ k = 1) with rfl | rfl <;> simp

/-- One set with one point: the hypotheses of `C76_false_r_single_point` are met. -/
example : LeastLevel (0 : ℝ) ([1] : List ℤ).toFinset.card 50 1 ∧
    ∀ z z' : ℕ → ℝ, BestForLabels (fun _ => false) vorobExData ([1] : List ℤ) 2 1 z → BestForLabels (fun _ => false) vorobExData ([1] : List ℤ) 2 1 z' → ∀ d < 2, z d = z' d := by
  classical
  refine ⟨⟨le_rfl, by simp, by simp; norm_num, fun m hm _ => hm⟩, ?_⟩
  have hcount : ∀ z : ℕ → ℝ, 1 ≤ labelCount (fun _ => false) vorobExData ([1] : List ℤ) 2 z → ∀ d < 2, vorobExData 0 d ≤ z d := by
    intro z hz d hd
    unfold labelCount at hz
    obtain ⟨u, hu⟩ := Finset.card_pos.1 (Nat.lt_of_lt_of_le Nat.zero_lt_one hz)
    obtain ⟨-, k, hk, h⟩ := Finset.mem_filter.1 hu
    have hk0 : k = 0 := by
      have := (List.getElem?_eq_some_iff.1 hk).1
      simpa using this
    subst hk0
    simpa [AsGood] using h d hd
  have hself : 1 ≤ labelCount (fun _ => false) vorobExData ([1] : List ℤ) 2 (vorobExData 0) := by
    unfold labelCount
    refine Finset.card_pos.2 ⟨1, Finset.mem_filter.2 ⟨by simp, 0, rfl, fun d _ => by simp [AsGood]⟩⟩
  intro z z' hz hz' d hd
  have h1 := hz.2 _ hself (fun d hd => by simpa [AsGood] using hcount z hz.1 d hd) d hd
  have h2 := hz'.2 _ hself (fun d hd => by simpa [AsGood] using hcount z' hz'.1 d hd) d hd
  rw [← h1, h2]

end wrappers

end Moo
