import Verif.Model.WhvWrappers
import Verif.Spec.WhvWrappers
import Verif.Props.Whv
import Verif.Props.HvWrappers
import Verif.Props.DomWrappers
import Verif.Props.LargestEafdiff

/-!
# C75: the weighted hypervolume in the Python and R packages
-/

set_option autoImplicit false
set_option linter.unusedSectionVars false

namespace Moo

open MeasureTheory

/-- The two calls of `qsort` sort. -/
structure WhvLibOk (wl : WhvLib ℝ) : Prop where
  pts : ∀ x n, Qsort (cmpDataYDesc x) (List.range n) (wl.sortPts x n)
  rects : ∀ l, Qsort cmpRectYDesc l (wl.sortRects l)

theorem exists_whvLib : ∃ wl : WhvLib ℝ, WhvLibOk wl := by
  classical
  have h1 : ∀ (x : ℕ → ℕ → ℝ) (n : ℕ), ∃ out, Qsort (cmpDataYDesc x) (List.range n) out := by
    intro x n
    have hiff : ∀ a b, cmpDataYDesc x a b ≤ 0 ↔ x b 1 < x a 1 ∨ x a 1 = x b 1 ∧ x a 0 ≤ x b 0 := by
      intro a b
      refine ⟨cmpDataYDesc_le, ?_⟩
      unfold cmpDataYDesc
      rintro (h | ⟨h, h'⟩)
      · rw [if_pos h]; omega
      · rw [if_neg (by rw [h]; exact lt_irrefl _), if_neg (by rw [h]; exact lt_irrefl _)]
        split_ifs with g1 g2
        · omega
        · exact absurd h' (not_le.2 g2)
        · omega
    have htot : Std.Total (fun a b => cmpDataYDesc x a b ≤ 0) := ⟨by
      intro a b
      rw [hiff, hiff]
      rcases lt_trichotomy (x a 1) (x b 1) with h | h | h
      · exact Or.inr (Or.inl h)
      · rcases le_total (x a 0) (x b 0) with g | g
        · exact Or.inl (Or.inr ⟨h, g⟩)
        · exact Or.inr (Or.inr ⟨h.symm, g⟩)
      · exact Or.inl (Or.inl h)⟩
    have htrans : IsTrans ℕ (fun a b => cmpDataYDesc x a b ≤ 0) := ⟨by
      intro a b c
      rw [hiff, hiff, hiff]
      rintro (h | ⟨h, h'⟩) (g | ⟨g, g'⟩)
      · exact Or.inl (g.trans h)
      · exact Or.inl (by linarith)
      · exact Or.inl (by linarith)
      · exact Or.inr ⟨h.trans g, h'.trans g'⟩⟩
    exact ⟨(List.range n).insertionSort (fun a b => cmpDataYDesc x a b ≤ 0), List.perm_insertionSort _ _, List.pairwise_insertionSort _ _⟩
  choose f hf using h1
  choose g hg using exists_rectSort
  exact ⟨⟨f, g⟩, hf, hg⟩

/-! ### The integral -/

theorem dominatedRegion_eq_biUnion (d n : ℕ) (pts : ℕ → ℕ → ℝ) (ref : ℕ → ℝ) :
    dominatedRegion d n pts ref = ⋃ i ∈ Finset.range n, Set.Icc (fun k : Fin d => pts i k) (fun k : Fin d => ref k) := by
  ext z
  simp only [dominatedRegion, Set.mem_ofPred_eq, Set.mem_iUnion, Finset.mem_range, Set.mem_Icc, Pi.le_def, exists_prop]
  constructor
  · rintro ⟨⟨i, hi, h⟩, h'⟩
    exact ⟨i, hi, h, h'⟩
  · rintro ⟨i, hi, h, h'⟩
    exact ⟨⟨i, hi, h⟩, h'⟩

theorem measurableSet_dominatedRegion (d n : ℕ) (pts : ℕ → ℕ → ℝ) (ref : ℕ → ℝ) : MeasurableSet (dominatedRegion d n pts ref) := by
  rw [dominatedRegion_eq_biUnion]
  exact Finset.measurableSet_biUnion _ (fun _ _ => measurableSet_Icc)

theorem volume_dominatedRegion_ne_top (d n : ℕ) (pts : ℕ → ℕ → ℝ) (ref : ℕ → ℝ) : volume (dominatedRegion d n pts ref) ≠ ⊤ := by
  rw [volume_dominatedRegion]
  exact ENNReal.ofReal_ne_top

theorem measurableSet_box (a b c d : ℝ) : MeasurableSet {y : Fin 2 → ℝ | (a ≤ y 0 ∧ y 0 ≤ c) ∧ b ≤ y 1 ∧ y 1 ≤ d} := by
  have m0 : Measurable (fun q : Fin 2 → ℝ => q 0) := measurable_pi_apply 0
  have m1 : Measurable (fun q : Fin 2 → ℝ => q 1) := measurable_pi_apply 1
  exact ((measurableSet_le measurable_const m0).inter (measurableSet_le m0 measurable_const)).inter ((measurableSet_le measurable_const m1).inter (measurableSet_le m1 measurable_const))

theorem weightAt_integrable (n : ℕ) (pts : ℕ → ℕ → ℝ) (ref : ℕ → ℝ) (m : ℕ) (t : ℕ → ℕ → ℝ) : IntegrableOn (weightAt m t) (dominatedRegion 2 n pts ref) := by
  have : IsFiniteMeasure (volume.restrict (dominatedRegion 2 n pts ref)) := ⟨by
    rw [Measure.restrict_apply_univ]
    exact lt_top_iff_ne_top.2 (volume_dominatedRegion_ne_top 2 n pts ref)⟩
  unfold IntegrableOn weightAt
  exact integrable_finsetSum _ (fun i _ => (integrable_const _).indicator (measurableSet_box _ _ _ _))

theorem weightedHv_weightAt (n : ℕ) (pts : ℕ → ℕ → ℝ) (ref : ℕ → ℝ) (m : ℕ) (t : ℕ → ℕ → ℝ) :
    weightedHv n pts ref (weightAt m t) = ((rectRows m t).map (fun r => r.color * vol (rectRegion n pts ref r))).sum := by
  have : IsFiniteMeasure (volume.restrict (dominatedRegion 2 n pts ref)) := ⟨by
    rw [Measure.restrict_apply_univ]
    exact lt_top_iff_ne_top.2 (volume_dominatedRegion_ne_top 2 n pts ref)⟩
  unfold weightedHv weightAt
  rw [integral_finsetSum _ (fun i _ => (integrable_const _).indicator (measurableSet_box _ _ _ _))]
  unfold rectRows
  rw [List.map_map, ← List.sum_toFinset _ List.nodup_range, List.toFinset_range]
  apply Finset.sum_congr rfl
  intro i _
  rw [setIntegral_indicator (measurableSet_box _ _ _ _), setIntegral_const]
  simp only [Function.comp, smul_eq_mul, Measure.real, vol]
  rw [mul_comm]
  congr 3
  ext y
  simp only [dominatedRegion, rectRegion, Set.mem_inter_iff, Set.mem_ofPred_eq, Fin.forall_fin_two, Fin.val_zero, Fin.val_one]
  tauto

theorem weightedHv_total (n : ℕ) (pts : ℕ → ℕ → ℝ) (ref : ℕ → ℝ) (m : ℕ) (t : ℕ → ℕ → ℝ) (ideal : ℕ → ℝ) (scale : ℝ) :
    weightedHv n pts ref (totalWeight m t ref ideal scale) =
      vol (dominatedRegion 2 n pts ref) + scale * |(ref 0 - ideal 0) * (ref 1 - ideal 1)| * weightedHv n pts ref (weightAt m t) := by
  have : IsFiniteMeasure (volume.restrict (dominatedRegion 2 n pts ref)) := ⟨by
    rw [Measure.restrict_apply_univ]
    exact lt_top_iff_ne_top.2 (volume_dominatedRegion_ne_top 2 n pts ref)⟩
  unfold weightedHv totalWeight
  rw [integral_add (integrable_const _) ((weightAt_integrable n pts ref m t).const_mul _), integral_const_mul, setIntegral_const]
  simp [vol, Measure.real]

/-! ### The C function -/

theorem callRectWhv_spec {wl : WhvLib ℝ} (hwl : WhvLibOk wl) (x : ℕ → ℕ → ℝ) (n m : ℕ) (t : ℕ → ℕ → ℝ) (ref : List ℝ) (r : ℕ → ℝ) (hr : ∀ k < 2, ref.getD k 0 = r k)
    (hnd : NoneDominated n x) (hv : ValidRects m t) (hstop : NoEarlyStop n x (rectRows m t) r) : callRectWhv wl x n m t ref = some (weightedHv n x r (weightAt m t)) := by
  have hc : ∀ (q : WRect ℝ), WRect.clip (fun k => ref.getD k 0) q = WRect.clip r q := by
    intro q
    simp only [WRect.clip, hr 0 (by omega), hr 1 (by omega)]
  have hp : whvPreprocess (rectRows m t) (fun k => ref.getD k 0) = whvPreprocess (rectRows m t) r := by
    unfold whvPreprocess
    simp only [funext hc]
  have he : callRectWhv wl x n m t ref = rectWeightedHv2d x n (rectRows m t) r (wl.sortPts x n) (wl.sortRects (whvPreprocess (rectRows m t) r)) := by
    unfold callRectWhv rectWeightedHv2d
    simp only [hp]
  rw [he, weightedHv_weightAt]
  refine C34_rect_weighted_hv2d_partial n x (rectRows m t) r _ _ (hwl.pts x n) (hwl.rects _) hnd ?_ hstop
  intro q hq
  obtain ⟨i, hi, rfl⟩ := List.mem_map.1 hq
  exact hv i (List.mem_range.1 hi)

/-! ### Python -/

/-- **C75, Python `whv_rect`.** The integral of the weight over the dominated region, for mutually nondominated points.  Partial: a point other than the lowest must not be exactly as
high as the lowest upper side of the rectangles (`NoEarlyStop`), else the claim is false (`C34_false_early_stop`, `C75_false_early_stop`). -/
theorem C75_py_whv_rect_partial {wl : WhvLib ℝ} (hwl : WhvLibOk wl) (x : ℕ → ℕ → ℝ) (n m : ℕ) (t : ℕ → ℕ → ℝ) (ref : List ℝ) (r : ℕ → ℝ) (hr : PerObjective 2 ref r)
    (hnd : NoneDominated n x) (hv : ValidRects m t) (hstop : NoEarlyStop n x (rectRows m t) r) :
    pyWhvRectCall wl true (.mat n 2 x) (.mat m 5 t) ref (.scalar false) = .value (weightedHv n x r (weightAt m t)) := by
  have h := callRectWhv_spec hwl x n m t ((List.range 2).map r) r (fun k hk => by simp [List.getD_eq_getElem?_getD, hk]) hnd hv hstop
  simp only [pyWhvRectCall, atleast1d_spec ref 2 r hr, h, PyMaximise.isFalsy]
  simp

theorem perm_range_exists {l : List ℕ} {n : ℕ} (h : l.Perm (List.range n)) (p : ℕ → Prop) : (∃ i < n, p (l.getD i 0)) ↔ ∃ i < n, p i := by
  have hlen : l.length = n := by simpa using h.length_eq
  constructor
  · rintro ⟨i, hi, hp⟩
    refine ⟨l.getD i 0, ?_, hp⟩
    have hi' : i < l.length := by omega
    rw [List.getD_eq_getElem _ _ hi']
    exact List.mem_range.1 (h.mem_iff.1 (List.getElem_mem hi'))
  · rintro ⟨i, hi, hp⟩
    obtain ⟨j, hj, e⟩ := List.mem_iff_getElem.1 (h.mem_iff.2 (List.mem_range.2 hi))
    exact ⟨j, by omega, by rw [List.getD_eq_getElem _ _ hj, e]; exact hp⟩

theorem afterWhv_exists {wl : WhvLib ℝ} (hwl : WhvLibOk wl) (x : ℕ → ℕ → ℝ) (n m : ℕ) (t : ℕ → ℕ → ℝ) (ref : List ℝ) (p : (ℕ → ℝ) → Prop) :
    (∃ i < n, p (afterWhv wl x n m t ref i)) ↔ ∃ i < n, p (x i) := by
  unfold afterWhv
  split_ifs
  · exact Iff.rfl
  · exact perm_range_exists (hwl.pts x n).1 (fun i => p (x i))

theorem dominatedRegion_afterWhv {wl : WhvLib ℝ} (hwl : WhvLibOk wl) (x : ℕ → ℕ → ℝ) (n m : ℕ) (t : ℕ → ℕ → ℝ) (ref : List ℝ) (r : ℕ → ℝ) :
    dominatedRegion 2 n (afterWhv wl x n m t ref) r = dominatedRegion 2 n x r := by
  ext z
  simp only [dominatedRegion, Set.mem_ofPred_eq]
  rw [afterWhv_exists hwl x n m t ref (fun q => ∀ k : Fin 2, q k ≤ z k)]

theorem colMin_afterWhv {wl : WhvLib ℝ} (hwl : WhvLibOk wl) (x : ℕ → ℕ → ℝ) (n m : ℕ) (t : ℕ → ℕ → ℝ) (ref : List ℝ) (hn : 0 < n) (k : ℕ) (v : ℝ)
    (h : IsLeast {v | ∃ i < n, v = x i k} v) : colMin (afterWhv wl x n m t ref) n k = v := by
  refine IsLeast.unique (colMin_spec _ n k hn) ?_
  have : column (afterWhv wl x n m t ref) n k = {v | ∃ i < n, v = x i k} := by
    ext v
    exact afterWhv_exists hwl x n m t ref (fun q => v = q k)
  rw [this]
  exact h

theorem dominatedRegionMx_min (d n : ℕ) (mx : ℕ → Bool) (hmx : ∀ k < d, mx k = false) (pts : ℕ → ℕ → ℝ) (ref : ℕ → ℝ) : dominatedRegionMx d n mx pts ref = dominatedRegion d n pts ref := by
  ext z
  simp only [dominatedRegionMx, dominatedRegion, Set.mem_ofPred_eq]
  have : ∀ (k : Fin d) (a b : ℝ), AtLeastAsGood (mx k) a b ↔ a ≤ b := by
    intro k a b
    simp [AtLeastAsGood, hmx k k.2]
  simp only [this]

/-- **C75, Python `total_whv_rect`.** The hypervolume plus the scaled weighted hypervolume, which is the integral of the weight `totalWeight`. -/
theorem C75_py_total_whv_rect_partial {lib : HvLib ℝ} (hlib : HvLibOk lib) {wl : WhvLib ℝ} (hwl : WhvLibOk wl) (x : ℕ → ℕ → ℝ) (n m : ℕ) (t : ℕ → ℕ → ℝ) (ref : List ℝ) (r : ℕ → ℝ)
    (hr : PerObjective 2 ref r) (ideal : Option (List ℝ)) (I : ℕ → ℝ) (hI : IdealOf n x ideal I) (scale : ℝ) (hs : 0 < scale ∧ scale ≤ 1)
    (hnd : NoneDominated n x) (hv : ValidRects m t) (hstop : NoEarlyStop n x (rectRows m t) r) :
    pyTotalWhvRect lib wl true (.mat n 2 x) (.mat m 5 t) ref (.scalar false) ideal scale = .value (weightedHv n x r (totalWeight m t r I scale)) := by
  have hr2 : PerObjective 2 ((List.range 2).map r) r := ⟨Or.inr (by simp), fun k hk => by simp [hk]⟩
  have h1 := C75_py_whv_rect_partial hwl x n m t _ r hr2 hnd hv hstop
  have h2 := C63_py_hypervolume hlib (afterWhv wl x n m t ((List.range 2).map r)) 2 n le_rfl ((List.range 2).map r) [false] r (fun _ => false) hr2
    ⟨Or.inl rfl, fun k hk => by simp⟩
  rw [dominatedRegionMx_min _ _ _ (fun _ _ => rfl), dominatedRegion_afterWhv hwl] at h2
  have h3 : ∃ i : List ℝ, (match ideal with
      | none => pyGetIdeal (afterWhv wl x n m t ((List.range 2).map r)) n (.scalar false)
      | some l => atleast1dOfLengthN l 2) = some i ∧ i.getD 0 0 = I 0 ∧ i.getD 1 0 = I 1 := by
    cases ideal with
    | none =>
      have hI' : IsIdealPoint n x I := hI
      have hn : 0 < n := by
        obtain ⟨i, hi, -⟩ := (hI' 0 (by omega)).1
        omega
      refine ⟨[colMin (afterWhv wl x n m t ((List.range 2).map r)) n 0, colMin (afterWhv wl x n m t ((List.range 2).map r)) n 1], by
        simp only [pyGetIdeal, if_neg hn.ne']
        rfl, ?_, ?_⟩
      · simp [colMin_afterWhv hwl x n m t _ hn 0 _ (hI' 0 (by omega))]
      · simp [colMin_afterWhv hwl x n m t _ hn 1 _ (hI' 1 (by omega))]
    | some l =>
      refine ⟨_, atleast1d_spec l 2 I hI, by simp, ?_⟩
      simp [List.getD_eq_getElem?_getD]
  obtain ⟨i, h3, hi0, hi1⟩ := h3
  have e0 : ((List.range 2).map r).getD 0 0 = r 0 := by simp
  have e1 : ((List.range 2).map r).getD 1 0 = r 1 := by simp [List.getD_eq_getElem?_getD]
  simp only [pyTotalWhvRect, ne_eq, not_true_eq_false, if_false, if_neg (show ¬ (scale ≤ 0 ∨ scale > 1) by push Not; exact hs), atleast1d_spec ref 2 r hr, h1, h2]
  rw [weightedHv_total]
  cases ideal with
  | none => simp only at h3 ⊢; simp only [h3, hi0, hi1, e0, e1]
  | some l => simp only at h3 ⊢; simp only [h3, hi0, hi1, e0, e1]

/-- **C75, Python, errors of `whv_rect`**: exactly if the points are not a table with two columns, the rectangles are not an array with five, the reference point does not have one or two
values, or `maximise` is `True` or a list that is not empty. -/
theorem C75_py_error (wl : WhvLib ℝ) (isArray : Bool) (data rectangles : ArrArg ℝ) (ref : List ℝ) (maximise : PyMaximise) :
    pyWhvRectCall wl isArray data rectangles ref maximise = .error ↔
      ¬ ∃ n x m t, data = .mat n 2 x ∧ rectangles = .mat m 5 t ∧ isArray = true ∧ (ref.length = 1 ∨ ref.length = 2) ∧ (maximise = .scalar false ∨ maximise = .list []) := by
  cases data with
  | vec l => simp [pyWhvRectCall]
  | mat n nobj x =>
    cases rectangles with
    | vec l => simp [pyWhvRectCall]
    | mat m cols t =>
      have hex : (∃ n' x' m' t', (ArrArg.mat n nobj x : ArrArg ℝ) = .mat n' 2 x' ∧ (ArrArg.mat m cols t : ArrArg ℝ) = .mat m' 5 t' ∧ isArray = true ∧ (ref.length = 1 ∨ ref.length = 2) ∧
          (maximise = .scalar false ∨ maximise = .list [])) ↔
          nobj = 2 ∧ cols = 5 ∧ isArray = true ∧ (ref.length = 1 ∨ ref.length = 2) ∧ (maximise = .scalar false ∨ maximise = .list []) := by
        constructor
        · rintro ⟨_, _, _, _, e1, e2, h⟩
          cases e1
          cases e2
          exact ⟨rfl, rfl, h⟩
        · rintro ⟨rfl, rfl, h⟩
          exact ⟨n, x, m, t, rfl, rfl, h⟩
      rw [hex]
      have hf : maximise.isFalsy = true ↔ (maximise = .scalar false ∨ maximise = .list []) := by
        cases maximise with
        | scalar b => cases b <;> simp [PyMaximise.isFalsy]
        | list l => cases l <;> simp [PyMaximise.isFalsy]
      rw [← hf]
      simp only [pyWhvRectCall]
      by_cases h1 : nobj = 2
      swap
      · simp [h1]
      subst h1
      by_cases h2 : isArray = true
      swap
      · simp [h2]
      by_cases h3 : cols = 5
      swap
      · simp [h3, h2]
      by_cases h4 : ref.length = 1 ∨ ref.length = 2
      swap
      · simp only [h2, h3, h4, atleast1d_none ref 2 h4]
        simp
      obtain ⟨r, hr⟩ := exists_perObjective ref 2 h4
      simp only [h2, h3, h4, atleast1d_spec ref 2 r hr]
      by_cases h5 : maximise.isFalsy = true
      · simp only [h5]
        cases callRectWhv wl x n m t ((List.range 2).map r) <;> simp
      · simp [h5]

/-- **C75, `maximise` as a list.** Contrary to the documentation, a list of booleans is an error, even if all are `False`. -/
theorem C75_false_maximise_list (lib : HvLib ℝ) (wl : WhvLib ℝ) (isArray : Bool) (x rectangles : ArrArg ℝ) (ref : List ℝ) (b c : Bool) (ideal : Option (List ℝ)) (scale : ℝ) :
    pyWhvRectCall wl isArray x rectangles ref (.list [b, c]) = .error ∧ pyTotalWhvRect lib wl isArray x rectangles ref (.list [b, c]) ideal scale = .error := by
  have h : ∀ ref, pyWhvRectCall wl isArray x rectangles ref (.list [b, c]) = .error := fun ref => by
    rw [C75_py_error]
    rintro ⟨_, _, _, _, -, -, -, -, h | h⟩ <;> simp at h
  refine ⟨h ref, ?_⟩
  cases x with
  | vec l => rfl
  | mat n nobj xs =>
    cases rectangles with
    | vec l => rfl
    | mat m cols t =>
      simp only [pyTotalWhvRect]
      split_ifs
      · rfl
      · rfl
      · cases atleast1dOfLengthN ref nobj with
        | none => rfl
        | some r => simp only [h r]

/-- `total_whv_rect` fails if `whv_rect` does and if the factor is not in (0, 1]. -/
theorem C75_py_total_error (lib : HvLib ℝ) (wl : WhvLib ℝ) (isArray : Bool) (x rectangles : ArrArg ℝ) (ref : List ℝ) (maximise : PyMaximise) (ideal : Option (List ℝ)) (scale : ℝ)
    (h : scale ≤ 0 ∨ 1 < scale ∨ pyWhvRectCall wl isArray x rectangles ref maximise = .error) : pyTotalWhvRect lib wl isArray x rectangles ref maximise ideal scale = .error := by
  cases x with
  | vec l => rfl
  | mat n nobj xs =>
    cases rectangles with
    | vec l => rfl
    | mat m cols t =>
      simp only [pyTotalWhvRect]
      by_cases h1 : nobj = 2
      swap
      · rw [if_pos h1]
      rw [if_neg (by simpa using h1)]
      by_cases h2 : scale ≤ 0 ∨ scale > 1
      · rw [if_pos h2]
      rw [if_neg h2]
      have h3 : pyWhvRectCall wl isArray (.mat n nobj xs) (.mat m cols t) ref maximise = .error := by
        rcases h with h | h | h
        · exact absurd (Or.inl h) h2
        · exact absurd (Or.inr h) h2
        · exact h
      subst h1
      by_cases h4 : ref.length = 1 ∨ ref.length = 2
      · obtain ⟨r, hr⟩ := exists_perObjective ref 2 h4
        have h5 : pyWhvRectCall wl isArray (.mat n 2 xs) (.mat m cols t) ((List.range 2).map r) maximise = .error := by
          rw [C75_py_error] at h3 ⊢
          rintro ⟨n', x', m', t', a, b, c, -, d⟩
          exact h3 ⟨n', x', m', t', a, b, c, h4, d⟩
        simp only [atleast1d_spec ref 2 r hr, h5]
      · simp only [atleast1d_none ref 2 h4]

/-! ### R -/

/-- **C75, R `whv_rect`.** -/
theorem C75_r_whv_rect_partial {wl : WhvLib ℝ} (hwl : WhvLibOk wl) (x : ℕ → ℕ → ℝ) (n m : ℕ) (hn : 1 ≤ n) (t : ℕ → ℕ → ℝ) (ref : List ℝ) (r : ℕ → ℝ) (hr : PerObjective 2 ref r)
    (maximise : List Bool) (hm : true ∉ maximise) (hnd : NoneDominated n x) (hv : ValidRects m t) (hstop : NoEarlyStop n x (rectRows m t) r) :
    rWhvRectCall wl (.mat n 2 x) (.mat m 5 t) ref maximise = .value (weightedHv n x r (weightAt m t)) := by
  have ha : asDoubleMatrix (.mat n 2 x) = some (n, 2, x) := by
    simp only [asDoubleMatrix, if_neg (show ¬ n < 1 by omega), if_neg (show ¬ 2 < 2 by omega)]
  have hany : maximise.any id = false := by
    rw [Bool.eq_false_iff]
    intro h
    obtain ⟨b, hb, e⟩ := List.any_eq_true.1 h
    cases b
    · simp at e
    · exact hm hb
  have hl : (if ref.length = 1 then List.replicate 2 (ref.getD 0 0) else ref).length = 2 := by
    rcases hr.1 with h | h
    · rw [if_pos h]; simp
    · rw [if_neg (by omega), h]
  have hg : ∀ k < 2, (if ref.length = 1 then List.replicate 2 (ref.getD 0 0) else ref).getD k 0 = r k := by
    intro k hk
    have := hr.2 k hk
    by_cases h : ref.length = 1
    · rw [if_pos h] at this ⊢
      have e : ref.getD 0 0 = r k := by rw [List.getD_eq_getElem?_getD, this]; rfl
      rw [e, List.getD_eq_getElem?_getD, List.getElem?_replicate, if_pos hk]
      rfl
    · rw [if_neg h] at this ⊢
      simp [List.getD_eq_getElem?_getD, this]
  have h := callRectWhv_spec hwl x n m t _ r hg hnd hv hstop
  simp only [rWhvRectCall, ha, hany, hl, h]
  simp

/-- **C75, R `total_whv_rect`.** An ideal point that is given must have two values. -/
theorem C75_r_total_whv_rect_partial {lib : HvLib ℝ} (hlib : HvLibOk lib) {wl : WhvLib ℝ} (hwl : WhvLibOk wl) (x : ℕ → ℕ → ℝ) (n m : ℕ) (hn : 1 ≤ n) (t : ℕ → ℕ → ℝ) (ref : List ℝ)
    (r : ℕ → ℝ) (hr : PerObjective 2 ref r) (maximise : List Bool) (hm : true ∉ maximise) (hm0 : maximise ≠ []) (ideal : Option (List ℝ)) (I : ℕ → ℝ) (hI : IdealOf n x ideal I)
    (hI2 : ∀ l, ideal = some l → l.length = 2) (scale : ℝ) (hs : 0 < scale ∧ scale ≤ 1) (hnd : NoneDominated n x) (hv : ValidRects m t)
    (hstop : NoEarlyStop n x (rectRows m t) r) :
    rTotalWhvRect lib wl (.mat n 2 x) (.mat m 5 t) ref maximise ideal scale = .value (weightedHv n x r (totalWeight m t r I scale)) := by
  have hmx : ∀ k, maximise.getD (k % maximise.length) false = false := by
    intro k
    have hl : k % maximise.length < maximise.length := Nat.mod_lt _ (List.length_pos_iff.2 hm0)
    rw [List.getD_eq_getElem _ _ hl]
    by_contra hc
    exact hm (by rw [← Bool.eq_true_of_not_eq_false hc]; exact List.getElem_mem hl)
  have hrep : (List.range 2).map (fun k => maximise.getD (k % maximise.length) false) = [false, false] := by
    simp only [hmx]
    rfl
  have h1 := C75_r_whv_rect_partial hwl x n m hn t ref r hr [false, false] (by simp) hnd hv hstop
  have h2 := C63_r_hypervolume hlib x 2 n le_rfl hn ref [false, false] r (fun _ => false) hr ⟨Or.inr rfl, fun k hk => by
    rcases (by omega : k = 0 ∨ k = 1) with rfl | rfl <;> rfl⟩
  rw [dominatedRegionMx_min _ _ _ (fun _ _ => rfl)] at h2
  have h3 : (ideal.getD (rGetIdeal x n [false, false])).length = 2 ∧ ∀ k < 2, (ideal.getD (rGetIdeal x n [false, false])).getD k 0 = I k := by
    cases ideal with
    | none =>
      have hI' : IsIdealPoint n x I := hI
      refine ⟨rfl, fun k hk => ?_⟩
      have e : ∀ k < 2, colMin x n k = I k := fun k hk => IsLeast.unique (colMin_spec x n k hn) (hI' k hk)
      rcases (by omega : k = 0 ∨ k = 1) with rfl | rfl
      · simp [rGetIdeal, e 0 (by omega)]
      · simp [rGetIdeal, e 1 (by omega)]
    | some l =>
      have hI' : PerObjective 2 l I := hI
      refine ⟨hI2 l rfl, fun k hk => ?_⟩
      have := hI'.2 k hk
      rw [if_neg (by rw [hI2 l rfl]; omega)] at this
      simp [List.getD_eq_getElem?_getD, this]
  have h4 : ∀ k < 2, ref.getD (k % ref.length) 0 = r k := by
    intro k hk
    have := hr.2 k hk
    rcases hr.1 with h | h
    · rw [if_pos h] at this
      rw [h, Nat.mod_one, List.getD_eq_getElem?_getD, this]
      rfl
    · rw [if_neg (by omega)] at this
      simp [List.getD_eq_getElem?_getD, h, Nat.mod_eq_of_lt hk, this]
  have hprod : ((List.range 2).map (fun k => ref.getD (k % ref.length) 0 - (ideal.getD (rGetIdeal x n [false, false])).getD k 0)).prod = (r 0 - I 0) * (r 1 - I 1) := by
    simp only [List.range_succ, List.range_zero, List.nil_append, List.singleton_append, List.map_cons, List.map_nil, List.prod_cons, List.prod_nil, mul_one, h4 0 (by omega),
      h4 1 (by omega), h3.2 0 (by omega), h3.2 1 (by omega)]
  simp only [rTotalWhvRect, hrep, ne_eq, not_true_eq_false, if_false, if_neg (show ¬ (scale ≤ 0 ∨ scale > 1) by push Not; exact hs), h1, h2, h3.1, hprod]
  rw [weightedHv_total]

/-- **C75, R, errors**: a maximised objective, another number of columns, and wrong lengths of the reference or ideal point. -/
theorem C75_r_error (wl : WhvLib ℝ) (x rectangles : ArrArg ℝ) (reference : List ℝ) (maximise : List Bool)
    (h : true ∈ maximise ∨ (∀ n t, x ≠ .mat n 2 t) ∨ (∀ m t, rectangles ≠ .mat m 5 t) ∨ ¬ (reference.length = 1 ∨ reference.length = 2)) :
    rWhvRectCall wl x rectangles reference maximise = .error := by
  unfold rWhvRectCall
  cases ha : asDoubleMatrix x with
  | none => rfl
  | some q =>
    obtain ⟨n, nobj, t⟩ := q
    cases rectangles with
    | vec l => rfl
    | mat m cols t' =>
      have hx : x = .mat n nobj t := by
        cases x with
        | vec l => simp [asDoubleMatrix] at ha
        | mat n' nobj' t' =>
          simp only [asDoubleMatrix] at ha
          split_ifs at ha
          simp only [Option.some.injEq, Prod.mk.injEq] at ha
          obtain ⟨rfl, rfl, rfl⟩ := ha
          rfl
      simp only
      by_cases h1 : nobj = 2
      swap
      · rw [if_pos h1]
      rw [if_neg (by simpa using h1)]
      by_cases h2 : cols = 5
      swap
      · rw [if_pos h2]
      rw [if_neg (by simpa using h2)]
      subst h1 h2
      rcases h with h | h | h | h
      · rw [if_pos (List.any_eq_true.2 ⟨true, h, rfl⟩)]
      · exact absurd hx (h n t)
      · exact absurd rfl (h m t')
      · split_ifs with g1 g2 g3 <;> try rfl
        · push Not at h
          exact absurd g2 h.1
        · push Not at h
          omega

/-! ### Pareto compliance -/

/-- **C75, R `total_whv_rect`: wrong arguments** give no value: no matrix, another number of objectives, a scale factor outside `(0, 1]`, or an ideal point of another length. -/
theorem C75_r_total_no_value (lib : HvLib ℝ) (wl : WhvLib ℝ) (x rectangles : ArrArg ℝ) (ref : List ℝ) (maximise : List Bool) (ideal : Option (List ℝ)) (scale : ℝ)
    (h : (∀ n xs, x ≠ .mat n 2 xs) ∨ scale ≤ 0 ∨ scale > 1 ∨ ∃ i ∈ ideal, i.length ≠ 2) (v : ℝ) :
    rTotalWhvRect lib wl x rectangles ref maximise ideal scale ≠ .value v := by
  cases x with
  | vec l => simp [rTotalWhvRect]
  | mat n nobj xs =>
    by_cases h2 : nobj = 2
    · subst h2
      by_cases hs : scale ≤ 0 ∨ scale > 1
      · simp [rTotalWhvRect, if_pos hs]
      · rcases h with h | h | h | ⟨i, rfl, hi⟩
        · exact absurd rfl (h n xs)
        · exact absurd (Or.inl h) hs
        · exact absurd (Or.inr h) hs
        · simp only [rTotalWhvRect, ne_eq, not_true_eq_false, if_false, if_neg hs, Option.getD_some, if_pos hi]
          split
          · simp
          · simp
          · split <;> simp
    · simp [rTotalWhvRect, h2]

/-- **C75, Pareto compliance.** If every point of `B` is weakly dominated by a point of `A` and a point of `A` that is better than the reference point is not weakly dominated by any point
of `B`, then `A` has the larger total weighted hypervolume, whatever the (valid) rectangles, for the same ideal point. -/
theorem C75_py_total_pareto_partial {lib : HvLib ℝ} (hlib : HvLibOk lib) {wl : WhvLib ℝ} (hwl : WhvLibOk wl) (A B : ℕ → ℕ → ℝ) (nA nB m : ℕ) (t : ℕ → ℕ → ℝ) (ref : List ℝ) (r : ℕ → ℝ)
    (hr : PerObjective 2 ref r) (ideal : List ℝ) (hideal : ideal.length = 1 ∨ ideal.length = 2) (scale : ℝ) (hs : 0 < scale ∧ scale ≤ 1) (hv : ValidRects m t)
    (hndA : NoneDominated nA A) (hstopA : NoEarlyStop nA A (rectRows m t) r) (hndB : NoneDominated nB B) (hstopB : NoEarlyStop nB B (rectRows m t) r)
    (h : ∀ j < nB, ∃ i < nA, ∀ k < 2, A i k ≤ B j k) (i₀ : ℕ) (hi₀ : i₀ < nA) (hlt : ∀ k < 2, A i₀ k < r k) (hnew : ∀ j < nB, ¬ ∀ k < 2, B j k ≤ A i₀ k) :
    ∃ a b, pyTotalWhvRect lib wl true (.mat nA 2 A) (.mat m 5 t) ref (.scalar false) (some ideal) scale = .value a ∧
      pyTotalWhvRect lib wl true (.mat nB 2 B) (.mat m 5 t) ref (.scalar false) (some ideal) scale = .value b ∧ b < a := by
  obtain ⟨I, hI⟩ := exists_perObjective ideal 2 hideal
  refine ⟨_, _, C75_py_total_whv_rect_partial hlib hwl A nA m t ref r hr (some ideal) I hI scale hs hndA hv hstopA,
    C75_py_total_whv_rect_partial hlib hwl B nB m t ref r hr (some ideal) I hI scale hs hndB hv hstopB, ?_⟩
  rw [weightedHv_total, weightedHv_total]
  have hsub : dominatedRegion 2 nB B r ⊆ dominatedRegion 2 nA A r := by
    rintro z ⟨⟨j, hj, hz⟩, hz'⟩
    obtain ⟨i, hi, hij⟩ := h j hj
    exact ⟨⟨i, hi, fun k => (hij k k.2).trans (hz k)⟩, hz'⟩
  have hvol : vol (dominatedRegion 2 nB B r) < vol (dominatedRegion 2 nA A r) := by
    have := C15_hv_strictly_monotone_partial 2 nA nB le_rfl A B r (lib A 2 nA) (lib B 2 nB) (hlib A 2 nA).1 (hlib B 2 nB).1 (Or.inl (by omega)) h i₀ hi₀ hlt hnew
    rw [fpliHv_eq_HV 2 nB le_rfl B r _ (hlib B 2 nB).1 (hlib.ties B 2 nB), fpliHv_eq_HV 2 nA le_rfl A r _ (hlib A 2 nA).1 (hlib.ties A 2 nA)] at this
    unfold vol
    rwa [volume_dominatedRegion, volume_dominatedRegion, ENNReal.toReal_ofReal HV_nonneg, ENNReal.toReal_ofReal HV_nonneg]
  have hw : weightedHv nB B r (weightAt m t) ≤ weightedHv nA A r (weightAt m t) := by
    unfold weightedHv
    refine setIntegral_mono_set (weightAt_integrable nA A r m t) (Filter.Eventually.of_forall (fun z => ?_)) (Filter.Eventually.of_forall hsub)
    unfold weightAt
    exact Finset.sum_nonneg (fun i hi => Set.indicator_nonneg (fun _ _ => (hv i (Finset.mem_range.1 hi)).2.2) z)
  have := mul_le_mul_of_nonneg_left hw (mul_nonneg hs.1.le (abs_nonneg ((r 0 - I 0) * (r 1 - I 1))))
  linarith

/-! ### `choose_eafdiff` -/

section choose
variable {L : Type*} [LinearOrder L]

/-- The table made of rows. -/
def tableOfRows (rows : List (List ℝ)) : ℕ → ℕ → ℝ := fun i k => (rows.getD i []).getD k 0

/-- The positive part of the difference in favour of the chosen side. -/
def sidePart (left : Bool) (v : ℝ) : ℝ := max 0 (if left then v else -v)

theorem weightAt_rows (rows : List (List ℝ)) (z : Fin 2 → ℝ) : weightAt rows.length (tableOfRows rows) z =
    (rows.map (fun row => Set.indicator {y : Fin 2 → ℝ | (row.getD 0 0 ≤ y 0 ∧ y 0 ≤ row.getD 2 0) ∧ row.getD 1 0 ≤ y 1 ∧ y 1 ≤ row.getD 3 0} (fun _ => row.getD 4 0) z)).sum := by
  unfold weightAt tableOfRows
  rw [← List.toFinset_range, List.sum_toFinset _ List.nodup_range]
  congr 1
  apply List.ext_getElem
  · simp
  · intro i h1 h2
    have hi : i < rows.length := by simpa using h1
    simp only [List.getElem_map, List.getElem_range, List.getD_eq_getElem _ _ hi]

theorem choose_sum (rows : List (List ℝ)) (left : Bool) (hrows : ∀ row ∈ rows, ∃ a b c d v, row = [a, b, c, d, v]) (z : Fin 2 → ℝ) :
    ((rChooseEafdiff rows left).map (fun row => Set.indicator {y : Fin 2 → ℝ | (row.getD 0 0 ≤ y 0 ∧ y 0 ≤ row.getD 2 0) ∧ row.getD 1 0 ≤ y 1 ∧ y 1 ≤ row.getD 3 0}
      (fun _ => row.getD 4 0) z)).sum =
    (rows.map (fun row => Set.indicator {y : Fin 2 → ℝ | (row.getD 0 0 ≤ y 0 ∧ y 0 ≤ row.getD 2 0) ∧ row.getD 1 0 ≤ y 1 ∧ y 1 ≤ row.getD 3 0}
      (fun _ => sidePart left (row.getD 4 0)) z)).sum := by
  induction rows with
  | nil => cases left <;> rfl
  | cons row rows ih =>
    have ih := ih (fun r hr => hrows r (List.mem_cons_of_mem _ hr))
    obtain ⟨a, b, c, d, v, rfl⟩ := hrows row (List.mem_cons_self ..)
    rw [List.map_cons, List.sum_cons, ← ih]
    cases left with
    | true =>
      by_cases hv : 0 < v
      · have : rChooseEafdiff ([a, b, c, d, v] :: rows) true = [a, b, c, d, v] :: rChooseEafdiff rows true := by simp [rChooseEafdiff, hv]
        rw [this, List.map_cons, List.sum_cons]
        simp [sidePart, max_eq_right hv.le]
      · have : rChooseEafdiff ([a, b, c, d, v] :: rows) true = rChooseEafdiff rows true := by simp [rChooseEafdiff, hv]
        rw [this]
        simp [sidePart, max_eq_left (not_lt.1 hv)]
    | false =>
      by_cases hv : v < 0
      · have : rChooseEafdiff ([a, b, c, d, v] :: rows) false = [a, b, c, d, |v|] :: rChooseEafdiff rows false := by simp [rChooseEafdiff, hv]
        rw [this, List.map_cons, List.sum_cons]
        simp [sidePart, max_eq_right (show (0 : ℝ) ≤ -v by linarith), abs_of_neg hv]
      · have : rChooseEafdiff ([a, b, c, d, v] :: rows) false = rChooseEafdiff rows false := by simp [rChooseEafdiff, hv]
        rw [this]
        simp [sidePart, max_eq_left (show -v ≤ 0 by linarith)]

/-- **C75, `choose_eafdiff`.** The rows are exactly those with a positive (negative) difference, the difference made positive. -/
theorem C75_choose_eafdiff_rows (rows : List (List ℝ)) (hrows : ∀ row ∈ rows, ∃ a b c d v, row = [a, b, c, d, v]) (left : Bool) (a b c d v : ℝ) :
    [a, b, c, d, v] ∈ rChooseEafdiff rows left ↔ 0 < v ∧ [a, b, c, d, if left then v else -v] ∈ rows := by
  cases left with
  | true => simp [rChooseEafdiff, and_comm]
  | false =>
    simp only [rChooseEafdiff, Bool.false_eq_true, if_false, List.mem_map, List.mem_filter, decide_eq_true_eq]
    constructor
    · rintro ⟨row, ⟨hr, hv⟩, he⟩
      obtain ⟨a', b', c', d', v', rfl⟩ := hrows row hr
      simp at hv he
      obtain ⟨rfl, rfl, rfl, rfl, rfl⟩ := he
      rw [abs_of_neg hv, neg_neg]
      exact ⟨by linarith, hr⟩
    · rintro ⟨hv, hr⟩
      exact ⟨_, ⟨hr, by simpa using hv⟩, by simp [abs_of_pos hv]⟩

variable {mx : ℝ} {x y : Labelled L ℝ} {n : ℕ} {rows : List (List ℝ)}

theorem choose_valid (h : IsRectTable (fun _ => false) mx x.pts x.labels y.pts y.labels n rows) (left : Bool) :
    ValidRects (rChooseEafdiff rows left).length (tableOfRows (rChooseEafdiff rows left)) := by
  have hrows : ∀ row ∈ rows, ∃ a b c d v, row = [a, b, c, d, v] := fun row hr => by
    obtain ⟨a, b, c, d, v, e, -⟩ := h.2.1 row hr
    exact ⟨a, b, c, d, v, e⟩
  have hrows' : ∀ row ∈ rChooseEafdiff rows left, ∃ a b c d v, row = [a, b, c, d, v] := by
    intro row hr
    unfold rChooseEafdiff at hr
    split_ifs at hr
    · exact hrows row (List.mem_filter.1 hr).1
    · obtain ⟨row', hr', rfl⟩ := List.mem_map.1 hr
      obtain ⟨a, b, c, d, v, rfl⟩ := hrows row' (List.mem_filter.1 hr').1
      exact ⟨a, b, c, d, |v|, by simp⟩
  intro i hi
  have hmem : (rChooseEafdiff rows left).getD i [] ∈ rChooseEafdiff rows left := by
    rw [List.getD_eq_getElem _ _ hi]
    exact List.getElem_mem hi
  unfold tableOfRows
  obtain ⟨a, b, c, d, v, e⟩ := hrows' _ hmem
  rw [e] at hmem ⊢
  obtain ⟨hv, hr⟩ := (C75_choose_eafdiff_rows rows hrows left a b c d v).1 hmem
  obtain ⟨a', b', c', d', v', e', g1, g2⟩ := h.2.1 _ hr
  simp only [List.cons.injEq, and_true] at e'
  obtain ⟨rfl, rfl, rfl, rfl, -⟩ := e'
  simp only [AsGood, Bool.false_eq_true, if_false, not_le] at g1 g2
  exact ⟨by simpa using g1, by simpa using g2, by simpa using hv.le⟩

/-- Almost everywhere below infinity, the weight of the chosen rectangles is the positive part of the difference of the attainment functions. -/
theorem choose_weight_ae (h : IsRectTable (fun _ => false) mx x.pts x.labels y.pts y.labels n rows) (hx : x.labels ≠ []) (hy : y.labels ≠ []) (left : Bool) :
    ∀ᵐ z : Fin 2 → ℝ, (∀ d : Fin 2, z d < mx) → weightAt (rChooseEafdiff rows left).length (tableOfRows (rChooseEafdiff rows left)) z =
      sidePart left (eafDifference (fun _ => false) x.pts x.labels y.pts y.labels 2 n (vec2 (z 0) (z 1))) := by
  have hrows : ∀ row ∈ rows, ∃ a b c d v, row = [a, b, c, d, v] := fun row hr => by
    obtain ⟨a, b, c, d, v, e, -⟩ := h.2.1 row hr
    exact ⟨a, b, c, d, v, e⟩
  have hae : ∀ᵐ z : Fin 2 → ℝ, ∀ row ∈ {row | row ∈ rows}, z 0 ≠ row.getD 2 0 ∧ z 1 ≠ row.getD 3 0 := by
    rw [ae_ball_iff rows.finite_toSet.countable]
    intro row _
    have h0 : volume {q : Fin 2 → ℝ | q 0 = row.getD 2 0} = 0 := Measure.pi_hyperplane (fun _ : Fin 2 => (volume : Measure ℝ)) (0 : Fin 2) _
    have h1 : volume {q : Fin 2 → ℝ | q 1 = row.getD 3 0} = 0 := Measure.pi_hyperplane (fun _ : Fin 2 => (volume : Measure ℝ)) (1 : Fin 2) _
    rw [ae_iff]
    refine measure_mono_null ?_ (measure_union_null h0 h1)
    intro q hq
    simp only [Set.mem_ofPred_eq, Set.mem_union] at hq ⊢
    tauto
  filter_upwards [hae] with z hz hlt
  rw [weightAt_rows, choose_sum rows left hrows]
  have hbox : ∀ row ∈ rows, z ∈ {y : Fin 2 → ℝ | (row.getD 0 0 ≤ y 0 ∧ y 0 ≤ row.getD 2 0) ∧ row.getD 1 0 ≤ y 1 ∧ y 1 ≤ row.getD 3 0} ↔ InBox (fun _ => false) row (vec2 (z 0) (z 1)) := by
    intro row hr
    obtain ⟨g1, g2⟩ := hz row hr
    obtain ⟨a, b, c, d, v, rfl⟩ := hrows row hr
    simp only [List.getD_cons_zero, List.getD_cons_succ] at g1 g2
    constructor
    · rintro ⟨⟨h1, h2⟩, h3, h4⟩
      simp only [List.getD_cons_zero, List.getD_cons_succ] at h1 h2 h3 h4
      refine ⟨a, b, c, d, v, rfl, ?_, ?_, ?_, ?_⟩ <;> simp only [AsGood, vec2, Bool.false_eq_true, if_false, if_true, one_ne_zero, not_le]
      · exact h1
      · exact h3
      · exact lt_of_le_of_ne h2 g1
      · exact lt_of_le_of_ne h4 g2
    · rintro ⟨a', b', c', d', v', he, h1, h2, h3, h4⟩
      simp only [List.cons.injEq, and_true] at he
      obtain ⟨rfl, rfl, rfl, rfl, rfl⟩ := he
      simp only [AsGood, vec2, Bool.false_eq_true, if_false, if_true, one_ne_zero, not_le] at h1 h2 h3 h4
      exact ⟨⟨h1, h3.le⟩, h2, h4.le⟩
  have hz' : ∀ d < 2, (if (fun _ : ℕ => false) d then -vec2 (z 0) (z 1) d else vec2 (z 0) (z 1) d) < mx := by
    intro d hd
    rw [if_neg (by simp)]
    rcases (by omega : d = 0 ∨ d = 1) with rfl | rfl
    · exact hlt 0
    · exact hlt 1
  rw [← List.sum_toFinset _ h.1]
  by_cases hex : ∃ row ∈ rows, InBox (fun _ => false) row (vec2 (z 0) (z 1))
  · obtain ⟨row, hr, hin⟩ := hex
    obtain ⟨p1, p2, p3, p4⟩ := h.2.2.2 _ row hr hin
    obtain ⟨w, -, hw⟩ := h.2.2.1 _ p1 p2 p3
    rw [Finset.sum_eq_single_of_mem row (List.mem_toFinset.2 hr)]
    · rw [Set.indicator_of_mem ((hbox row hr).2 hin), List.getD_eq_getElem?_getD, p4]
      rfl
    · intro row' hr' hne
      rw [List.mem_toFinset] at hr'
      apply Set.indicator_of_notMem
      intro hin'
      exact hne ((hw row' ⟨hr', (hbox row' hr').1 hin'⟩).trans (hw row ⟨hr, hin⟩).symm)
  · have hd : eafDifference (fun _ => false) x.pts x.labels y.pts y.labels 2 n (vec2 (z 0) (z 1)) = 0 := by
      by_contra hne
      rcases pairCount_of_difference _ hne with ⟨c1, c2⟩ | hc | hc
      · obtain ⟨row, ⟨hr, hin⟩, -⟩ := h.2.2.1 _ hz' c1 c2
        exact hex ⟨row, hr, hin⟩
      · exact hx (List.toFinset_eq_empty_iff _ |>.1 (Finset.card_eq_zero.1 hc))
      · exact hy (List.toFinset_eq_empty_iff _ |>.1 (Finset.card_eq_zero.1 hc))
    rw [hd]
    have : sidePart left 0 = 0 := by cases left <;> simp [sidePart]
    rw [this]
    apply Finset.sum_eq_zero
    intro row hr
    rw [List.mem_toFinset] at hr
    apply Set.indicator_of_notMem
    intro hin
    exact hex ⟨row, hr, (hbox row hr).1 hin⟩

/-- **C75, preferences learned from differences.** With the rectangles chosen from a table of EAF differences, `whv_rect` returns the integral, over the region dominated by the points, of
the difference in favour of the chosen side. -/
theorem C75_choose_whv_rect_partial {wl : WhvLib ℝ} (hwl : WhvLibOk wl) (h : IsRectTable (fun _ => false) mx x.pts x.labels y.pts y.labels n rows) (hx : x.labels ≠ []) (hy : y.labels ≠ [])
    (left : Bool) (P : ℕ → ℕ → ℝ) (N : ℕ) (hN : 1 ≤ N) (ref : List ℝ) (r : ℕ → ℝ) (hr : PerObjective 2 ref r) (href : ∀ k < 2, r k < mx) (hnd : NoneDominated N P)
    (hstop : NoEarlyStop N P (rectRows (rChooseEafdiff rows left).length (tableOfRows (rChooseEafdiff rows left))) r) :
    rWhvRectCall wl (.mat N 2 P) (.mat (rChooseEafdiff rows left).length 5 (tableOfRows (rChooseEafdiff rows left))) ref [false] =
      .value (weightedHv N P r (fun z => max 0 (if left then eafDifference (fun _ => false) x.pts x.labels y.pts y.labels 2 n (vec2 (z 0) (z 1))
        else -eafDifference (fun _ => false) x.pts x.labels y.pts y.labels 2 n (vec2 (z 0) (z 1))))) := by
  rw [C75_r_whv_rect_partial hwl P N _ hN _ ref r hr [false] (by simp) hnd (choose_valid h left) hstop]
  congr 1
  unfold weightedHv
  apply setIntegral_congr_ae (measurableSet_dominatedRegion 2 N P r)
  filter_upwards [choose_weight_ae h hx hy left] with z hz hD
  exact hz (fun d => lt_of_le_of_lt (hD.2 d) (href d d.2))

end choose

/-! ### The proviso, and non-vacuity -/

/-- The square with corners (0, 0) and (2, 2) and weight 1. -/
def squareTable : ℕ → ℕ → ℝ := fun _ j => ([0, 0, 2, 2, 1] : List ℝ).getD j 0

theorem rectRows_square : rectRows 1 squareTable = [squareRect] := by
  simp [rectRows, squareTable, squareRect]

/-- **C75 is false without the proviso**: the points (0, 2) and (1, 0) dominate an area of 2 of the square with corners (0, 0) and (2, 2), but the result is 0. -/
theorem C75_false_early_stop {wl : WhvLib ℝ} (hwl : WhvLibOk wl) :
    NoneDominated 2 (twoPts 0 2 1 0) ∧ ValidRects 1 squareTable ∧
    pyWhvRectCall wl true (.mat 2 2 (twoPts 0 2 1 0)) (.mat 1 5 squareTable) [5] (.scalar false) = .value 0 ∧ weightedHv 2 (twoPts 0 2 1 0) (fun _ => 5) (weightAt 1 squareTable) = 2 := by
  refine ⟨?_, ?_, ?_, ?_⟩
  · intro i hi j hj hne
    rcases (by omega : i = 0 ∧ j = 1 ∨ i = 1 ∧ j = 0) with ⟨rfl, rfl⟩ | ⟨rfl, rfl⟩ <;> simp [twoPts]
  · intro i hi
    have : i = 0 := by omega
    subst this
    norm_num [squareTable]
  · obtain ⟨h1, h2, h3, -⟩ := C34_false_early_stop
    have hs : wl.sortPts (twoPts 0 2 1 0) 2 = [0, 1] := by
      obtain ⟨hp, hw⟩ := hwl.pts (twoPts 0 2 1 0) 2
      have hp' : (wl.sortPts (twoPts 0 2 1 0) 2).Perm [0, 1] := hp
      generalize wl.sortPts (twoPts 0 2 1 0) 2 = l at hp' hw
      match l, hp', hw with
      | [], hp', _ => exact absurd hp'.length_eq (by simp)
      | [_], hp', _ => exact absurd hp'.length_eq (by simp)
      | _ :: _ :: _ :: _, hp', _ => exact absurd hp'.length_eq (by simp)
      | [a, b], hp', hw =>
        have ha : a = 0 ∨ a = 1 := by simpa using hp'.mem_iff.1 (List.mem_cons_self ..)
        have hb : b = 0 ∨ b = 1 := by simpa using hp'.mem_iff.1 (List.mem_cons_of_mem _ (List.mem_singleton.2 rfl))
        have hnd : a ≠ b := by
          have := hp'.nodup_iff.2 (by decide)
          simpa using this
        have hc := (List.pairwise_cons.1 hw).1 b (by simp)
        rcases ha with rfl | rfl <;> rcases hb with rfl | rfl
        · exact absurd rfl hnd
        · rfl
        · norm_num [cmpDataYDesc, twoPts] at hc
        · exact absurd rfl hnd
    have hrs : wl.sortRects [squareRect] = [squareRect] := by
      have := (hwl.rects [squareRect]).1
      exact List.perm_singleton.1 this
    have e5 : (fun k => ([5, 5] : List ℝ).getD k 0) 0 = 5 ∧ (fun k => ([5, 5] : List ℝ).getD k 0) 1 = 5 := ⟨rfl, rfl⟩
    have hp : whvPreprocess [squareRect] (fun k => ([5, 5] : List ℝ).getD k 0) = whvPreprocess [squareRect] (fun _ => (5 : ℝ)) := by
      unfold whvPreprocess
      simp [WRect.clip]
    have hcall : callRectWhv wl (twoPts 0 2 1 0) 2 1 squareTable [5, 5] = some 0 := by
      unfold callRectWhv
      rw [rectRows_square, hs, hp, pre_square, hrs]
      have : rectWeightedHv2d (twoPts 0 2 1 0) 2 [squareRect] (fun k => ([5, 5] : List ℝ).getD k 0) [0, 1] [squareRect] =
          rectWeightedHv2d (twoPts 0 2 1 0) 2 [squareRect] (fun _ => 5) [0, 1] [squareRect] := by
        unfold rectWeightedHv2d
        simp only [hp]
      rw [this, h3]
    have ha : atleast1dOfLengthN [(5 : ℝ)] 2 = some [5, 5] := rfl
    simp only [pyWhvRectCall, ha, hcall, PyMaximise.isFalsy]
    simp
  · rw [weightedHv_weightAt, rectRows_square]
    obtain ⟨-, -, -, h⟩ := C34_false_early_stop
    simp only [List.map_cons, List.map_nil, List.sum_cons, List.sum_nil, h]
    norm_num [squareRect]

/-- The hypotheses of the theorems are met: two points that do not dominate each other, one of them inside the square, the ideal point not given. -/
example {lib : HvLib ℝ} (hlib : HvLibOk lib) {wl : WhvLib ℝ} (hwl : WhvLibOk wl) :
    pyTotalWhvRect lib wl true (.mat 2 2 (twoPts 0 1 1 0)) (.mat 1 5 squareTable) [5] (.scalar false) none (1 / 10) =
      .value (weightedHv 2 (twoPts 0 1 1 0) (fun _ => 5) (totalWeight 1 squareTable (fun _ => 5) (fun _ => 0) (1 / 10))) := by
  refine C75_py_total_whv_rect_partial hlib hwl _ 2 1 _ [5] _ ⟨Or.inl rfl, fun k hk => rfl⟩ none _ ?_ _ (by norm_num) ?_ ?_ ?_
  · intro k hk
    rcases (by omega : k = 0 ∨ k = 1) with rfl | rfl
    · refine ⟨⟨0, by omega, by simp [twoPts]⟩, ?_⟩
      rintro v ⟨i, hi, rfl⟩
      rcases (by omega : i = 0 ∨ i = 1) with rfl | rfl <;> norm_num [twoPts]
    · refine ⟨⟨1, by omega, by simp [twoPts]⟩, ?_⟩
      rintro v ⟨i, hi, rfl⟩
      rcases (by omega : i = 0 ∨ i = 1) with rfl | rfl <;> norm_num [twoPts]
  · intro i hi j hj hne
    rcases (by omega : i = 0 ∧ j = 1 ∨ i = 1 ∧ j = 0) with ⟨rfl, rfl⟩ | ⟨rfl, rfl⟩ <;> simp [twoPts]
  · intro i hi
    have : i = 0 := by omega
    subst this
    norm_num [squareTable]
  · rw [rectRows_square]
    rintro i hi ⟨r, hr, _, h, _⟩
    simp only [List.mem_singleton] at hr
    subst hr
    rcases (by omega : i = 0 ∨ i = 1) with rfl | rfl <;> norm_num [twoPts, squareRect] at h

/-- A single point never stops early, so the theorem on chosen rectangles applies to the table of differences of C61. -/
example (P : ℕ → ℕ → ℝ) (rects : List (WRect ℝ)) (r : ℕ → ℝ) : NoneDominated 1 P ∧ NoEarlyStop 1 P rects r := by
  refine ⟨fun i hi j hj hne => by omega, fun i hi _ j hj => ?_⟩
  have : i = j := by omega
  rw [this]

end Moo
