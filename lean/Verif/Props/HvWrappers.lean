import Verif.Model.HvWrappers
import Verif.Spec.HvWrappers
import Verif.Props.Hypervolume
import Verif.Lemmas.HvApprox
import Verif.Lemmas.Qsort

/-!
# C63: the hypervolume functions of the Python and R packages
-/

set_option autoImplicit false
set_option linter.unusedSectionVars false

namespace Moo

open MeasureTheory

/-- The C library works: its `qsort` sorts, and it is stable when there are more than three objectives (see C13 and C47). -/
def HvLibOk (lib : HvLib ℝ) : Prop :=
  ∀ pts d n, HvEnvOk pts d n (lib pts d n) ∧
    (3 < d → ∀ j, j + 1 < d → StableQsort (compareNode (nodeTable pts) j) ((lib pts d n).ords (j + 1)) ((lib pts d n).ords j))

/-! ### Such a library exists -/

theorem exists_stableQsort {β : Type*} (cmp : β → β → ℤ) (htrans : ∀ a b c, cmp a b ≤ 0 → cmp b c ≤ 0 → cmp a c ≤ 0)
    (htot : ∀ a b, cmp a b ≤ 0 ∨ cmp b a ≤ 0) (l : List β) : ∃ out, StableQsort cmp l out := by
  refine ⟨l.mergeSort (fun a b => decide (cmp a b ≤ 0)), ⟨List.mergeSort_perm _ _, ?_⟩, ?_⟩
  · have h := List.pairwise_mergeSort (le := fun a b => decide (cmp a b ≤ 0)) (by
      intro a b c h1 h2
      simp only [decide_eq_true_eq] at *
      exact htrans a b c h1 h2) (by
      intro a b
      simp only [Bool.or_eq_true, decide_eq_true_eq]
      exact htot a b) l
    exact h.imp (fun h => by simpa using h)
  · intro a b hab h0
    exact List.pair_sublist_mergeSort (by
      intro a b c h1 h2
      simp only [decide_eq_true_eq] at *
      exact htrans a b c h1 h2) (by
      intro a b
      simp only [Bool.or_eq_true, decide_eq_true_eq]
      exact htot a b) (by simp [h0]) hab

theorem compareNode_iff_le {K : Type*} [CommRing K] [LinearOrder K] (x : ℕ → ℕ → K) (j p q : ℕ) : compareNode x j p q ≤ 0 ↔ x p j ≤ x q j := by
  unfold compareNode
  split_ifs with h1 h2
  · simp [h1.le]
  · simp [h2]
  · simp [not_lt.1 h2]

theorem compareXAscYAsc_iff_le {K : Type*} [CommRing K] [LinearOrder K] (pts : ℕ → ℕ → K) (a b : ℕ) :
    compareXAscYAsc pts a b ≤ 0 ↔ pts a 0 < pts b 0 ∨ pts a 0 = pts b 0 ∧ pts a 1 ≤ pts b 1 := by
  unfold compareXAscYAsc
  split_ifs with h1 h2 h3 h4
  · simp [h1]
  · simp only [show ¬ (1 : ℤ) ≤ 0 by norm_num, false_iff]
    rintro (h | h)
    · exact h1 h
    · exact absurd h.1 h2.ne'
  · have : pts a 0 = pts b 0 := le_antisymm (not_lt.1 h2) (not_lt.1 h1)
    simp [this, h3.le]
  · simp only [show ¬ (1 : ℤ) ≤ 0 by norm_num, false_iff]
    rintro (h | h)
    · exact h1 h
    · exact absurd h.2 (not_le.2 h4)
  · have : pts a 0 = pts b 0 := le_antisymm (not_lt.1 h2) (not_lt.1 h1)
    simp [this, not_lt.1 h4]

theorem exists_lower_bound (pts : ℕ → ℕ → ℝ) (d n : ℕ) : ∃ b, ∀ i < n, ∀ k < d, b ≤ pts i k := by
  obtain ⟨b, hb⟩ := ((Finset.range n ×ˢ Finset.range d).image (fun q => pts q.1 q.2)).bddBelow
  refine ⟨b, fun i hi k hk => hb ?_⟩
  rw [Finset.mem_coe, Finset.mem_image]
  exact ⟨(i, k), by simp [hi, hk], rfl⟩

theorem exists_hvLib : ∃ lib : HvLib ℝ, HvLibOk lib := by
  classical
  have key : ∀ (pts : ℕ → ℕ → ℝ) (d n : ℕ), ∃ env : HvEnv ℝ, HvEnvOk pts d n env ∧
      (3 < d → ∀ j, j + 1 < d → StableQsort (compareNode (nodeTable pts) j) (env.ords (j + 1)) (env.ords j)) := by
    intro pts d n
    have hS : ∀ (j : ℕ) (l : List ℕ), ∃ out, StableQsort (compareNode (nodeTable pts) j) l out := fun j l =>
      exists_stableQsort _ (fun a b c h1 h2 => by rw [compareNode_iff_le] at *; exact h1.trans h2)
        (fun a b => by rw [compareNode_iff_le, compareNode_iff_le]; exact le_total _ _) l
    choose S hS using hS
    obtain ⟨ps, hps⟩ := exists_qsort (compareXAscYAsc pts) (fun a b c h1 h2 => by
      rw [compareXAscYAsc_iff_le] at *
      rcases h1 with h1 | ⟨h1, h1'⟩ <;> rcases h2 with h2 | ⟨h2, h2'⟩
      · exact Or.inl (h1.trans h2)
      · exact Or.inl (h2 ▸ h1)
      · exact Or.inl (h1 ▸ h2)
      · exact Or.inr ⟨h1.trans h2, h1'.trans h2'⟩) (fun a b => by
      rw [compareXAscYAsc_iff_le, compareXAscYAsc_iff_le]
      rcases lt_trichotomy (pts a 0) (pts b 0) with h | h | h
      · exact Or.inl (Or.inl h)
      · exact (le_total (pts a 1) (pts b 1)).imp (fun h' => Or.inr ⟨h, h'⟩) (fun h' => Or.inr ⟨h.symm, h'⟩)
      · exact Or.inr (Or.inl h)) (List.range n)
    obtain ⟨b0, hb0⟩ := exists_lower_bound pts d n
    -- the order of dimension `d - 1 - m`
    let O : ℕ → List ℕ := fun m => Nat.rec (S (d - 1) (List.range' 1 n)) (fun m l => S (d - 1 - (m + 1)) l) m
    have hO : ∀ m, O (m + 1) = S (d - 1 - (m + 1)) (O m) := fun _ => rfl
    have hst : ∀ j, j + 1 < d → StableQsort (compareNode (nodeTable pts) j) (O (d - 1 - (j + 1))) (O (d - 1 - j)) := by
      intro j hj
      have e : d - 1 - j = (d - 1 - (j + 1)) + 1 := by omega
      rw [e, hO]
      have e2 : d - 1 - (d - 1 - (j + 1) + 1) = j := by omega
      rw [e2]
      exact hS j _
    refine ⟨⟨ps, fun j => O (d - 1 - j), b0, ⟨fun _ _ => 0, fun _ _ => 0, fun _ => 0, fun _ _ => 0, fun _ _ => 0, fun _ => 0, AvlHeap.empty⟩⟩,
      ⟨fun _ => hps, fun _ => ⟨?_, fun j hj => (hst j hj).1⟩, hb0⟩, fun _ j hj => hst j hj⟩
    simp only [Nat.sub_self]
    exact (hS (d - 1) _).1
  choose lib hlib using key
  exact ⟨lib, hlib⟩

/-! ### The values of the C functions -/

theorem HvLibOk.ties {lib : HvLib ℝ} (h : HvLibOk lib) (pts : ℕ → ℕ → ℝ) (d n : ℕ) : TiesConsistent (nodeTable pts) d (lib pts d n).ords := by
  by_cases h3 : d ≤ 3
  · exact tiesConsistent_of_le_three _ d h3 _
  · exact tiesConsistent_of_stable _ _ _ ((h pts d n).2 (by omega))

theorem fpliHv_vol {lib : HvLib ℝ} (h : HvLibOk lib) (pts : ℕ → ℕ → ℝ) (d n : ℕ) (hd : 2 ≤ d) (ref : ℕ → ℝ) :
    fpliHv pts d n ref (lib pts d n) = vol (dominatedRegion d n pts ref) := by
  rw [fpliHv_eq_HV d n hd pts ref _ (h pts d n).1 (h.ties pts d n), vol_dominatedRegion]

theorem vol_dominatedRegionWithoutMx (d n : ℕ) (mx : ℕ → Bool) (pts : ℕ → ℕ → ℝ) (ref : ℕ → ℝ) (i : ℕ) :
    vol (dominatedRegionWithoutMx d n mx pts ref i) =
      vol (dominatedRegionWithout d n (fun i k => if mx k then -pts i k else pts i k) (fun k => if mx k then -ref k else ref k) i) := by
  unfold vol
  rw [← volume_mirror d mx (dominatedRegionWithoutMx d n mx pts ref i)]
  congr 2
  ext y
  simp only [dominatedRegionWithoutMx, dominatedRegionWithout, Set.mem_ofPred_eq, AtLeastAsGood]
  refine and_congr (exists_congr (fun i => and_congr_right (fun _ => and_congr_right (fun _ => forall_congr' (fun k => ?_)))))
    (forall_congr' (fun k => ?_))
  · by_cases h : mx k
    · simp only [h, if_true]; exact neg_le
    · simp [h]
  · by_cases h : mx k
    · simp only [h, if_true]; exact le_neg
    · simp [h]

theorem measurableSet_dominatedRegionWithoutMx (d n : ℕ) (mx : ℕ → Bool) (pts : ℕ → ℕ → ℝ) (ref : ℕ → ℝ) (i : ℕ) :
    MeasurableSet (dominatedRegionWithoutMx d n mx pts ref i) := by
  have hE : dominatedRegionWithoutMx d n mx pts ref i =
      (⋃ r ∈ {r | r < n ∧ r ≠ i}, ⋂ k : Fin d, {y | AtLeastAsGood (mx k) (pts r k) (y k)}) ∩ ⋂ k : Fin d, {y | AtLeastAsGood (mx k) (y k) (ref k)} := by
    ext y
    simp only [dominatedRegionWithoutMx, Set.mem_ofPred_eq, Set.mem_inter_iff, Set.mem_iUnion, Set.mem_iInter, exists_prop, and_assoc]
  rw [hE]
  refine MeasurableSet.inter (MeasurableSet.biUnion (Set.to_countable _) (fun r _ => MeasurableSet.iInter (fun k => ?_)))
      (MeasurableSet.iInter (fun k => ?_))
  · unfold AtLeastAsGood
    cases mx k
    · exact measurableSet_le measurable_const (measurable_pi_apply k)
    · exact measurableSet_le (measurable_pi_apply k) measurable_const
  · unfold AtLeastAsGood
    cases mx k
    · exact measurableSet_le (measurable_pi_apply k) measurable_const
    · exact measurableSet_le measurable_const (measurable_pi_apply k)

theorem volume_dominatedRegionWithoutMx_ne_top (d n : ℕ) (mx : ℕ → Bool) (pts : ℕ → ℕ → ℝ) (ref : ℕ → ℝ) (i : ℕ) :
    volume (dominatedRegionWithoutMx d n mx pts ref i) ≠ ⊤ := by
  rw [← volume_mirror d mx]
  have : {y : Fin d → ℝ | (fun k : Fin d => if mx k then -y k else y k) ∈ dominatedRegionWithoutMx d n mx pts ref i} =
      dominatedRegionWithout d n (fun i k => if mx k then -pts i k else pts i k) (fun k => if mx k then -ref k else ref k) i := by
    ext y
    simp only [dominatedRegionWithoutMx, dominatedRegionWithout, Set.mem_ofPred_eq, AtLeastAsGood]
    refine and_congr (exists_congr (fun i => and_congr_right (fun _ => and_congr_right (fun _ => forall_congr' (fun k => ?_)))))
      (forall_congr' (fun k => ?_))
    · by_cases h : mx k
      · simp only [h, if_true]; exact neg_le
      · simp [h]
    · by_cases h : mx k
      · simp only [h, if_true]; exact le_neg
      · simp [h]
  rw [this, volume_dominatedRegionWithout]
  exact ENNReal.ofReal_ne_top

theorem exclusiveVolume_eq (d n : ℕ) (mx : ℕ → Bool) (pts : ℕ → ℕ → ℝ) (ref : ℕ → ℝ) (i : ℕ) :
    exclusiveVolume d n mx pts ref i = vol (dominatedRegionMx d n mx pts ref) - vol (dominatedRegionWithoutMx d n mx pts ref i) := by
  have hsub : dominatedRegionWithoutMx d n mx pts ref i ⊆ dominatedRegionMx d n mx pts ref :=
    fun y hy => ⟨hy.1.imp (fun r hr => ⟨hr.1, hr.2.2⟩), hy.2⟩
  unfold exclusiveVolume vol
  rw [measure_sdiff hsub (measurableSet_dominatedRegionWithoutMx d n mx pts ref i).nullMeasurableSet (volume_dominatedRegionWithoutMx_ne_top d n mx pts ref i),
    ENNReal.toReal_sub_of_le (measure_mono hsub)]
  have hE : dominatedRegionMx d n mx pts ref = dominatedRegionWithoutMx d n mx pts ref n := by
    ext y
    exact and_congr_left (fun _ => exists_congr (fun r => and_congr_right (fun hr => ⟨fun h => ⟨by omega, h⟩, fun h => h.2⟩)))
  rw [hE]
  exact volume_dominatedRegionWithoutMx_ne_top d n mx pts ref n

theorem dominatedRegion_congr (d n : ℕ) (pts pts' : ℕ → ℕ → ℝ) (ref ref' : ℕ → ℝ) (hp : ∀ i < n, ∀ k < d, pts i k = pts' i k) (hr : ∀ k < d, ref k = ref' k) :
    dominatedRegion d n pts ref = dominatedRegion d n pts' ref' := by
  ext y
  refine and_congr (exists_congr (fun i => and_congr_right (fun hi => forall_congr' (fun k => ?_)))) (forall_congr' (fun k => ?_))
  · rw [hp i hi k k.2]
  · rw [hr k k.2]

theorem dominatedRegionWithout_congr (d n : ℕ) (pts pts' : ℕ → ℕ → ℝ) (ref ref' : ℕ → ℝ) (i : ℕ) (hp : ∀ i < n, ∀ k < d, pts i k = pts' i k) (hr : ∀ k < d, ref k = ref' k) :
    dominatedRegionWithout d n pts ref i = dominatedRegionWithout d n pts' ref' i := by
  ext y
  refine and_congr (exists_congr (fun r => and_congr_right (fun hi => and_congr_right (fun _ => forall_congr' (fun k => ?_))))) (forall_congr' (fun k => ?_))
  · rw [hp r hi k k.2]
  · rw [hr k k.2]

/-- `fpli_hv` on mirrored data. -/
theorem fpliHv_mirrored {lib : HvLib ℝ} (h : HvLibOk lib) (data x : ℕ → ℕ → ℝ) (d n : ℕ) (hd : 2 ≤ d) (mx : ℕ → Bool) (ref r : ℕ → ℝ)
    (hx : ∀ i < n, ∀ k < d, x i k = if mx k then -data i k else data i k) (hr : ∀ k < d, r k = if mx k then -ref k else ref k) :
    fpliHv x d n r (lib x d n) = vol (dominatedRegionMx d n mx data ref) := by
  rw [fpliHv_vol h x d n hd, vol_dominatedRegionMx, dominatedRegion_congr d n x _ r _ hx hr]

theorem contribution_mirrored {lib : HvLib ℝ} (h : HvLibOk lib) (tol : ℝ) (data x : ℕ → ℕ → ℝ) (d n : ℕ) (hd : 2 ≤ d) (mx : ℕ → Bool) (ref r : ℕ → ℝ)
    (hx : ∀ i < n, ∀ k < d, x i k = if mx k then -data i k else data i k) (hr : ∀ k < d, r k = if mx k then -ref k else ref k) (i : ℕ) (hi : i < n) :
    hvContribution x d n r tol (lib x d n) (fun i => lib (replaceRow x r i) d n) i =
      (if exclusiveVolume d n mx data ref i ≥ tol then exclusiveVolume d n mx data ref i else 0) ∧
    0 ≤ hvContribution x d n r tol (lib x d n) (fun i => lib (replaceRow x r i) d n) i := by
  have := C16_contribution_is_exclusive_volume_partial d n hd x r tol (lib x d n) (fun i => lib (replaceRow x r i) d n) (h x d n).1
    (fun i _ => (h _ d n).1) (Or.inr ⟨h.ties x d n, fun i _ => h.ties _ d n⟩) i hi
  have e : vol (dominatedRegion d n x r) - vol (dominatedRegionWithout d n x r i) = exclusiveVolume d n mx data ref i := by
    rw [exclusiveVolume_eq, vol_dominatedRegionMx, vol_dominatedRegionWithoutMx, dominatedRegion_congr d n x _ r _ hx hr,
      dominatedRegionWithout_congr d n x _ r _ i hx hr]
  rwa [e] at this

/-! ### The arguments -/

section
variable {β : Type*}

theorem atleast1d_spec (arg : List β) (d : ℕ) (f : ℕ → β) (h : PerObjective d arg f) :
    atleast1dOfLengthN arg d = some ((List.range d).map f) := by
  obtain ⟨hl, hf⟩ := h
  by_cases h1 : arg.length = 1
  · obtain ⟨a, rfl⟩ := List.length_eq_one_iff.1 h1
    simp only [atleast1dOfLengthN, Option.some.injEq]
    apply List.ext_getElem
    · simp
    · intro k hk hk'
      have := hf k (by simpa using hk)
      simpa using this
  · have hd : arg.length = d := hl.resolve_left h1
    have : atleast1dOfLengthN arg d = if arg.length = d then some arg else none := by
      unfold atleast1dOfLengthN
      split
      · simp at h1
      · rfl
    rw [this, if_pos hd, Option.some.injEq]
    apply List.ext_getElem
    · simp [hd]
    · intro k hk hk'
      have := hf k (by omega)
      rw [if_neg h1, List.getElem?_eq_getElem hk] at this
      simpa using this

theorem atleast1d_none (arg : List β) (d : ℕ) (h : ¬ (arg.length = 1 ∨ arg.length = d)) : atleast1dOfLengthN arg d = none := by
  push Not at h
  unfold atleast1dOfLengthN
  split
  · simp at h
  · rw [if_neg h.2]

/-- Every argument of the right length stands for one value per objective. -/
theorem exists_perObjective [Inhabited β] (arg : List β) (d : ℕ) (h : arg.length = 1 ∨ arg.length = d) : ∃ f, PerObjective d arg f := by
  refine ⟨fun k => arg.getD (if arg.length = 1 then 0 else k) default, h, fun k hk => ?_⟩
  have : (if arg.length = 1 then 0 else k) < arg.length := by split <;> omega
  simp [List.getD_eq_getElem?_getD, List.getElem?_eq_getElem this]

end

theorem negateMask_spec (d : ℕ) (ref : ℕ → ℝ) (mx : ℕ → Bool) :
    npNegateMask ((List.range d).map ref) ((List.range d).map mx) = some ((List.range d).map (fun k => if mx k then -ref k else ref k)) := by
  unfold npNegateMask
  rw [if_pos (by simp), Option.some.injEq]
  apply List.ext_getElem
  · simp
  · intro k _ _
    simp

theorem negateColumns_spec (data : ℕ → ℕ → ℝ) (d : ℕ) (mx : ℕ → Bool) (i k : ℕ) (hk : k < d) :
    npNegateColumns data ((List.range d).map mx) i k = if mx k then -data i k else data i k := by
  unfold npNegateColumns
  simp [List.getD_eq_getElem?_getD, hk]

theorem any_false_spec (d : ℕ) (mx : ℕ → Bool) (h : ¬ ((List.range d).map mx).any id = true) (k : ℕ) (hk : k < d) : mx k = false := by
  by_contra hc
  apply h
  rw [List.any_eq_true]
  exact ⟨mx k, List.mem_map.2 ⟨k, List.mem_range.2 hk, rfl⟩, by simpa using hc⟩

theorem getD_range_map (d : ℕ) (f : ℕ → ℝ) (k : ℕ) (hk : k < d) : ((List.range d).map f).getD k 0 = f k := by
  simp [List.getD_eq_getElem?_getD, hk]

/-! ### Python -/

/-- **C63, Python `hypervolume`.** With at least two objectives, and with `ref` and `maximise` a single value or one value per objective, the value returned is the volume of the region
dominated by the data and bounded by the reference point, in the given directions. -/
theorem C63_py_hypervolume {lib : HvLib ℝ} (hlib : HvLibOk lib) (data : ℕ → ℕ → ℝ) (nobj npoints : ℕ) (hd : 2 ≤ nobj)
    (ref : List ℝ) (maximise : List Bool) (r : ℕ → ℝ) (mx : ℕ → Bool) (hr : PerObjective nobj ref r) (hm : PerObjective nobj maximise mx) :
    pyHypervolume lib data nobj npoints ref maximise = .value (vol (dominatedRegionMx nobj npoints mx data r)) := by
  unfold pyHypervolume
  simp only [atleast1d_spec ref nobj r hr, atleast1d_spec maximise nobj mx hm, List.length_map, List.length_range, ne_eq, not_true_eq_false, if_false]
  unfold pyMirrorCall
  split
  · simp only [negateMask_spec]
    unfold pyHypervolumeC
    rw [if_neg (by omega)]
    congr 1
    exact fpliHv_mirrored hlib data _ nobj npoints hd mx r _ (fun i _ k hk => negateColumns_spec data nobj mx i k hk) (fun k hk => getD_range_map _ _ k hk)
  · rename_i hany
    unfold pyHypervolumeC
    rw [if_neg (by omega)]
    congr 1
    refine fpliHv_mirrored hlib data _ nobj npoints hd mx r _ (fun i _ k hk => ?_) (fun k hk => ?_)
    · simp [any_false_spec nobj mx hany k hk]
    · rw [getD_range_map _ _ k hk]
      simp [any_false_spec nobj mx hany k hk]

/-- **C63.** In all other cases (of two and more objectives) Python raises an exception. -/
theorem C63_py_hypervolume_error (lib : HvLib ℝ) (data : ℕ → ℕ → ℝ) (nobj npoints : ℕ) (ref : List ℝ) (maximise : List Bool)
    (h : ¬ ((ref.length = 1 ∨ ref.length = nobj) ∧ (maximise.length = 1 ∨ maximise.length = nobj))) :
    pyHypervolume lib data nobj npoints ref maximise = .error := by
  unfold pyHypervolume
  rw [not_and_or] at h
  rcases h with h | h
  · rw [atleast1d_none ref nobj h]
  · rw [atleast1d_none maximise nobj h]
    split <;> simp_all


theorem negateMask_replicate (n : ℕ) (v : ℝ) (m : Bool) :
    npNegateMask (List.replicate n v) (List.replicate n m) = some (List.replicate n (if m then -v else v)) := by
  unfold npNegateMask
  rw [if_pos (by simp), Option.some.injEq]
  apply List.ext_getElem
  · simp
  · intro k _ _
    simp

theorem object_finish (lib : HvLib ℝ) (data : ℕ → ℕ → ℝ) (nobj npoints : ℕ) (h1 : nobj ≠ 1) (r : List ℝ) (m : List Bool) :
    ((hvObjectFinish r m nobj).elim CallOut.error (fun o => hvObjectCall lib o data nobj npoints)) = pyMirrorCall lib data nobj npoints r m := by
  unfold hvObjectFinish pyMirrorCall
  by_cases hm : m.any id = true
  · simp only [hm, if_true]
    cases npNegateMask r m with
    | none => rfl
    | some r' =>
      simp only [Option.map_some, Option.elim_some, hvObjectCall, h1, if_false, ne_eq, not_true_eq_false, hm, if_true]
  · simp only [hm, hvObjectCall, h1, if_false, ne_eq, not_true_eq_false, Bool.false_eq_true, Option.elim_some]

theorem object_elim (lib : HvLib ℝ) (data : ℕ → ℕ → ℝ) (nobj npoints : ℕ) (ref : List ℝ) (maximise : List Bool) :
    pyHypervolumeObject lib data nobj npoints ref maximise =
      (hvObjectInit ref maximise).elim CallOut.error (fun o => hvObjectCall lib o data nobj npoints) := by
  unfold pyHypervolumeObject
  cases hvObjectInit ref maximise <;> rfl

/-- **C63.** `Hypervolume(ref, maximise)(data)` behaves exactly as `hypervolume(data, ref, maximise)`, for all arguments: it gives the same value, or both fail. -/
theorem C63_py_object_eq_function (lib : HvLib ℝ) (data : ℕ → ℕ → ℝ) (nobj npoints : ℕ) (h1 : 1 ≤ nobj) (ref : List ℝ) (maximise : List Bool) :
    pyHypervolumeObject lib data nobj npoints ref maximise = pyHypervolume lib data nobj npoints ref maximise := by
  have hat : ∀ {β : Type} (x : List β), x.length ≠ 1 → x.length = nobj → atleast1dOfLengthN x nobj = some x := by
    intro β x hx1 hx
    unfold atleast1dOfLengthN
    split
    · simp at hx1
    · rw [if_pos hx]
  by_cases hok : (ref.length = 1 ∨ ref.length = nobj) ∧ (maximise.length = 1 ∨ maximise.length = nobj)
  · obtain ⟨hr, hm⟩ := hok
    by_cases hm1 : maximise.length = 1
    · obtain ⟨m, rfl⟩ := List.length_eq_one_iff.1 hm1
      by_cases hr1 : ref.length = 1
      · obtain ⟨v, rfl⟩ := List.length_eq_one_iff.1 hr1
        have hA : ∀ b : Bool, (List.replicate nobj b).any id = b := by
          intro b; cases b
          · simp
          · simp; omega
        cases m
        · simp [pyHypervolumeObject, hvObjectInit, hvObjectFinish, hvObjectCall, pyHypervolume, pyMirrorCall, atleast1dOfLengthN]
        · have e1 : hvObjectInit [v] [true] = some ⟨[-v], [true], 1⟩ := by simp [hvObjectInit, hvObjectFinish, npNegateMask]
          have e2 : pyHypervolume lib data nobj npoints [v] [true] =
              pyHypervolumeC lib (npNegateColumns data (List.replicate nobj true)) nobj npoints (List.replicate nobj (-v)) := by
            simp only [pyHypervolume, pyMirrorCall, atleast1dOfLengthN, hA, List.length_replicate, ne_eq, not_true_eq_false, if_false, if_true, negateMask_replicate]
          rw [e2]
          simp only [pyHypervolumeObject, e1, hvObjectCall, if_true, List.getD_cons_zero, hA]
      · have hrn := hr.resolve_left hr1
        have e1 : pyHypervolume lib data nobj npoints ref [m] = pyMirrorCall lib data nobj npoints ref (List.replicate nobj m) := by
          unfold pyHypervolume
          rw [hat ref hr1 hrn]
          simp only [atleast1dOfLengthN, hrn, ne_eq, not_true_eq_false, if_false]
        have e2 : hvObjectInit ref [m] = hvObjectFinish ref (List.replicate nobj m) nobj := by
          simp only [hvObjectInit, List.length_singleton, if_true, List.getD_cons_zero, hrn]
          rw [if_pos (by omega)]
        rw [e1, ← object_finish lib data nobj npoints (by omega) ref (List.replicate nobj m), object_elim, e2]
    · have hmn := hm.resolve_left hm1
      by_cases hr1 : ref.length = 1
      · obtain ⟨v, rfl⟩ := List.length_eq_one_iff.1 hr1
        have e1 : pyHypervolume lib data nobj npoints [v] maximise = pyMirrorCall lib data nobj npoints (List.replicate nobj v) maximise := by
          unfold pyHypervolume
          rw [hat maximise hm1 hmn]
          simp only [atleast1dOfLengthN, List.length_replicate, ne_eq, not_true_eq_false, if_false]
        have e2 : hvObjectInit [v] maximise = hvObjectFinish (List.replicate nobj v) maximise nobj := by
          unfold hvObjectInit
          rw [if_neg hm1, if_pos hr1, hmn]
          rfl
        rw [e1, ← object_finish lib data nobj npoints (by omega) _ maximise, object_elim, e2]
      · have hrn := hr.resolve_left hr1
        have e1 : pyHypervolume lib data nobj npoints ref maximise = pyMirrorCall lib data nobj npoints ref maximise := by
          unfold pyHypervolume
          rw [hat maximise hm1 hmn, hat ref hr1 hrn]
          simp only [hrn, ne_eq, not_true_eq_false, if_false]
        have e2 : hvObjectInit ref maximise = hvObjectFinish ref maximise nobj := by
          unfold hvObjectInit
          rw [if_neg hm1, if_neg hr1, if_neg (by omega), hmn]
        rw [e1, ← object_finish lib data nobj npoints (by omega) _ maximise, object_elim, e2]
  · rw [C63_py_hypervolume_error lib data nobj npoints ref maximise hok, object_elim]
    -- either the constructor or the call fails
    have hcall : ∀ o : HvObject ℝ, o.nobj ≠ 1 → o.nobj ≠ nobj → hvObjectCall lib o data nobj npoints = .error := by
      intro o h h'
      simp only [hvObjectCall, h, h', if_false, ne_eq, not_false_eq_true, if_true]
    have hfin : ∀ (r : List ℝ) (m : List Bool) (n : ℕ), n ≠ 1 → n ≠ nobj →
        (hvObjectFinish r m n).elim CallOut.error (fun o => hvObjectCall lib o data nobj npoints) = .error := by
      intro r m n hn hn'
      cases ho : hvObjectFinish r m n with
      | none => rfl
      | some o =>
        rw [Option.elim_some]
        have hno : o.nobj = n := by
          unfold hvObjectFinish at ho
          split at ho
          · obtain ⟨r', -, rfl⟩ := Option.map_eq_some_iff.1 ho
            rfl
          · cases ho
            rfl
        exact hcall o (hno ▸ hn) (hno ▸ hn')
    unfold hvObjectInit
    simp only
    by_cases hm1 : maximise.length = 1
    · have : ref.length ≠ 1 ∧ ref.length ≠ nobj := by
        constructor <;> (intro h; exact hok ⟨by omega, by omega⟩)
      rw [if_pos hm1]
      exact hfin _ _ _ this.1 this.2
    · rw [if_neg hm1]
      by_cases hr1 : ref.length = 1
      · rw [if_pos hr1]
        exact hfin _ _ _ hm1 (fun h => hok ⟨by omega, by omega⟩)
      · rw [if_neg hr1]
        by_cases hmr : maximise.length = ref.length
        · rw [if_neg (by simpa using hmr)]
          exact hfin _ _ _ hm1 (fun h => hok ⟨by omega, by omega⟩)
        · rw [if_pos hmr]
          rfl

/-- **C63.** With one objective and at least one point, both break the precondition `d > 2` of `fpli_hv` (defect 21). -/
theorem C63_py_one_objective_undefined (lib : HvLib ℝ) (data : ℕ → ℕ → ℝ) (npoints : ℕ) (hn : 0 < npoints) (v : ℝ) (m : Bool) :
    pyHypervolume lib data 1 npoints [v] [m] = .undefined ∧ pyHypervolumeObject lib data 1 npoints [v] [m] = .undefined := by
  have h : pyHypervolume lib data 1 npoints [v] [m] = .undefined := by
    cases m <;> simp [pyHypervolume, pyMirrorCall, atleast1dOfLengthN, npNegateMask, pyHypervolumeC, hn.ne']
  exact ⟨h, by rw [C63_py_object_eq_function _ _ _ _ le_rfl, h]⟩

/-! ### R -/

/-- The arguments that R passes to C. -/
theorem rHvArguments_spec (data : ℕ → ℕ → ℝ) (nobj npoints : ℕ) (hd : 2 ≤ nobj) (hn : 1 ≤ npoints)
    (reference : List ℝ) (maximise : List Bool) (r : ℕ → ℝ) (mx : ℕ → Bool) (hr : PerObjective nobj reference r) (hm : PerObjective nobj maximise mx) :
    ∃ x r', rHvArguments data nobj npoints reference maximise = .value (x, r') ∧
      (∀ i, ∀ k < nobj, x i k = if mx k then -data i k else data i k) ∧ ∀ k < nobj, r'.getD k 0 = if mx k then -r k else r k := by
  have href : (if reference.length = 1 then List.replicate nobj (reference.getD 0 0) else reference) = (List.range nobj).map r := by
    have h := atleast1d_spec reference nobj r hr
    unfold atleast1dOfLengthN at h
    split at h
    · simpa using h
    · rename_i h1
      rw [if_neg]
      · split at h
        · simpa using h
        · cases h
      · intro hc
        obtain ⟨a, ha⟩ := List.length_eq_one_iff.1 hc
        exact h1 a ha
  unfold rHvArguments
  rw [if_neg (by omega)]
  simp only [href]
  by_cases hany : maximise.any id = true
  · simp only [hany, if_true]
    by_cases hall : maximise.all id = true
    · simp only [hall, if_true, List.length_map, List.length_range]
      refine ⟨_, _, rfl, ?_, ?_⟩
      · intro i k hk
        have := hm.2 k hk
        have hmem : mx k ∈ maximise := List.mem_of_getElem? this
        have := List.all_eq_true.1 hall _ hmem
        simp only [id] at this
        simp [this]
      · intro k hk
        have := hm.2 k hk
        have hmem : mx k ∈ maximise := List.mem_of_getElem? this
        have := List.all_eq_true.1 hall _ hmem
        simp only [id] at this
        simp [this, List.getD_eq_getElem?_getD, hk]
    · have hl1 : maximise.length ≠ 1 := by
        intro h
        obtain ⟨m, rfl⟩ := List.length_eq_one_iff.1 h
        cases m <;> simp_all
      have hmn := hm.1.resolve_left hl1
      have hE : maximise = (List.range nobj).map mx := by
        apply List.ext_getElem
        · simp [hmn]
        · intro k hk hk'
          have := hm.2 k (by omega)
          rw [if_neg hl1, List.getElem?_eq_getElem hk] at this
          simpa using this
      simp only [hall, hmn, List.length_map, List.length_range, ne_eq, not_true_eq_false, if_false, lt_irrefl, Bool.false_eq_true]
      have hz := negateMask_spec nobj r mx
      unfold npNegateMask at hz
      rw [if_pos (by simp), Option.some.injEq, ← hE] at hz
      rw [hz, if_pos (by simp)]
      refine ⟨_, _, rfl, fun i k hk => ?_, fun k hk => getD_range_map _ _ k hk⟩
      rw [hE]
      exact negateColumns_spec data nobj mx i k hk
  · simp only [hany, List.length_map, List.length_range, if_true, Bool.false_eq_true, if_false]
    have hf : ∀ k < nobj, mx k = false := by
      intro k hk
      by_contra hc
      apply hany
      rw [List.any_eq_true]
      exact ⟨mx k, List.mem_of_getElem? (hm.2 k hk), by simpa using hc⟩
    refine ⟨_, _, rfl, fun i k hk => by simp [hf k hk], fun k hk => ?_⟩
    rw [getD_range_map _ _ k hk]
    simp [hf k hk]

/-- **C63, R `hypervolume`.** -/
theorem C63_r_hypervolume {lib : HvLib ℝ} (hlib : HvLibOk lib) (data : ℕ → ℕ → ℝ) (nobj npoints : ℕ) (hd : 2 ≤ nobj) (hn : 1 ≤ npoints)
    (reference : List ℝ) (maximise : List Bool) (r : ℕ → ℝ) (mx : ℕ → Bool) (hr : PerObjective nobj reference r) (hm : PerObjective nobj maximise mx) :
    rHypervolume lib data nobj npoints reference maximise = .value (vol (dominatedRegionMx nobj npoints mx data r)) := by
  obtain ⟨x, r', e, hx, hr'⟩ := rHvArguments_spec data nobj npoints hd hn reference maximise r mx hr hm
  unfold rHypervolume
  simp only [e]
  congr 1
  exact fpliHv_mirrored hlib data x nobj npoints hd mx r _ (fun i _ k hk => hx i k hk) hr'

/-- **C63, R `hv_contributions`.** One value per row, in the order of the rows: the volume that is dominated by this row and by no other, in the given directions (or zero, if this
is below the tolerance). -/
theorem C63_r_hv_contributions {lib : HvLib ℝ} (hlib : HvLibOk lib) (tol : ℝ) (data : ℕ → ℕ → ℝ) (nobj npoints : ℕ) (hd : 2 ≤ nobj) (hn : 1 ≤ npoints)
    (reference : List ℝ) (maximise : List Bool) (r : ℕ → ℝ) (mx : ℕ → Bool) (hr : PerObjective nobj reference r) (hm : PerObjective nobj maximise mx) :
    ∃ res : List ℝ, rHvContributions lib tol data nobj npoints reference maximise = .value res ∧ res.length = npoints ∧
      ∀ i < npoints, res[i]? = some (if exclusiveVolume nobj npoints mx data r i ≥ tol then exclusiveVolume nobj npoints mx data r i else 0) := by
  obtain ⟨x, r', e, hx, hr'⟩ := rHvArguments_spec data nobj npoints hd hn reference maximise r mx hr hm
  have hc := fun i hi => contribution_mirrored hlib tol data x nobj npoints hd mx r (fun k => r'.getD k 0) (fun i _ k hk => hx i k hk) hr' i hi
  unfold rHvContributions
  simp only [e]
  rw [if_pos]
  · refine ⟨_, rfl, by simp, fun i hi => ?_⟩
    rw [List.getElem?_map, List.getElem?_range hi, Option.map_some, (hc i hi).1]
  · rw [List.all_eq_true]
    intro v hv
    obtain ⟨i, hi, rfl⟩ := List.mem_map.1 hv
    exact decide_eq_true (hc i (List.mem_range.1 hi)).2

/-- **C63, R: which arguments are accepted.** A `maximise` of another length is an error only if its values differ; a reference point of another length is an error, except that it is
extended with `NA` if it is too short and only some objectives are maximised (defect 22). -/
theorem C63_r_errors (data : ℕ → ℕ → ℝ) (nobj npoints : ℕ) (hd : 2 ≤ nobj) (hn : 1 ≤ npoints) (reference : List ℝ) (maximise : List Bool) :
    ((maximise.any id = true ∧ maximise.all id = false ∧ maximise.length ≠ nobj) → rHvArguments data nobj npoints reference maximise = .error) ∧
    (reference.length ≠ 1 → reference.length ≠ nobj → ¬ (maximise.any id = true ∧ maximise.all id = false) →
      rHvArguments data nobj npoints reference maximise = .error) ∧
    (reference.length ≠ 1 → reference.length < nobj → maximise.any id = true → maximise.all id = false → maximise.length = nobj →
      rHvArguments data nobj npoints reference maximise = .undefined) := by
  have h0 : ¬ (npoints < 1 ∨ nobj < 2) := by omega
  refine ⟨?_, ?_, ?_⟩
  · rintro ⟨ha, hb, hl⟩
    simp only [rHvArguments, h0, if_false, ha, if_true, hb, hl, ne_eq, not_false_eq_true, Bool.false_eq_true]
  · intro h1 h2 h3
    simp only [rHvArguments, h0, if_false, h1]
    by_cases ha : maximise.any id = true
    · have hb : maximise.all id = true := by
        by_contra hc; exact h3 ⟨ha, by simpa using hc⟩
      simp only [ha, hb, if_true, List.length_map, h2, if_false]
    · simp only [ha, h2, if_false, Bool.false_eq_true]
  · intro h1 h2 ha hb hl
    simp only [rHvArguments, h0, if_false, h1, ha, hb, hl, if_true, ne_eq, not_true_eq_false, h2, Bool.false_eq_true]

/-! ### Non-vacuity -/

/-- `hypervolume([[1, 5], [3, 7]], ref = [4, 2], maximise = [False, True])`: the hypotheses hold, and the value is 11 (= 3 * 3 + 1 * 2). -/
example : ∃ lib : HvLib ℝ, HvLibOk lib ∧
    pyHypervolume lib (fun i k => ([[1, 5], [3, 7]].getD i []).getD k 0) 2 2 [4, 2] [false, true] = .value 11 := by
  obtain ⟨lib, hlib⟩ := exists_hvLib
  refine ⟨lib, hlib, ?_⟩
  rw [C63_py_hypervolume hlib _ 2 2 le_rfl _ _ (fun k => if k = 0 then 4 else 2) (fun k => k = 1) ⟨Or.inr rfl, ?_⟩ ⟨Or.inr rfl, ?_⟩]
  · congr 1
    rw [vol_dominatedRegionMx]
    have h := (C11_hv2d_is_area 2 (fun i k => if decide (k = 1) = true then -(([[1, 5], [3, 7]].getD i []).getD k 0) else ([[1, 5], [3, 7]].getD i []).getD k 0)
      (fun k => if decide (k = 1) = true then -(if k = 0 then 4 else 2) else if k = 0 then 4 else 2) [0, 1] ⟨by decide, by simp [compareXAscYAsc]⟩)
    unfold vol
    rw [h.2, ENNReal.toReal_ofReal h.1]
    norm_num [hv2d, hv2dLoop]
  · intro k hk
    interval_cases k <;> simp
  · intro k hk
    interval_cases k <;> simp

/-- A single value for each argument. -/
example : PerObjective 3 [(0 : ℝ)] (fun _ => 0) ∧ PerObjective 3 [true] (fun _ => true) :=
  ⟨⟨Or.inl rfl, by simp⟩, ⟨Or.inl rfl, by simp⟩⟩

end Moo
