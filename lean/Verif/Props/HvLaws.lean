import Verif.Props.HvWrappers
import Mathlib.MeasureTheory.Measure.Lebesgue.EqHaar

/-!
# C83: laws of the hypervolume
-/

set_option autoImplicit false
set_option linter.unusedSectionVars false

namespace Moo

open MeasureTheory

/-- The rows of `A` (there are `n` of them) followed by those of `B`. -/
def appendRows (n : ℕ) (A B : ℕ → ℕ → ℝ) : ℕ → ℕ → ℝ := fun i => if i < n then A i else B (i - n)

/-! ### The regions -/

theorem dominatedRegionMx_eq_without (d n : ℕ) (mx : ℕ → Bool) (pts : ℕ → ℕ → ℝ) (ref : ℕ → ℝ) :
    dominatedRegionMx d n mx pts ref = dominatedRegionWithoutMx d n mx pts ref n := by
  ext y
  exact and_congr_left (fun _ => exists_congr (fun r => and_congr_right (fun hr => ⟨fun h => ⟨by omega, h⟩, fun h => h.2⟩)))

theorem measurableSet_dominatedRegionMx (d n : ℕ) (mx : ℕ → Bool) (pts : ℕ → ℕ → ℝ) (ref : ℕ → ℝ) : MeasurableSet (dominatedRegionMx d n mx pts ref) := by
  rw [dominatedRegionMx_eq_without]; exact measurableSet_dominatedRegionWithoutMx d n mx pts ref n

theorem volume_dominatedRegionMx_ne_top (d n : ℕ) (mx : ℕ → Bool) (pts : ℕ → ℕ → ℝ) (ref : ℕ → ℝ) : volume (dominatedRegionMx d n mx pts ref) ≠ ⊤ := by
  rw [dominatedRegionMx_eq_without]; exact volume_dominatedRegionWithoutMx_ne_top d n mx pts ref n

theorem atLeastAsGood_affine (mx : Bool) (s t a b : ℝ) (hs : s ≠ 0) :
    AtLeastAsGood (if s < 0 then !mx else mx) (s * a + t) (s * b + t) ↔ AtLeastAsGood mx a b := by
  unfold AtLeastAsGood
  rcases lt_or_gt_of_ne hs with h | h
  · rw [if_pos h]
    cases mx
    · simp [mul_le_mul_left_of_neg h]
    · simp [mul_le_mul_left_of_neg h]
  · rw [if_neg (not_lt.2 h.le)]
    cases mx
    · simp [mul_le_mul_iff_right₀ h]
    · simp [mul_le_mul_iff_right₀ h]

theorem vol_affine (d n : ℕ) (mx : ℕ → Bool) (pts : ℕ → ℕ → ℝ) (ref s t : ℕ → ℝ) (hs : ∀ k < d, s k ≠ 0) :
    vol (dominatedRegionMx d n (fun k => if s k < 0 then !mx k else mx k) (fun i k => s k * pts i k + t k) (fun k => s k * ref k + t k)) =
      (∏ k ∈ Finset.range d, |s k|) * vol (dominatedRegionMx d n mx pts ref) := by
  set R' := dominatedRegionMx d n (fun k => if s k < 0 then !mx k else mx k) (fun i k => s k * pts i k + t k) (fun k => s k * ref k + t k) with hR'
  have hdet : (Matrix.diagonal (fun k : Fin d => s k)).det ≠ 0 := by
    rw [Matrix.det_diagonal]; exact Finset.prod_ne_zero_iff.2 (fun k _ => hs k k.2)
  have hpre : (Matrix.toLin' (Matrix.diagonal (fun k : Fin d => s k))) ⁻¹' ((fun y : Fin d → ℝ => (fun k : Fin d => t k) + y) ⁻¹' R') = dominatedRegionMx d n mx pts ref := by
    ext y
    have e : ∀ k : Fin d, ((fun k : Fin d => t k) + (Matrix.toLin' (Matrix.diagonal (fun k : Fin d => s k))) y) k = s k * y k + t k := by
      intro k
      rw [Matrix.toLin'_apply, Pi.add_apply, Matrix.mulVec_diagonal]; ring
    simp only [Set.mem_preimage, hR', dominatedRegionMx, Set.mem_ofPred_eq, e]
    refine and_congr (exists_congr (fun i => and_congr_right (fun _ => forall_congr' (fun k => ?_)))) (forall_congr' (fun k => ?_))
    · exact atLeastAsGood_affine (mx k) (s k) (t k) _ _ (hs k k.2)
    · exact atLeastAsGood_affine (mx k) (s k) (t k) _ _ (hs k k.2)
  have hm : MeasurableSet ((fun y : Fin d → ℝ => (fun k : Fin d => t k) + y) ⁻¹' R') :=
    (measurableSet_dominatedRegionMx d n _ _ _).preimage (measurable_const_add _)
  have h := congrArg (fun μ : Measure (Fin d → ℝ) => μ ((fun y : Fin d → ℝ => (fun k : Fin d => t k) + y) ⁻¹' R')) (Real.smul_map_diagonal_volume_pi hdet)
  simp only [Measure.smul_apply, smul_eq_mul] at h
  rw [Measure.map_apply (LinearMap.continuous_of_finiteDimensional _).measurable hm, hpre, measure_preimage_add] at h
  have h' := congrArg ENNReal.toReal h
  rw [ENNReal.toReal_mul, ENNReal.toReal_ofReal (abs_nonneg _), Matrix.det_diagonal, Finset.abs_prod] at h'
  unfold vol
  rw [← h', ← Fin.prod_univ_eq_prod_range (fun k => |s k|) d]

theorem vol_permute (d n : ℕ) (mx : ℕ → Bool) (pts : ℕ → ℕ → ℝ) (ref : ℕ → ℝ) (σ : ℕ → ℕ) (hσ : Set.BijOn σ (Set.Iio d) (Set.Iio d)) :
    vol (dominatedRegionMx d n (fun k => mx (σ k)) (fun i k => pts i (σ k)) (fun k => ref (σ k))) = vol (dominatedRegionMx d n mx pts ref) := by
  have hbij : Function.Bijective (fun k : Fin d => (⟨σ k, hσ.mapsTo k.2⟩ : Fin d)) := by
    refine (Finite.injective_iff_bijective).1 ?_
    intro a b hab
    exact Fin.ext (hσ.injOn a.2 b.2 (Fin.ext_iff.1 hab))
  set e : Fin d ≃ Fin d := Equiv.ofBijective _ hbij with he
  have hmp := volume_measurePreserving_piCongrLeft (fun _ : Fin d => ℝ) e
  have hpre : (MeasurableEquiv.piCongrLeft (fun _ : Fin d => ℝ) e) ⁻¹' dominatedRegionMx d n mx pts ref =
      dominatedRegionMx d n (fun k => mx (σ k)) (fun i k => pts i (σ k)) (fun k => ref (σ k)) := by
    ext y
    have hval : ∀ k : Fin d, (MeasurableEquiv.piCongrLeft (fun _ : Fin d => ℝ) e) y (e k) = y k := by
      intro k
      rw [MeasurableEquiv.coe_piCongrLeft]
      exact Equiv.piCongrLeft_apply_apply (fun _ : Fin d => ℝ) e y k
    have hek : ∀ k : Fin d, ((e k : Fin d) : ℕ) = σ k := fun k => rfl
    simp only [Set.mem_preimage, dominatedRegionMx, Set.mem_ofPred_eq]
    refine and_congr (exists_congr (fun i => and_congr_right (fun _ => ?_))) ?_
    · rw [← e.forall_congr_right (q := fun k : Fin d => AtLeastAsGood (mx k) (pts i k) ((MeasurableEquiv.piCongrLeft (fun _ : Fin d => ℝ) e) y k))]
      exact forall_congr' (fun k => by rw [hval k, hek k])
    · rw [← e.forall_congr_right (q := fun k : Fin d => AtLeastAsGood (mx k) ((MeasurableEquiv.piCongrLeft (fun _ : Fin d => ℝ) e) y k) (ref k))]
      exact forall_congr' (fun k => by rw [hval k, hek k])
  unfold vol
  rw [← hpre, hmp.measure_preimage_equiv]

theorem region_append (d nA nB : ℕ) (mx : ℕ → Bool) (A B : ℕ → ℕ → ℝ) (ref : ℕ → ℝ) :
    dominatedRegionMx d (nA + nB) mx (appendRows nA A B) ref = dominatedRegionMx d nA mx A ref ∪ dominatedRegionMx d nB mx B ref := by
  ext y
  simp only [dominatedRegionMx, Set.mem_ofPred_eq, Set.mem_union]
  constructor
  · rintro ⟨⟨i, hi, h⟩, hy⟩
    unfold appendRows at h
    by_cases hin : i < nA
    · simp only [if_pos hin] at h
      exact Or.inl ⟨⟨i, hin, h⟩, hy⟩
    · simp only [if_neg hin] at h
      exact Or.inr ⟨⟨i - nA, by omega, h⟩, hy⟩
  · rintro (⟨⟨i, hi, h⟩, hy⟩ | ⟨⟨i, hi, h⟩, hy⟩)
    · refine ⟨⟨i, by omega, ?_⟩, hy⟩
      simpa only [appendRows, if_pos hi] using h
    · refine ⟨⟨nA + i, by omega, ?_⟩, hy⟩
      simpa only [appendRows, if_neg (show ¬ nA + i < nA by omega), Nat.add_sub_cancel_left] using h

/-- The functions of both packages return this value. -/
def BothHv (lib : HvLib ℝ) (data : ℕ → ℕ → ℝ) (nobj npoints : ℕ) (ref : List ℝ) (maximise : List Bool) (v : ℝ) : Prop :=
  pyHypervolume lib data nobj npoints ref maximise = .value v ∧ rHypervolume lib data nobj npoints ref maximise = .value v

section laws

variable {lib : HvLib ℝ} {nobj : ℕ} {ref : List ℝ} {maximise : List Bool} {r : ℕ → ℝ} {mx : ℕ → Bool}

theorem bothHv_vol (hlib : HvLibOk lib) (hd : 2 ≤ nobj) (hr : PerObjective nobj ref r) (hm : PerObjective nobj maximise mx)
    (data : ℕ → ℕ → ℝ) (n : ℕ) (hn : 1 ≤ n) (v : ℝ) : BothHv lib data nobj n ref maximise v ↔ v = vol (dominatedRegionMx nobj n mx data r) := by
  unfold BothHv
  rw [C63_py_hypervolume hlib data nobj n hd ref maximise r mx hr hm, C63_r_hypervolume hlib data nobj n hd hn ref maximise r mx hr hm]
  simp [eq_comm]

/-- **C83, change of units.** Multiply each objective by a factor other than zero and add a number to it, in the data and in the reference point, and exchange minimisation and maximisation
where the factor is negative: the hypervolume is multiplied by the absolute values of the factors, and by nothing else. -/
theorem C83_affine (hlib : HvLibOk lib) (hd : 2 ≤ nobj) (hr : PerObjective nobj ref r) (hm : PerObjective nobj maximise mx)
    (data : ℕ → ℕ → ℝ) (n : ℕ) (hn : 1 ≤ n) (s t : ℕ → ℝ) (hs : ∀ k < nobj, s k ≠ 0) (ref' : List ℝ) (maximise' : List Bool)
    (hr' : PerObjective nobj ref' (fun k => s k * r k + t k)) (hm' : PerObjective nobj maximise' (fun k => if s k < 0 then !mx k else mx k)) (v : ℝ)
    (hv : BothHv lib data nobj n ref maximise v) :
    BothHv lib (fun i k => s k * data i k + t k) nobj n ref' maximise' ((∏ k ∈ Finset.range nobj, |s k|) * v) := by
  rw [bothHv_vol hlib hd hr hm data n hn] at hv
  rw [bothHv_vol hlib hd hr' hm' _ n hn, vol_affine nobj n mx data r s t hs, hv]

/-- **C83, order of the objectives.** Permuting the columns of the data, the reference point and the directions alike does not change the hypervolume. -/
theorem C83_permute_objectives (hlib : HvLibOk lib) (hd : 2 ≤ nobj) (hr : PerObjective nobj ref r) (hm : PerObjective nobj maximise mx)
    (data : ℕ → ℕ → ℝ) (n : ℕ) (hn : 1 ≤ n) (σ : ℕ → ℕ) (hσ : Set.BijOn σ (Set.Iio nobj) (Set.Iio nobj)) (ref' : List ℝ) (maximise' : List Bool)
    (hr' : PerObjective nobj ref' (fun k => r (σ k))) (hm' : PerObjective nobj maximise' (fun k => mx (σ k))) (v : ℝ)
    (hv : BothHv lib data nobj n ref maximise v) : BothHv lib (fun i k => data i (σ k)) nobj n ref' maximise' v := by
  rw [bothHv_vol hlib hd hr hm data n hn] at hv
  rw [bothHv_vol hlib hd hr' hm' _ n hn, vol_permute nobj n mx data r σ hσ, hv]

/-- **C83, union of sets.** The hypervolume of two sets together is at least that of each of them and at most the sum. -/
theorem C83_union (hlib : HvLibOk lib) (hd : 2 ≤ nobj) (hr : PerObjective nobj ref r) (hm : PerObjective nobj maximise mx)
    (A B : ℕ → ℕ → ℝ) (nA nB : ℕ) (hA : 1 ≤ nA) (hB : 1 ≤ nB) (a b u : ℝ)
    (ha : BothHv lib A nobj nA ref maximise a) (hb : BothHv lib B nobj nB ref maximise b)
    (hu : BothHv lib (appendRows nA A B) nobj (nA + nB) ref maximise u) : max a b ≤ u ∧ u ≤ a + b := by
  rw [bothHv_vol hlib hd hr hm _ _ (by omega)] at ha hb hu
  rw [region_append] at hu
  have fA := volume_dominatedRegionMx_ne_top nobj nA mx A r
  have fB := volume_dominatedRegionMx_ne_top nobj nB mx B r
  have fU := (measure_union_lt_top (lt_top_iff_ne_top.2 fA) (lt_top_iff_ne_top.2 fB)).ne
  subst ha hb hu
  unfold vol
  refine ⟨max_le (ENNReal.toReal_mono fU (measure_mono Set.subset_union_left)) (ENNReal.toReal_mono fU (measure_mono Set.subset_union_right)), ?_⟩
  rw [← ENNReal.toReal_add fA fB]
  exact ENNReal.toReal_mono (ENNReal.add_ne_top.2 ⟨fA, fB⟩) (measure_union_le _ _)

/-- **C83, diminishing returns.** What the set `A` adds to the hypervolume of `B` and `C` together is at most what it adds to that of `C` alone. -/
theorem C83_diminishing_returns (hlib : HvLibOk lib) (hd : 2 ≤ nobj) (hr : PerObjective nobj ref r) (hm : PerObjective nobj maximise mx)
    (A B C : ℕ → ℕ → ℝ) (nA nB nC : ℕ) (hA : 1 ≤ nA) (hB : 1 ≤ nB) (hC : 1 ≤ nC) (abc bc ac c : ℝ)
    (habc : BothHv lib (appendRows nA A (appendRows nB B C)) nobj (nA + (nB + nC)) ref maximise abc)
    (hbc : BothHv lib (appendRows nB B C) nobj (nB + nC) ref maximise bc)
    (hac : BothHv lib (appendRows nA A C) nobj (nA + nC) ref maximise ac) (hc : BothHv lib C nobj nC ref maximise c) : abc - bc ≤ ac - c := by
  rw [bothHv_vol hlib hd hr hm _ _ (by omega)] at habc hbc hac hc
  rw [region_append, region_append] at habc
  rw [region_append] at hbc hac
  have fA := volume_dominatedRegionMx_ne_top nobj nA mx A r
  have fB := volume_dominatedRegionMx_ne_top nobj nB mx B r
  have fC := volume_dominatedRegionMx_ne_top nobj nC mx C r
  have mB := measurableSet_dominatedRegionMx nobj nB mx B r
  have mC := measurableSet_dominatedRegionMx nobj nC mx C r
  generalize dominatedRegionMx nobj nA mx A r = SA at *
  generalize dominatedRegionMx nobj nB mx B r = SB at *
  generalize dominatedRegionMx nobj nC mx C r = SC at *
  have fU : ∀ {S T : Set (Fin nobj → ℝ)}, volume S ≠ ⊤ → volume T ≠ ⊤ → volume (S ∪ T) ≠ ⊤ :=
    fun h h' => (measure_union_lt_top (lt_top_iff_ne_top.2 h) (lt_top_iff_ne_top.2 h')).ne
  have key := measure_union_add_inter (μ := volume) (SA ∪ SC) (mB.union mC)
  have hsub : SC ⊆ (SA ∪ SC) ∩ (SB ∪ SC) := fun y hy => ⟨Or.inr hy, Or.inr hy⟩
  have hsame : SA ∪ SC ∪ (SB ∪ SC) = SA ∪ (SB ∪ SC) := by ext y; simp only [Set.mem_union]; tauto
  rw [hsame] at key
  have hle : volume (SA ∪ (SB ∪ SC)) + volume SC ≤ volume (SA ∪ SC) + volume (SB ∪ SC) := by
    rw [← key]; exact add_le_add le_rfl (measure_mono hsub)
  have h := ENNReal.toReal_mono (ENNReal.add_ne_top.2 ⟨fU fA fC, fU fB fC⟩) hle
  rw [ENNReal.toReal_add (fU fA (fU fB fC)) fC, ENNReal.toReal_add (fU fA fC) (fU fB fC)] at h
  subst habc hbc hac hc
  unfold vol
  linarith

/-- **C83, reference point.** A reference point that is worse or equal in every objective gives a hypervolume that is at least as large. -/
theorem C83_reference (hlib : HvLibOk lib) (hd : 2 ≤ nobj) (hr : PerObjective nobj ref r) (hm : PerObjective nobj maximise mx)
    (data : ℕ → ℕ → ℝ) (n : ℕ) (hn : 1 ≤ n) (ref' : List ℝ) (r' : ℕ → ℝ) (hr' : PerObjective nobj ref' r') (hworse : ∀ k < nobj, AtLeastAsGood (mx k) (r k) (r' k))
    (v v' : ℝ) (hv : BothHv lib data nobj n ref maximise v) (hv' : BothHv lib data nobj n ref' maximise v') : v ≤ v' := by
  rw [bothHv_vol hlib hd hr hm _ _ hn] at hv
  rw [bothHv_vol hlib hd hr' hm _ _ hn] at hv'
  subst hv hv'
  refine ENNReal.toReal_mono (volume_dominatedRegionMx_ne_top nobj n mx data r') (measure_mono ?_)
  rintro y ⟨h1, h2⟩
  refine ⟨h1, fun k => ?_⟩
  have a := h2 k
  have b := hworse k k.2
  unfold AtLeastAsGood at *
  split at a <;> simp_all <;> linarith

/-- **C83, contributions.** The hypervolume contributions of the points of a set are not negative, and their sum is at most the hypervolume of the set. -/
theorem C83_contributions_sum (hlib : HvLibOk lib) (tol : ℝ) (hd : 2 ≤ nobj) (hr : PerObjective nobj ref r) (hm : PerObjective nobj maximise mx)
    (data : ℕ → ℕ → ℝ) (n : ℕ) (hn : 1 ≤ n) (v : ℝ) (hv : BothHv lib data nobj n ref maximise v) :
    ∃ res : List ℝ, rHvContributions lib tol data nobj n ref maximise = .value res ∧ res.length = n ∧ (∀ c ∈ res, 0 ≤ c) ∧ res.sum ≤ v := by
  obtain ⟨res, e, hlen, hval⟩ := C63_r_hv_contributions hlib tol data nobj n hd hn ref maximise r mx hr hm
  rw [bothHv_vol hlib hd hr hm _ _ hn] at hv
  have hex0 : ∀ i, 0 ≤ exclusiveVolume nobj n mx data r i := fun i => ENNReal.toReal_nonneg
  have hres : res = (List.range n).map (fun i => if exclusiveVolume nobj n mx data r i ≥ tol then exclusiveVolume nobj n mx data r i else 0) := by
    apply List.ext_getElem?
    intro i
    by_cases hi : i < n
    · rw [hval i hi]; simp [hi]
    · rw [List.getElem?_eq_none (by omega), List.getElem?_eq_none (by simp; omega)]
  refine ⟨res, e, hlen, ?_, ?_⟩
  · intro c hc
    rw [hres] at hc
    obtain ⟨i, _, rfl⟩ := List.mem_map.1 hc
    split_ifs
    · exact hex0 i
    · exact le_rfl
  · rw [hres, ← List.sum_toFinset _ List.nodup_range, List.toFinset_range, hv]
    calc ∑ i ∈ Finset.range n, (if exclusiveVolume nobj n mx data r i ≥ tol then exclusiveVolume nobj n mx data r i else 0)
        ≤ ∑ i ∈ Finset.range n, exclusiveVolume nobj n mx data r i := by
          refine Finset.sum_le_sum (fun i _ => ?_)
          split_ifs
          · exact le_rfl
          · exact hex0 i
      _ ≤ vol (dominatedRegionMx nobj n mx data r) := by
          unfold exclusiveVolume vol
          have fR := volume_dominatedRegionMx_ne_top nobj n mx data r
          have hfin : ∀ i ∈ Finset.range n, volume (dominatedRegionMx nobj n mx data r \ dominatedRegionWithoutMx nobj n mx data r i) ≠ ⊤ :=
            fun i _ => ne_top_of_le_ne_top fR (measure_mono Set.sdiff_subset)
          rw [← ENNReal.toReal_sum hfin]
          refine ENNReal.toReal_mono fR ?_
          rw [← measure_biUnion_finset]
          · exact measure_mono (Set.iUnion₂_subset (fun i _ => Set.sdiff_subset))
          · intro i _ j _ hij
            rw [Function.onFun, Set.disjoint_left]
            rintro y ⟨hy, hyi⟩ ⟨-, hyj⟩
            obtain ⟨⟨p, hp, hpy⟩, hyr⟩ := hy
            by_cases h : p = i
            · exact hyj ⟨⟨p, hp, by omega, hpy⟩, hyr⟩
            · exact hyi ⟨⟨p, hp, h, hpy⟩, hyr⟩
          · intro i _
            exact (measurableSet_dominatedRegionMx nobj n mx data r).diff (measurableSet_dominatedRegionWithoutMx nobj n mx data r i)

end laws

/-! ### Concrete cases -/

/-- Two points with the second objective maximised, in other units: the first objective halved and shifted, the second one with its sign changed. -/
example : ∃ lib : HvLib ℝ, ∃ v, BothHv lib (fun i k => (i + k : ℝ)) 2 3 [7, -1] [false, true] v ∧
    BothHv lib (fun i k => (if k = 0 then 1 / 2 else -3) * (i + k : ℝ) + (if k = 0 then 5 else 0)) 2 3 [17 / 2, 3] [false] (3 / 2 * v) := by
  obtain ⟨lib, hlib⟩ := exists_hvLib
  have hr : PerObjective 2 [(7 : ℝ), -1] (fun k => if k = 0 then 7 else -1) := by
    refine ⟨by simp, fun k hk => ?_⟩
    rcases (show k = 0 ∨ k = 1 by omega) with rfl | rfl <;> simp
  have hm : PerObjective 2 [false, true] (fun k => k = 1) := by
    refine ⟨by simp, fun k hk => ?_⟩
    rcases (show k = 0 ∨ k = 1 by omega) with rfl | rfl <;> simp
  refine ⟨lib, _, (bothHv_vol hlib le_rfl hr hm _ 3 (by omega) _).2 rfl, ?_⟩
  have h := C83_affine hlib le_rfl hr hm (fun i k => (i + k : ℝ)) 3 (by omega) (fun k => if k = 0 then 1 / 2 else -3) (fun k => if k = 0 then 5 else 0)
    (by intro k _; split_ifs <;> norm_num) [17 / 2, 3] [false] ?_ ?_ _ ((bothHv_vol hlib le_rfl hr hm _ 3 (by omega) _).2 rfl)
  · have hp : (∏ k ∈ Finset.range 2, |if k = 0 then (1 / 2 : ℝ) else -3|) = 3 / 2 := by
      rw [Finset.prod_range_succ, Finset.prod_range_one]; norm_num
    rw [hp] at h
    exact h
  · refine ⟨by simp, fun k hk => ?_⟩
    rcases (show k = 0 ∨ k = 1 by omega) with rfl | rfl <;> norm_num
  · refine ⟨by simp, fun k hk => ?_⟩
    rcases (show k = 0 ∨ k = 1 by omega) with rfl | rfl <;> norm_num

/-- Exchanging the two objectives is a permutation. -/
example : Set.BijOn (fun k => 1 - k) (Set.Iio 2) (Set.Iio 2) := by
  refine ⟨fun k (hk : k < 2) => show 1 - k < 2 by omega, fun a (ha : a < 2) b (hb : b < 2) (h : 1 - a = 1 - b) => by omega, fun k (hk : k < 2) => ⟨1 - k, show 1 - k < 2 by omega, ?_⟩⟩
  show 1 - (1 - k) = k
  omega

end Moo
