import Verif.Props.WhvHype
import Verif.Props.HvApprox
import Mathlib.Probability.Distributions.Exponential

/-!
# C57: the expected value of the HypE estimate

`U 0 ω, U 1 ω, ...` are the numbers that the generator returns, one after the other, in the outcome `ω`.
-/

set_option autoImplicit false

namespace Moo

open MeasureTheory ProbabilityTheory Filter
open scoped Topology Function

/-- A generator that returns the numbers of a sequence one after the other. -/
def streamRng : Rng (ℕ → ℝ) ℝ where
  random s := (s 0, fun i => s (i + 1))
  normal s := (s 0, fun i => s (i + 1))

/-- Specification: the vectors at most as good as one of the points, at least as good as `ref` and at most as good as `ideal`. -/
def dominatedBetween (d n : ℕ) (mx : ℕ → Bool) (pts : ℕ → ℕ → ℝ) (ideal ref : ℕ → ℝ) : Set (Fin d → ℝ) :=
  {y | (∃ i < n, ∀ k : Fin d, AtLeastAsGood (mx k) (pts i k) (y k)) ∧
    ∀ k : Fin d, AtLeastAsGood (mx k) (ideal k) (y k) ∧ AtLeastAsGood (mx k) (y k) (ref k)}

theorem uniformSamples_stream (N : ℕ) (u : ℕ → ℝ) :
    uniformSamples streamRng N u = (List.range N).map (fun s => (u (2 * s), u (2 * s + 1))) := by
  induction N generalizing u with
  | zero => rfl
  | succ N ih =>
    rw [uniformSamples, List.range_succ_eq_map, List.map_cons, List.map_map]
    simp only [streamRng, zero_add, mul_one, mul_zero] at ih ⊢
    rw [ih]
    congr 1

/-- The unit-square samples that are dominated once they are placed in the box. -/
def hypeSet (pts : ℕ → ℕ → ℝ) (n : ℕ) (ideal ref : ℕ → ℝ) : Set (Fin 2 → ℝ) :=
  {u | SampleDominated pts n (inBox ideal ref (u 0, u 1))}

theorem measurableSet_hypeSet (pts : ℕ → ℕ → ℝ) (n : ℕ) (ideal ref : ℕ → ℝ) : MeasurableSet (hypeSet pts n ideal ref) := by
  have : hypeSet pts n ideal ref = ⋃ j ∈ {j | j < n}, ({u : Fin 2 → ℝ | pts j 0 ≤ ideal 0 + u 0 * (ref 0 - ideal 0)} ∩
      {u : Fin 2 → ℝ | pts j 1 ≤ ideal 1 + u 1 * (ref 1 - ideal 1)}) := by
    ext u; simp only [hypeSet, SampleDominated, inBox, Set.mem_ofPred_eq, Set.mem_iUnion, Set.mem_inter_iff, exists_prop]
  rw [this]
  refine MeasurableSet.biUnion (Set.to_countable _) (fun j _ => MeasurableSet.inter ?_ ?_) <;>
  exact measurableSet_le measurable_const (by fun_prop)

/-- The estimate for samples given by a sequence of vectors. -/
theorem whvHypeSample_sum (pts : ℕ → ℕ → ℝ) (n : ℕ) (ideal ref : ℕ → ℝ) (h : ∀ d < 2, ideal d < ref d) (N : ℕ) (W : ℕ → Fin 2 → ℝ) :
    whvHypeSample pts n ideal ref ((List.range N).map (fun s => (W s 0, W s 1))) =
      some ((ref 0 - ideal 0) * (ref 1 - ideal 1) * ((∑ s ∈ Finset.range N, (hypeSet pts n ideal ref).indicator 1 (W s)) / N)) := by
  classical
  rw [C35_value pts n ideal ref h, List.length_map, List.length_range]
  congr 3
  unfold dominatedCount
  rw [List.map_map, List.countP_map]
  induction N with
  | zero => simp
  | succ N ih =>
    rw [List.range_succ, List.countP_append, Nat.cast_add, ih, Finset.sum_range_succ]
    congr 1
    by_cases hd : W N ∈ hypeSet pts n ideal ref
    · rw [Set.indicator_of_mem hd]
      have : SampleDominated pts n (inBox ideal ref (W N 0, W N 1)) := hd
      simp [this]
    · rw [Set.indicator_of_notMem hd]
      have : ¬ SampleDominated pts n (inBox ideal ref (W N 0, W N 1)) := hd
      simp [this]

section

variable {Ω : Type*} [MeasurableSpace Ω] (P : Measure Ω)

/-- The mean of the estimate, for samples with given distributions. -/
theorem whvHypeSample_mean (pts : ℕ → ℕ → ℝ) (n : ℕ) (ideal ref : ℕ → ℝ) (h : ∀ d < 2, ideal d < ref d) (N : ℕ)
    (W : ℕ → Ω → Fin 2 → ℝ) (ν : ℕ → Measure (Fin 2 → ℝ)) [∀ s, IsFiniteMeasure (ν s)] (hW : ∀ s < N, HasLaw (W s) (ν s) P) :
    ∫ ω, (whvHypeSample pts n ideal ref ((List.range N).map (fun s => (W s ω 0, W s ω 1)))).getD 0 ∂P =
      (ref 0 - ideal 0) * (ref 1 - ideal 1) * ((∑ s ∈ Finset.range N, (ν s).real (hypeSet pts n ideal ref)) / N) := by
  simp only [fun ω => whvHypeSample_sum pts n ideal ref h N (fun s => W s ω), Option.getD_some]
  have hm := measurableSet_hypeSet pts n ideal ref
  have hint : ∀ s, Integrable ((hypeSet pts n ideal ref).indicator (1 : (Fin 2 → ℝ) → ℝ)) (ν s) := fun s =>
    (integrable_const (1 : ℝ)).indicator hm
  have hI : ∀ s < N, Integrable (fun ω => (hypeSet pts n ideal ref).indicator (1 : (Fin 2 → ℝ) → ℝ) (W s ω)) P := by
    intro s hs
    have : Integrable ((hypeSet pts n ideal ref).indicator (1 : (Fin 2 → ℝ) → ℝ)) (P.map (W s)) := by rw [(hW s hs).map_eq]; exact hint s
    exact this.comp_aemeasurable (hW s hs).aemeasurable
  rw [integral_const_mul, integral_div, integral_finsetSum _ (fun s hs => hI s (Finset.mem_range.mp hs))]
  congr 2
  refine Finset.sum_congr rfl (fun s hs => ?_)
  have := (hW s (Finset.mem_range.mp hs)).integral_comp (f := (hypeSet pts n ideal ref).indicator (1 : (Fin 2 → ℝ) → ℝ)) (hint s).aestronglyMeasurable
  refine this.trans ?_
  rw [integral_indicator_one hm]

end

/-- The uniform distribution on the unit square. -/
noncomputable def unitSquare : Measure (Fin 2 → ℝ) := Measure.pi fun _ => volume.restrict (Set.Icc (0 : ℝ) 1)

instance : IsFiniteMeasure unitSquare := by unfold unitSquare; infer_instance

theorem unitSquare_eq : unitSquare = (volume : Measure (Fin 2 → ℝ)).restrict (Set.univ.pi fun _ => Set.Icc (0 : ℝ) 1) :=
  (Measure.restrict_pi_pi _ _).symm

/-- The probability of a dominated sample, times the area of the box, is the area of the dominated part of the box. -/
theorem unitSquare_hypeSet (pts : ℕ → ℕ → ℝ) (n : ℕ) (ideal ref : ℕ → ℝ) (h : ∀ d < 2, ideal d < ref d) :
    (ref 0 - ideal 0) * (ref 1 - ideal 1) * unitSquare.real (hypeSet pts n ideal ref) = vol (dominatedBetween 2 n (fun _ => false) pts ideal ref) := by
  have e0 := sub_pos.2 (h 0 (by omega))
  have e1 := sub_pos.2 (h 1 (by omega))
  set D : Fin 2 → ℝ := fun k => ref k - ideal k with hD
  have hdet : (Matrix.diagonal D).det = (ref 0 - ideal 0) * (ref 1 - ideal 1) := by rw [Matrix.det_diagonal, Fin.prod_univ_two]; rfl
  have hne : (Matrix.diagonal D).det ≠ 0 := by rw [hdet]; exact (mul_pos e0 e1).ne'
  have hvol := Real.smul_map_diagonal_volume_pi hne
  have hmeas : MeasurableSet (dominatedBetween 2 n (fun _ => false) pts ideal ref) := by
    have : dominatedBetween 2 n (fun _ => false) pts ideal ref =
        (⋃ i ∈ {i | i < n}, ⋂ k : Fin 2, {y : Fin 2 → ℝ | pts i k ≤ y k}) ∩ ⋂ k : Fin 2, {y : Fin 2 → ℝ | ideal k ≤ y k ∧ y k ≤ ref k} := by
      ext y
      simp only [dominatedBetween, AtLeastAsGood, Set.mem_ofPred_eq, Set.mem_iUnion, Set.mem_inter_iff, Set.mem_iInter, exists_prop, Bool.false_eq_true, if_false]
    rw [this]
    refine MeasurableSet.inter (MeasurableSet.biUnion (Set.to_countable _) (fun i _ => MeasurableSet.iInter (fun k => ?_)))
      (MeasurableSet.iInter (fun k => ?_))
    · exact measurableSet_le measurable_const (measurable_pi_apply k)
    · exact (measurableSet_le measurable_const (measurable_pi_apply k)).inter (measurableSet_le (measurable_pi_apply k) measurable_const)
  have htr := measure_preimage_add (volume : Measure (Fin 2 → ℝ)) (fun k => ideal k) (dominatedBetween 2 n (fun _ => false) pts ideal ref)
  unfold vol
  rw [← htr, ← hvol, Measure.smul_apply, Measure.map_apply (LinearMap.continuous_on_pi _).measurable
    (hmeas.preimage (measurable_const_add _)), smul_eq_mul, ENNReal.toReal_mul, ENNReal.toReal_ofReal (abs_nonneg _), hdet,
    abs_of_pos (mul_pos e0 e1)]
  congr 1
  rw [Measure.real, unitSquare_eq, Measure.restrict_apply (measurableSet_hypeSet pts n ideal ref)]
  congr 2
  ext u
  simp only [hypeSet, SampleDominated, inBox, dominatedBetween, AtLeastAsGood, Set.mem_inter_iff, Set.mem_ofPred_eq, Set.mem_univ_pi, Set.mem_Icc,
    Set.mem_preimage, Matrix.toLin'_apply, Matrix.mulVec_diagonal, Pi.add_apply, Fin.forall_fin_two, hD]
  simp only [Fin.val_zero, Fin.val_one, Bool.false_eq_true, if_false]
  refine and_congr (exists_congr (fun j => and_congr_right (fun _ => ?_))) ?_
  · rw [mul_comm (u 0), mul_comm (u 1)]
  · refine and_congr ?_ ?_
    · constructor
      · rintro ⟨a, b⟩; constructor <;> nlinarith
      · rintro ⟨a, b⟩; constructor <;> nlinarith
    · constructor
      · rintro ⟨a, b⟩; constructor <;> nlinarith
      · rintro ⟨a, b⟩; constructor <;> nlinarith

/-- With directions. -/
theorem vol_dominatedBetween (d n : ℕ) (mx : ℕ → Bool) (pts : ℕ → ℕ → ℝ) (ideal ref : ℕ → ℝ) :
    vol (dominatedBetween d n mx pts ideal ref) =
      vol (dominatedBetween d n (fun _ => false) (fun i => negMax mx (pts i)) (negMax mx ideal) (negMax mx ref)) := by
  unfold vol
  rw [← volume_mirror d mx (dominatedBetween d n mx pts ideal ref)]
  congr 2
  ext y
  simp only [dominatedBetween, Set.mem_ofPred_eq, AtLeastAsGood, negMax, Bool.false_eq_true, if_false]
  refine and_congr (exists_congr (fun i => and_congr_right (fun _ => forall_congr' (fun k => ?_)))) (forall_congr' (fun k => and_congr ?_ ?_))
  · by_cases h : mx k
    · simp only [h, if_true]; exact neg_le
    · simp [h]
  · by_cases h : mx k
    · simp only [h, if_true]; exact neg_le
    · simp [h]
  · by_cases h : mx k
    · simp only [h, if_true]; exact le_neg
    · simp [h]

section

variable {Ω : Type*} [MeasurableSpace Ω] (P : Measure Ω)

theorem negMax_lt (mx : ℕ → Bool) (ideal ref : ℕ → ℝ) (h : ∀ d < 2, StrictlyBetter (mx d) (ideal d) (ref d)) :
    ∀ d < 2, negMax mx ideal d < negMax mx ref d := by
  intro d hd
  have := h d hd
  unfold StrictlyBetter at this
  unfold negMax
  by_cases hm : mx d <;> simp only [hm, if_true] at this ⊢
  · linarith
  · simpa using this

/-- **C57.**  With independent uniform random numbers, `whv_hype` with the uniform distribution is an unbiased estimate of the area of the
part of the box between `ideal` and `ref` that is dominated by the points. -/
theorem C57_whv_hype_uniform_unbiased (pts : ℕ → ℕ → ℝ) (n : ℕ) (ideal ref : ℕ → ℝ) (mx : ℕ → Bool)
    (h : ∀ d < 2, StrictlyBetter (mx d) (ideal d) (ref d)) (nsamples : ℕ) (hN : 0 < nsamples) (U : ℕ → Ω → ℝ)
    (hU : ∀ s < nsamples, HasLaw (fun ω (k : Fin 2) => U (2 * s + k) ω) (Measure.pi fun _ => volume.restrict (Set.Icc (0 : ℝ) 1)) P) :
    ∫ ω, (pyWhvHypeUnif streamRng pts n ideal ref mx nsamples (fun i => U i ω)).getD 0 ∂P = vol (dominatedBetween 2 n mx pts ideal ref) := by
  have h' := negMax_lt mx ideal ref h
  unfold pyWhvHypeUnif whvHypeUnif
  simp only [uniformSamples_stream]
  have := whvHypeSample_mean P (fun i => negMax mx (pts i)) n (negMax mx ideal) (negMax mx ref) h' nsamples
    (fun s ω (k : Fin 2) => U (2 * s + k) ω) (fun _ => unitSquare) hU
  refine this.trans ?_
  rw [Finset.sum_const, Finset.card_range, nsmul_eq_mul, mul_div_cancel_left₀ _ (by exact_mod_cast hN.ne'),
    unitSquare_hypeSet _ _ _ _ h', ← vol_dominatedBetween]

/-- If no point is better than `ideal` in any objective, this is the hypervolume. -/
theorem C57_between_eq_hypervolume (pts : ℕ → ℕ → ℝ) (n : ℕ) (ideal ref : ℕ → ℝ) (mx : ℕ → Bool)
    (h : ∀ i < n, WeakDom 2 mx ideal (pts i)) : dominatedBetween 2 n mx pts ideal ref = dominatedRegionMx 2 n mx pts ref := by
  ext y
  simp only [dominatedBetween, dominatedRegionMx, Set.mem_ofPred_eq]
  constructor
  · rintro ⟨a, b⟩; exact ⟨a, fun k => (b k).2⟩
  · rintro ⟨⟨i, hi, a⟩, b⟩
    refine ⟨⟨i, hi, a⟩, fun k => ⟨?_, b k⟩⟩
    have h1 := h i hi k k.2
    have h2 := a k
    unfold AtLeastAsGood at h1 h2 ⊢
    by_cases hm : mx k <;> simp only [hm, if_true] at h1 h2 ⊢
    · exact le_trans h2 h1
    · simp at h1 h2 ⊢; exact le_trans h1 h2

/-- **C57.**  With independent samples the estimate converges to that area, almost surely, when the number of samples grows. -/
theorem C57_whv_hype_uniform_consistent (pts : ℕ → ℕ → ℝ) (n : ℕ) (ideal ref : ℕ → ℝ) (mx : ℕ → Bool)
    (h : ∀ d < 2, StrictlyBetter (mx d) (ideal d) (ref d)) (U : ℕ → Ω → ℝ)
    (hU : ∀ s, HasLaw (fun ω (k : Fin 2) => U (2 * s + k) ω) (Measure.pi fun _ => volume.restrict (Set.Icc (0 : ℝ) 1)) P)
    (hind : Pairwise fun s t => IndepFun (fun ω (k : Fin 2) => U (2 * s + k) ω) (fun ω (k : Fin 2) => U (2 * t + k) ω) P) :
    ∀ᵐ ω ∂P, Tendsto (fun nsamples => (pyWhvHypeUnif streamRng pts n ideal ref mx nsamples (fun i => U i ω)).getD 0) atTop
      (𝓝 (vol (dominatedBetween 2 n mx pts ideal ref))) := by
  have h' := negMax_lt mx ideal ref h
  set D := hypeSet (fun i => negMax mx (pts i)) n (negMax mx ideal) (negMax mx ref) with hD
  have hm : MeasurableSet D := measurableSet_hypeSet _ _ _ _
  have hf : Measurable (D.indicator (1 : (Fin 2 → ℝ) → ℝ)) := measurable_one.indicator hm
  have hint : Integrable (D.indicator (1 : (Fin 2 → ℝ) → ℝ)) unitSquare := (integrable_const (1 : ℝ)).indicator hm
  have hid : ∀ s, IdentDistrib (fun ω => D.indicator (1 : (Fin 2 → ℝ) → ℝ) (fun k : Fin 2 => U (2 * s + k) ω))
      (fun ω => D.indicator (1 : (Fin 2 → ℝ) → ℝ) (fun k : Fin 2 => U (2 * 0 + k) ω)) P P := by
    intro s
    have : IdentDistrib (fun ω (k : Fin 2) => U (2 * s + k) ω) (fun ω (k : Fin 2) => U (2 * 0 + k) ω) P P :=
      ⟨(hU s).aemeasurable, (hU 0).aemeasurable, by rw [(hU s).map_eq, (hU 0).map_eq]⟩
    exact this.comp hf
  have hI0 : Integrable (fun ω => D.indicator (1 : (Fin 2 → ℝ) → ℝ) (fun k : Fin 2 => U (2 * 0 + k) ω)) P := by
    have : Integrable (D.indicator (1 : (Fin 2 → ℝ) → ℝ)) (P.map (fun ω (k : Fin 2) => U (2 * 0 + k) ω)) := by
      rw [(hU 0).map_eq]; exact hint
    exact this.comp_aemeasurable (hU 0).aemeasurable
  have hE : ∫ ω, D.indicator (1 : (Fin 2 → ℝ) → ℝ) (fun k : Fin 2 => U (2 * 0 + k) ω) ∂P = unitSquare.real D := by
    refine ((hU 0).integral_comp hint.aestronglyMeasurable).trans ?_
    exact integral_indicator_one hm
  have hslln := strong_law_ae_real (fun s ω => D.indicator (1 : (Fin 2 → ℝ) → ℝ) (fun k : Fin 2 => U (2 * s + k) ω)) hI0
    (fun s t hst => (hind hst).comp hf hf) hid
  filter_upwards [hslln] with ω hlim
  rw [hE] at hlim
  have h2 := hlim.const_mul ((negMax mx ref 0 - negMax mx ideal 0) * (negMax mx ref 1 - negMax mx ideal 1))
  rw [unitSquare_hypeSet _ _ _ _ h', ← vol_dominatedBetween] at h2
  refine h2.congr (fun N => ?_)
  unfold pyWhvHypeUnif whvHypeUnif
  rw [uniformSamples_stream]
  have := whvHypeSample_sum (fun i => negMax mx (pts i)) n (negMax mx ideal) (negMax mx ref) h' N (fun s (k : Fin 2) => U (2 * s + k) ω)
  exact (congrArg (fun o : Option ℝ => o.getD 0) this).symm

end

/-! ## Exponential distribution -/

/-- If `x` is uniform on the unit interval then `-mu log x` has the exponential distribution with mean `mu`. -/
theorem map_neg_log_uniform (mu : ℝ) (hmu : 0 < mu) :
    (volume.restrict (Set.Icc (0 : ℝ) 1)).map (fun x => 0 - mu * Real.log x) = expMeasure (1 / mu) := by
  have hp : IsProbabilityMeasure (volume.restrict (Set.Icc (0 : ℝ) 1)) := ⟨by simp⟩
  have hr : 0 < 1 / mu := by positivity
  have := isProbabilityMeasure_expMeasure hr
  have hm : Measurable (fun x : ℝ => 0 - mu * Real.log x) := by fun_prop
  have : IsProbabilityMeasure ((volume.restrict (Set.Icc (0 : ℝ) 1)).map (fun x => 0 - mu * Real.log x)) :=
    Measure.isProbabilityMeasure_map hm.aemeasurable
  refine Measure.eq_of_cdf _ _ ?_
  ext x
  rw [cdf_expMeasure_eq hr, cdf_eq_real, map_measureReal_apply hm measurableSet_Iic, measureReal_restrict_apply (hm measurableSet_Iic)]
  have hae : ((fun x => 0 - mu * Real.log x) ⁻¹' Set.Iic x ∩ Set.Icc (0 : ℝ) 1 : Set ℝ) =ᵐ[volume] Set.Icc (Real.exp (-(1 / mu * x))) 1 := by
    have h0 : ∀ᵐ t : ℝ, t ≠ 0 := by simp [ae_iff, measure_singleton]
    filter_upwards [h0] with t ht
    refine propext ?_
    show (0 - mu * Real.log t ≤ x ∧ 0 ≤ t ∧ t ≤ 1) ↔ (Real.exp (-(1 / mu * x)) ≤ t ∧ t ≤ 1)
    have key : ∀ t : ℝ, 0 < t → (0 - mu * Real.log t ≤ x ↔ Real.exp (-(1 / mu * x)) ≤ t) := by
      intro t ht
      rw [← Real.le_log_iff_exp_le ht]
      constructor
      · intro h
        have : -(1 / mu * x) = (-x) / mu := by ring
        rw [this, div_le_iff₀ hmu]; linarith
      · intro h
        have e : -(1 / mu * x) = (-x) / mu := by ring
        rw [e, div_le_iff₀ hmu] at h; linarith
    constructor
    · rintro ⟨a, b, c⟩
      exact ⟨(key t (lt_of_le_of_ne b (Ne.symm ht))).mp a, c⟩
    · rintro ⟨a, c⟩
      have hpos : 0 < t := lt_of_lt_of_le (Real.exp_pos _) a
      exact ⟨(key t hpos).mpr a, hpos.le, c⟩
  rw [Measure.real, measure_congr hae, Real.volume_Icc]
  split_ifs with hx
  · rw [ENNReal.toReal_ofReal]
    have : Real.exp (-(1 / mu * x)) ≤ 1 := Real.exp_le_one_iff.mpr (by have := mul_nonneg hr.le hx; linarith)
    linarith
  · rw [ENNReal.ofReal_eq_zero.mpr]
    · rfl
    · have : 1 ≤ Real.exp (-(1 / mu * x)) := Real.one_le_exp (by have := mul_neg_of_pos_of_neg hr (not_le.mp hx); linarith)
      linarith

theorem expSamplesLoop_stream (mu : ℝ) (flip : Bool) (N : ℕ) (u : ℕ → ℝ) (hu : ∀ i < 2 * N, 0 < u i) :
    expSamplesLoop streamRng Real.log mu flip N u =
      some ((List.range N).map (fun s => if flip then (u (2 * s), 0 - mu * Real.log (u (2 * s + 1))) else (0 - mu * Real.log (u (2 * s)), u (2 * s + 1))),
        fun i => u (i + 2 * N)) := by
  induction N generalizing u with
  | zero => rfl
  | succ N ih =>
    have h0 : 0 < u 0 := hu 0 (by omega)
    have h1 : 0 < u 1 := hu 1 (by omega)
    have hI := ih (fun i => u (i + 1 + 1)) (fun i hi => hu (i + 1 + 1) (by omega))
    rw [expSamplesLoop, List.range_succ_eq_map, List.map_cons, List.map_map]
    have e : ∀ i, u (i + 2 * N + 1 + 1) = u (i + 2 * (N + 1)) := fun i => by congr 1
    cases flip
    · simp only [streamRng, Bool.false_eq_true, if_false, gt_iff_lt, h0, not_true_eq_false, zero_add, mul_one, mul_zero] at hI ⊢
      rw [hI]
      simp only [e]
      rfl
    · simp only [streamRng, if_true, gt_iff_lt, h1, not_true_eq_false, if_false, zero_add, mul_one, mul_zero] at hI ⊢
      rw [hI]
      simp only [e]
      rfl

/-- The samples of the exponential distribution, as vectors. -/
noncomputable def expVec (mu : ℝ) (N s : ℕ) (v : Fin 2 → ℝ) (k : Fin 2) : ℝ :=
  if (k = 0) = (s < N / 2) then 0 - mu * Real.log (v k) else v k

theorem expSamples_stream (mu : ℝ) (N : ℕ) (u : ℕ → ℝ) (hu : ∀ i < 2 * N, 0 < u i) :
    expSamples streamRng Real.log mu N u = some ((List.range N).map (fun s =>
      (expVec mu N s (fun k : Fin 2 => u (2 * s + k)) 0, expVec mu N s (fun k : Fin 2 => u (2 * s + k)) 1))) := by
  have hle : N / 2 ≤ N := Nat.div_le_self _ _
  unfold expSamples
  simp only
  rw [expSamplesLoop_stream mu false (N / 2) u (fun i hi => hu i (by omega))]
  simp only
  rw [expSamplesLoop_stream mu true (N - N / 2) _ (fun i hi => hu _ (by omega))]
  simp only [Bool.false_eq_true, if_false, if_true]
  congr 1
  obtain ⟨m, hm⟩ : ∃ m, N - N / 2 = m := ⟨_, rfl⟩
  have hN : N = N / 2 + m := by omega
  have hr : List.range N = List.range (N / 2) ++ (List.range m).map (N / 2 + ·) := by conv_lhs => rw [hN, List.range_add]
  rw [hr, List.map_append, hm, List.map_map]
  congr 1
  · refine List.map_congr_left (fun s hs => ?_)
    have := List.mem_range.mp hs
    simp [expVec, this]
  · refine List.map_congr_left (fun s hs => ?_)
    have e0 : 2 * s + 2 * (N / 2) = 2 * (N / 2 + s) := by ring
    have e1 : 2 * s + 1 + 2 * (N / 2) = 2 * (N / 2 + s) + 1 := by ring
    simp [expVec, e0, e1]

section

variable {Ω : Type*} [MeasurableSpace Ω] (P : Measure Ω)

/-- **C57.**  With independent uniform random numbers, the expected value of `whv_hype` with the exponential distribution is the area of the
box times the probability that a sample is dominated, where one coordinate (the first in the first half of the samples, the second in the
rest) has the exponential distribution with mean `mu`, in units of the box, and the other one is uniform.  The samples are not cut off at
`ref`: the part of the distribution beyond `ref` counts as dominated, too. -/
theorem C57_whv_hype_exponential_mean (pts : ℕ → ℕ → ℝ) (n : ℕ) (ideal ref : ℕ → ℝ) (h : ∀ d < 2, ideal d < ref d) (nsamples : ℕ)
    (mu : ℝ) (hmu : 0 < mu) (U : ℕ → Ω → ℝ)
    (hU : ∀ s < nsamples, HasLaw (fun ω (k : Fin 2) => U (2 * s + k) ω) (Measure.pi fun _ => volume.restrict (Set.Icc (0 : ℝ) 1)) P) :
    (∀ᵐ ω ∂P, (whvHypeExpo streamRng Real.log pts n ideal ref nsamples (fun i => U i ω) mu).isSome) ∧
    ∫ ω, (whvHypeExpo streamRng Real.log pts n ideal ref nsamples (fun i => U i ω) mu).getD 0 ∂P =
      (ref 0 - ideal 0) * (ref 1 - ideal 1) *
        (((nsamples / 2 : ℕ) * (Measure.pi fun k : Fin 2 => if k = 0 then expMeasure (1 / mu) else volume.restrict (Set.Icc (0 : ℝ) 1)).real
            {u | SampleDominated pts n (inBox ideal ref (u 0, u 1))} +
          (nsamples - nsamples / 2 : ℕ) * (Measure.pi fun k : Fin 2 => if k = 0 then volume.restrict (Set.Icc (0 : ℝ) 1) else expMeasure (1 / mu)).real
            {u | SampleDominated pts n (inBox ideal ref (u 0, u 1))}) / nsamples) := by
  have hexp := isProbabilityMeasure_expMeasure (r := 1 / mu) (by positivity)
  have hpos : ∀ᵐ ω ∂P, ∀ i < 2 * nsamples, 0 < U i ω := by
    rw [ae_all_iff]; intro i
    by_cases hi : i < 2 * nsamples
    · have hs : i / 2 < nsamples := by omega
      have h1 : ∀ᵐ v ∂(Measure.pi fun _ : Fin 2 => volume.restrict (Set.Icc (0 : ℝ) 1)), ∀ k, 0 < v k := by
        refine ae_all_iff.mpr (fun k => ?_)
        have h2 : ∀ᵐ x ∂(volume.restrict (Set.Icc (0 : ℝ) 1)), 0 < x := by
          filter_upwards [ae_restrict_mem measurableSet_Icc, ae_restrict_of_ae (by simp [ae_iff, measure_singleton] : ∀ᵐ t : ℝ, t ≠ 0)] with x hx h0
          exact lt_of_le_of_ne hx.1 (Ne.symm h0)
        exact Measure.tendsto_eval_ae_ae.eventually h2
      rw [← (hU _ hs).map_eq] at h1
      filter_upwards [ae_of_ae_map (hU _ hs).aemeasurable h1] with ω hω _
      have := hω ⟨i % 2, Nat.mod_lt _ (by norm_num)⟩
      have e : 2 * (i / 2) + i % 2 = i := Nat.div_add_mod i 2
      simp only [e] at this
      exact this
    · exact Eventually.of_forall (fun ω h => absurd h hi)
  have hval : ∀ᵐ ω ∂P, whvHypeExpo streamRng Real.log pts n ideal ref nsamples (fun i => U i ω) mu =
      whvHypeSample pts n ideal ref ((List.range nsamples).map (fun s =>
        (expVec mu nsamples s (fun k : Fin 2 => U (2 * s + k) ω) 0, expVec mu nsamples s (fun k : Fin 2 => U (2 * s + k) ω) 1))) := by
    filter_upwards [hpos] with ω hω
    unfold whvHypeExpo
    rw [expSamples_stream mu nsamples (fun i => U i ω) hω]
  refine ⟨?_, ?_⟩
  · filter_upwards [hval] with ω hω
    rw [hω, C35_value pts n ideal ref h]; rfl
  rw [integral_congr_ae (g := fun ω => (whvHypeSample pts n ideal ref ((List.range nsamples).map (fun s =>
        (expVec mu nsamples s (fun k : Fin 2 => U (2 * s + k) ω) 0, expVec mu nsamples s (fun k : Fin 2 => U (2 * s + k) ω) 1)))).getD 0)
    (by filter_upwards [hval] with ω hω; rw [hω])]
  let ν : ℕ → Measure (Fin 2 → ℝ) := fun s => Measure.pi fun k : Fin 2 =>
    if (k = 0) = (s < nsamples / 2) then expMeasure (1 / mu) else volume.restrict (Set.Icc (0 : ℝ) 1)
  have hprob : ∀ (s : ℕ) (k : Fin 2), IsProbabilityMeasure
      (if (k = 0) = (s < nsamples / 2) then expMeasure (1 / mu) else volume.restrict (Set.Icc (0 : ℝ) 1)) := by
    intro s k
    split_ifs
    · exact hexp
    · exact ⟨by simp⟩
  have hfin : ∀ s, IsFiniteMeasure (ν s) := fun s => by
    have := hprob s
    exact inferInstanceAs (IsFiniteMeasure (Measure.pi _))
  have hW : ∀ s < nsamples, HasLaw (fun ω => expVec mu nsamples s (fun k : Fin 2 => U (2 * s + k) ω)) (ν s) P := by
    intro s hs
    have hmeas : Measurable (expVec mu nsamples s) := by
      refine measurable_pi_lambda _ (fun k => ?_)
      unfold expVec
      split_ifs <;> fun_prop
    refine ⟨hmeas.comp_aemeasurable (hU s hs).aemeasurable, ?_⟩
    have : (fun ω => expVec mu nsamples s (fun k : Fin 2 => U (2 * s + k) ω)) = expVec mu nsamples s ∘ (fun ω (k : Fin 2) => U (2 * s + k) ω) := rfl
    rw [this, ← AEMeasurable.map_map_of_aemeasurable hmeas.aemeasurable (hU s hs).aemeasurable, (hU s hs).map_eq]
    have hf : ∀ k : Fin 2, (volume.restrict (Set.Icc (0 : ℝ) 1)).map (fun x => if (k = 0) = (s < nsamples / 2) then 0 - mu * Real.log x else x)
        = if (k = 0) = (s < nsamples / 2) then expMeasure (1 / mu) else volume.restrict (Set.Icc (0 : ℝ) 1) := by
      intro k
      by_cases hk : (k = 0) = (s < nsamples / 2)
      · simp only [if_pos hk]; exact map_neg_log_uniform mu hmu
      · simp only [if_neg hk]; exact Measure.map_id
    have hsf : ∀ k : Fin 2, SigmaFinite ((volume.restrict (Set.Icc (0 : ℝ) 1)).map
        (fun x => if (k = 0) = (s < nsamples / 2) then 0 - mu * Real.log x else x)) := by
      intro k
      rw [hf k]
      have := hprob s k
      infer_instance
    have hmp := Measure.pi_map_pi (μ := fun _ : Fin 2 => volume.restrict (Set.Icc (0 : ℝ) 1))
      (f := fun k x => if (k = 0) = (s < nsamples / 2) then 0 - mu * Real.log x else x) (fun k => by
        by_cases hk : (k = 0) = (s < nsamples / 2)
        · simp only [if_pos hk]; fun_prop
        · simp only [if_neg hk]; fun_prop)
    simp only [hf] at hmp
    exact hmp
  rw [whvHypeSample_mean P pts n ideal ref h nsamples _ ν hW]
  congr 2
  have hsplit : Finset.range nsamples = Finset.range (nsamples / 2) ∪ Finset.Ico (nsamples / 2) nsamples := by
    ext i; simp only [Finset.mem_range, Finset.mem_union, Finset.mem_Ico]; omega
  rw [hsplit, Finset.sum_union (by
    rw [Finset.disjoint_left]; intro i hi hj; rw [Finset.mem_range] at hi; rw [Finset.mem_Ico] at hj; omega)]
  have h1 : ∀ s ∈ Finset.range (nsamples / 2), (ν s).real (hypeSet pts n ideal ref) =
      (Measure.pi fun k : Fin 2 => if k = 0 then expMeasure (1 / mu) else volume.restrict (Set.Icc (0 : ℝ) 1)).real (hypeSet pts n ideal ref) := by
    intro s hs
    have : s < nsamples / 2 := Finset.mem_range.mp hs
    simp only [ν, this, eq_iff_iff, iff_true]
  have h2 : ∀ s ∈ Finset.Ico (nsamples / 2) nsamples, (ν s).real (hypeSet pts n ideal ref) =
      (Measure.pi fun k : Fin 2 => if k = 0 then volume.restrict (Set.Icc (0 : ℝ) 1) else expMeasure (1 / mu)).real (hypeSet pts n ideal ref) := by
    intro s hs
    have : ¬ s < nsamples / 2 := by rw [Finset.mem_Ico] at hs; omega
    have hv : ν s = Measure.pi fun k : Fin 2 => if k = 0 then volume.restrict (Set.Icc (0 : ℝ) 1) else expMeasure (1 / mu) := by
      simp only [ν, this, eq_iff_iff, iff_false]
      congr 1
      funext k
      by_cases hk : k = 0 <;> simp [hk]
    rw [hv]
  rw [Finset.sum_congr rfl h1, Finset.sum_congr rfl h2, Finset.sum_const, Finset.sum_const, Finset.card_range, Nat.card_Ico, nsmul_eq_mul, nsmul_eq_mul]
  rfl

end

/-- Independent uniform random numbers exist. -/
theorem exists_uniform_samples : ∃ (Ω : Type) (_ : MeasurableSpace Ω) (P : Measure Ω) (_ : IsProbabilityMeasure P) (U : ℕ → Ω → ℝ),
    (∀ s, HasLaw (fun ω (k : Fin 2) => U (2 * s + k) ω) (Measure.pi fun _ => volume.restrict (Set.Icc (0 : ℝ) 1)) P) ∧
    Pairwise fun s t => IndepFun (fun ω (k : Fin 2) => U (2 * s + k) ω) (fun ω (k : Fin 2) => U (2 * t + k) ω) P := by
  have hp : IsProbabilityMeasure (volume.restrict (Set.Icc (0 : ℝ) 1)) := ⟨by simp⟩
  let μ : ℕ → Measure (Fin 2 → ℝ) := fun _ => Measure.pi fun _ => volume.restrict (Set.Icc (0 : ℝ) 1)
  have h : ∀ s, (fun (ω : ℕ → Fin 2 → ℝ) (k : Fin 2) => ω ((2 * s + (k : ℕ)) / 2) ⟨(2 * s + (k : ℕ)) % 2, Nat.mod_lt _ (by norm_num)⟩) = fun ω => ω s := by
    intro s; funext ω k
    have e1 : (2 * s + (k : ℕ)) / 2 = s := by omega
    have e2 : (⟨(2 * s + (k : ℕ)) % 2, Nat.mod_lt _ (by norm_num)⟩ : Fin 2) = k := by
      apply Fin.ext
      show (2 * s + (k : ℕ)) % 2 = k
      omega
    rw [e1, e2]
  refine ⟨ℕ → Fin 2 → ℝ, inferInstance, Measure.infinitePi μ, inferInstance, fun i ω => ω (i / 2) ⟨i % 2, Nat.mod_lt _ (by norm_num)⟩, ?_, ?_⟩
  · intro s
    rw [h s]
    exact ⟨(measurable_pi_apply s).aemeasurable, Measure.infinitePi_map_eval μ s⟩
  · intro s t hst
    simp only [h]
    have := iIndepFun_infinitePi (P := μ) (X := fun _ x => x) (fun _ => measurable_id)
    exact this.indepFun hst

/-- Non-vacuity of C57: two points, the second objective is maximised. -/
example : ∃ (Ω : Type) (_ : MeasurableSpace Ω) (P : Measure Ω) (_ : IsProbabilityMeasure P) (U : ℕ → Ω → ℝ),
    ∫ ω, (pyWhvHypeUnif streamRng (fun i k => if k = 0 then i + 1 else i + 3) 2 (fun k => if k = 0 then 0 else 9) (fun k => if k = 0 then 5 else 2)
        (fun k => k = 1) 10 (fun i => U i ω)).getD 0 ∂P
      = vol (dominatedRegionMx 2 2 (fun k => k = 1) (fun i k => if k = 0 then i + 1 else i + 3) (fun k => if k = 0 then 5 else 2)) := by
  obtain ⟨Ω, i1, P, i2, U, h1, _⟩ := exists_uniform_samples
  refine ⟨Ω, i1, P, i2, U, ?_⟩
  rw [C57_whv_hype_uniform_unbiased P _ 2 _ _ _ ?_ 10 (by norm_num) U (fun s _ => h1 s), C57_between_eq_hypervolume]
  · intro i hi k hk
    have h1 : i = 0 ∨ i = 1 := by omega
    have h2 : k = 0 ∨ k = 1 := by omega
    rcases h1 with rfl | rfl <;> rcases h2 with rfl | rfl <;> norm_num [AtLeastAsGood]
  · intro k hk
    have h2 : k = 0 ∨ k = 1 := by omega
    rcases h2 with rfl | rfl <;> norm_num [StrictlyBetter]

end Moo
