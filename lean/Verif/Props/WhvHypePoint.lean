import Verif.Props.WhvHypeMean
import Mathlib.Probability.Distributions.Gaussian.Real
import Mathlib.Probability.Moments.Covariance

/-!
# C101: `whv_hype` with the distribution around a goal (`dist = "point"`)

`N 0 ω, N 1 ω, ...` are the standard normal numbers that the generator returns, one after the other, in the outcome `ω`.
-/

set_option autoImplicit false
set_option linter.unusedSectionVars false

namespace Moo

open MeasureTheory ProbabilityTheory Filter
open scoped Topology Function NNReal

/-- Specification: how far the goal must be moved along the diagonal of the box, in units of the box, until the point `p` weakly dominates it. -/
noncomputable def goalDistance (ideal ref mu p : ℕ → ℝ) : ℝ := max ((p 0 - mu 0) / (ref 0 - ideal 0)) ((p 1 - mu 1) / (ref 1 - ideal 1))

theorem bivariateNormalFill_stream (mu1 mu2 s1 s2 rho : ℝ) (N : ℕ) (u : ℕ → ℝ) :
    bivariateNormalFill streamRng Real.sqrt mu1 mu2 s1 s2 rho N u =
      (List.range N).map (fun s => (mu1 + u (2 * s) * s1, mu2 + u (2 * s) * (s2 * rho) + s2 * Real.sqrt (1 - rho * rho) * u (2 * s + 1))) := by
  induction N generalizing u with
  | zero => rfl
  | succ N ih =>
    rw [bivariateNormalFill, List.range_succ_eq_map, List.map_cons, List.map_map]
    simp only [streamRng, mul_zero, zero_add] at ih ⊢
    rw [ih]
    congr 1

theorem hypeSet_goal (pts : ℕ → ℕ → ℝ) (n : ℕ) (ideal ref mu : ℕ → ℝ) (h : ∀ d < 2, ideal d < ref d) (x : ℝ) :
    (fun k : Fin 2 => (mu k - ideal k) / (ref k - ideal k) + x * (1 / 4)) ∈ hypeSet pts n ideal ref ↔
      ∃ j < n, goalDistance ideal ref mu (pts j) ≤ x / 4 := by
  have e0 := sub_pos.2 (h 0 (by omega))
  have e1 := sub_pos.2 (h 1 (by omega))
  simp only [hypeSet, SampleDominated, inBox, Set.mem_ofPred_eq, goalDistance, max_le_iff]
  refine exists_congr (fun j => and_congr_right (fun _ => and_congr ?_ ?_))
  · rw [div_le_iff₀ e0]
    have : ideal 0 + ((mu 0 - ideal 0) / (ref 0 - ideal 0) + x * (1 / 4)) * (ref 0 - ideal 0) = mu 0 + x / 4 * (ref 0 - ideal 0) := by
      field_simp; ring
    show pts j 0 ≤ ideal 0 + ((mu 0 - ideal 0) / (ref 0 - ideal 0) + x * (1 / 4)) * (ref 0 - ideal 0) ↔ _
    rw [this, sub_le_iff_le_add, add_comm]
  · rw [div_le_iff₀ e1]
    have : ideal 1 + ((mu 1 - ideal 1) / (ref 1 - ideal 1) + x * (1 / 4)) * (ref 1 - ideal 1) = mu 1 + x / 4 * (ref 1 - ideal 1) := by
      field_simp; ring
    show pts j 1 ≤ ideal 1 + ((mu 1 - ideal 1) / (ref 1 - ideal 1) + x * (1 / 4)) * (ref 1 - ideal 1) ↔ _
    rw [this, sub_le_iff_le_add, add_comm]

theorem gaus_as_samples (pts : ℕ → ℕ → ℝ) (n : ℕ) (ideal ref mu : ℕ → ℝ) (h : ∀ d < 2, ideal d < ref d) (N : ℕ) (u : ℕ → ℝ) :
    whvHypeGaus streamRng Real.sqrt pts n ideal ref N u mu =
      whvHypeSample pts n ideal ref ((List.range N).map (fun s =>
        (((fun k : Fin 2 => (mu k - ideal k) / (ref k - ideal k) + u (2 * s) * (1 / 4)) 0), ((fun k : Fin 2 => (mu k - ideal k) / (ref k - ideal k) + u (2 * s) * (1 / 4)) 1)))) := by
  unfold whvHypeGaus gaussianSamples
  dsimp only
  rw [bivariateNormalFill_stream, normalise01_val (fun _ => mu) 1 ideal ref (by omega) (by omega) (h 0 (by omega)),
    normalise01_val (fun _ => mu) 1 ideal ref (by omega) (by omega) (h 1 (by omega))]
  congr 1
  refine List.map_congr_left (fun s _ => ?_)
  simp

/-- **C101 (value).**  For every sequence of numbers that the generator returns: the estimate is the area of the box times the fraction of
the samples `x` for which some point has a distance to the goal of at most `x / 4`.  Every second number is drawn and not used. -/
theorem C101_point_value (pts : ℕ → ℕ → ℝ) (n : ℕ) (ideal ref mu : ℕ → ℝ) (h : ∀ d < 2, ideal d < ref d) (N : ℕ) (u : ℕ → ℝ) :
    whvHypeGaus streamRng Real.sqrt pts n ideal ref N u mu =
      some ((ref 0 - ideal 0) * (ref 1 - ideal 1) *
        ((∑ s ∈ Finset.range N, {x : ℝ | ∃ j < n, goalDistance ideal ref mu (pts j) ≤ x / 4}.indicator 1 (u (2 * s))) / N)) := by
  rw [gaus_as_samples pts n ideal ref mu h, whvHypeSample_sum pts n ideal ref h N
    (fun s (k : Fin 2) => (mu k - ideal k) / (ref k - ideal k) + u (2 * s) * (1 / 4))]
  congr 3
  refine Finset.sum_congr rfl (fun s _ => ?_)
  have := hypeSet_goal pts n ideal ref mu h (u (2 * s))
  by_cases hm : ∃ j < n, goalDistance ideal ref mu (pts j) ≤ u (2 * s) / 4
  · rw [Set.indicator_of_mem (this.2 hm), Set.indicator_of_mem (s := {x : ℝ | ∃ j < n, goalDistance ideal ref mu (pts j) ≤ x / 4}) hm]; rfl
  · rw [Set.indicator_of_notMem (fun hh => hm (this.1 hh)), Set.indicator_of_notMem (s := {x : ℝ | ∃ j < n, goalDistance ideal ref mu (pts j) ≤ x / 4}) hm]

/-- **C101 (one number).**  The estimate depends on the set only through the smallest distance of its points to the goal: two sets with the same
smallest distance get the same estimate, whatever the random numbers. -/
theorem C101_point_one_number (A B : ℕ → ℕ → ℝ) (n m : ℕ) (ideal ref mu : ℕ → ℝ) (h : ∀ d < 2, ideal d < ref d)
    (hAB : ∀ i < n, ∃ j < m, goalDistance ideal ref mu (B j) ≤ goalDistance ideal ref mu (A i))
    (hBA : ∀ j < m, ∃ i < n, goalDistance ideal ref mu (A i) ≤ goalDistance ideal ref mu (B j)) (N : ℕ) (u : ℕ → ℝ) :
    whvHypeGaus streamRng Real.sqrt A n ideal ref N u mu = whvHypeGaus streamRng Real.sqrt B m ideal ref N u mu := by
  rw [C101_point_value A n ideal ref mu h, C101_point_value B m ideal ref mu h]
  have : {x : ℝ | ∃ j < n, goalDistance ideal ref mu (A j) ≤ x / 4} = {x : ℝ | ∃ j < m, goalDistance ideal ref mu (B j) ≤ x / 4} := by
    ext x
    constructor
    · rintro ⟨i, hi, e⟩; obtain ⟨j, hj, e'⟩ := hAB i hi; exact ⟨j, hj, e'.trans e⟩
    · rintro ⟨i, hi, e⟩; obtain ⟨j, hj, e'⟩ := hBA i hi; exact ⟨j, hj, e'.trans e⟩
  rw [this]

theorem measurableSet_goal (pts : ℕ → ℕ → ℝ) (n : ℕ) (ideal ref mu : ℕ → ℝ) :
    MeasurableSet {x : ℝ | ∃ j < n, goalDistance ideal ref mu (pts j) ≤ x / 4} := by
  have : {x : ℝ | ∃ j < n, goalDistance ideal ref mu (pts j) ≤ x / 4} = ⋃ j ∈ {j | j < n}, {x : ℝ | goalDistance ideal ref mu (pts j) ≤ x / 4} := by
    ext x; simp
  rw [this]
  exact MeasurableSet.biUnion (Set.to_countable _) (fun j _ => measurableSet_le measurable_const (by fun_prop))

section

variable {Ω : Type*} [MeasurableSpace Ω] (P : Measure Ω)

/-- **C101 (mean).**  With standard normal random numbers the expected value of the estimate is the area of the box times the probability that a
standard normal number is at least four times the distance of some point to the goal. -/
theorem C101_point_mean (pts : ℕ → ℕ → ℝ) (n : ℕ) (ideal ref mu : ℕ → ℝ) (h : ∀ d < 2, ideal d < ref d) (nsamples : ℕ) (hN : 0 < nsamples)
    (N : ℕ → Ω → ℝ) (hlaw : ∀ s < nsamples, HasLaw (N (2 * s)) (gaussianReal 0 1) P) :
    ∫ ω, (whvHypeGaus streamRng Real.sqrt pts n ideal ref nsamples (fun i => N i ω) mu).getD 0 ∂P =
      (ref 0 - ideal 0) * (ref 1 - ideal 1) * (gaussianReal 0 1).real {x | ∃ j < n, goalDistance ideal ref mu (pts j) ≤ x / 4} := by
  simp only [fun ω => C101_point_value pts n ideal ref mu h nsamples (fun i => N i ω), Option.getD_some]
  have hm := measurableSet_goal pts n ideal ref mu
  set D := {x : ℝ | ∃ j < n, goalDistance ideal ref mu (pts j) ≤ x / 4} with hD
  have hint : Integrable (D.indicator (1 : ℝ → ℝ)) (gaussianReal 0 1) := (integrable_const (1 : ℝ)).indicator hm
  have hI : ∀ s < nsamples, Integrable (fun ω => D.indicator (1 : ℝ → ℝ) (N (2 * s) ω)) P := by
    intro s hs
    have : Integrable (D.indicator (1 : ℝ → ℝ)) (P.map (N (2 * s))) := by rw [(hlaw s hs).map_eq]; exact hint
    exact this.comp_aemeasurable (hlaw s hs).aemeasurable
  rw [integral_const_mul, integral_div, integral_finsetSum _ (fun s hs => hI s (Finset.mem_range.mp hs))]
  congr 1
  have hE : ∀ s ∈ Finset.range nsamples, ∫ ω, D.indicator (1 : ℝ → ℝ) (N (2 * s) ω) ∂P = (gaussianReal 0 1).real D := fun s hs =>
    ((hlaw s (Finset.mem_range.mp hs)).integral_comp hint.aestronglyMeasurable).trans (integral_indicator_one hm)
  rw [Finset.sum_congr rfl hE, Finset.sum_const, Finset.card_range, nsmul_eq_mul, mul_div_cancel_left₀ _ (by exact_mod_cast hN.ne')]

/-- **C101 (convergence).**  With independent numbers the estimate converges to that value with probability one. -/
theorem C101_point_consistent (pts : ℕ → ℕ → ℝ) (n : ℕ) (ideal ref mu : ℕ → ℝ) (h : ∀ d < 2, ideal d < ref d)
    (N : ℕ → Ω → ℝ) (hlaw : ∀ s, HasLaw (N (2 * s)) (gaussianReal 0 1) P) (hind : Pairwise fun s t => IndepFun (N (2 * s)) (N (2 * t)) P) :
    ∀ᵐ ω ∂P, Tendsto (fun nsamples => (whvHypeGaus streamRng Real.sqrt pts n ideal ref nsamples (fun i => N i ω) mu).getD 0) atTop
      (𝓝 ((ref 0 - ideal 0) * (ref 1 - ideal 1) * (gaussianReal 0 1).real {x | ∃ j < n, goalDistance ideal ref mu (pts j) ≤ x / 4})) := by
  have hm := measurableSet_goal pts n ideal ref mu
  set D := {x : ℝ | ∃ j < n, goalDistance ideal ref mu (pts j) ≤ x / 4} with hD
  have hf : Measurable (D.indicator (1 : ℝ → ℝ)) := measurable_one.indicator hm
  have hint : Integrable (D.indicator (1 : ℝ → ℝ)) (gaussianReal 0 1) := (integrable_const (1 : ℝ)).indicator hm
  have hid : ∀ s, IdentDistrib (fun ω => D.indicator (1 : ℝ → ℝ) (N (2 * s) ω)) (fun ω => D.indicator (1 : ℝ → ℝ) (N (2 * 0) ω)) P P := by
    intro s
    have : IdentDistrib (N (2 * s)) (N (2 * 0)) P P :=
      ⟨(hlaw s).aemeasurable, (hlaw 0).aemeasurable, by rw [(hlaw s).map_eq, (hlaw 0).map_eq]⟩
    exact this.comp hf
  have hI0 : Integrable (fun ω => D.indicator (1 : ℝ → ℝ) (N (2 * 0) ω)) P := by
    have : Integrable (D.indicator (1 : ℝ → ℝ)) (P.map (N (2 * 0))) := by rw [(hlaw 0).map_eq]; exact hint
    exact this.comp_aemeasurable (hlaw 0).aemeasurable
  have hE : ∫ ω, D.indicator (1 : ℝ → ℝ) (N (2 * 0) ω) ∂P = (gaussianReal 0 1).real D :=
    ((hlaw 0).integral_comp hint.aestronglyMeasurable).trans (integral_indicator_one hm)
  have hslln := strong_law_ae_real (fun s ω => D.indicator (1 : ℝ → ℝ) (N (2 * s) ω)) hI0 (fun s t hst => (hind hst).comp hf hf) hid
  filter_upwards [hslln] with ω hlim
  rw [hE] at hlim
  have h2 := hlim.const_mul ((ref 0 - ideal 0) * (ref 1 - ideal 1))
  refine h2.congr (fun M => ?_)
  rw [C101_point_value pts n ideal ref mu h, Option.getD_some]

/-- **C101 (sampler).**  `rng_bivariate_normal_fill`, given two independent standard normal numbers per sample, returns pairs whose coordinates are normal
with the given means and standard deviations and whose covariance is `rho * sigma1 * sigma2`. -/
theorem C101_bivariate_normal_fill (mu1 mu2 s1 s2 rho : ℝ) (hrho : |rho| ≤ 1) (N : ℕ → Ω → ℝ) (s nsamples : ℕ) (hs : s < nsamples)
    (h1 : HasLaw (N (2 * s)) (gaussianReal 0 1) P) (h2 : HasLaw (N (2 * s + 1)) (gaussianReal 0 1) P) (hind : IndepFun (N (2 * s)) (N (2 * s + 1)) P) :
    let X : Ω → ℝ := fun ω => ((bivariateNormalFill streamRng Real.sqrt mu1 mu2 s1 s2 rho nsamples (fun i => N i ω)).getD s (0, 0)).1
    let Y : Ω → ℝ := fun ω => ((bivariateNormalFill streamRng Real.sqrt mu1 mu2 s1 s2 rho nsamples (fun i => N i ω)).getD s (0, 0)).2
    (∀ ω, (bivariateNormalFill streamRng Real.sqrt mu1 mu2 s1 s2 rho nsamples (fun i => N i ω)).length = nsamples) ∧
    HasLaw X (gaussianReal mu1 (NNReal.mk (s1 ^ 2) (sq_nonneg _))) P ∧ HasLaw Y (gaussianReal mu2 (NNReal.mk (s2 ^ 2) (sq_nonneg _))) P ∧ cov[X, Y; P] = rho * s1 * s2 := by
  intro X Y
  have := h1.isProbabilityMeasure
  have hX : X = fun ω => mu1 + N (2 * s) ω * s1 := by
    funext ω
    simp only [X, bivariateNormalFill_stream]
    simp [List.getD_eq_getElem?_getD, hs]
  have hY : Y = fun ω => mu2 + (N (2 * s) ω * (s2 * rho) + N (2 * s + 1) ω * (s2 * Real.sqrt (1 - rho * rho))) := by
    funext ω
    simp only [Y, bivariateNormalFill_stream]
    simp [List.getD_eq_getElem?_getD, hs]
    ring
  have hq : Real.sqrt (1 - rho * rho) ^ 2 = 1 - rho * rho := Real.sq_sqrt (by nlinarith [abs_le.1 hrho])
  refine ⟨fun ω => by rw [bivariateNormalFill_stream, List.length_map, List.length_range], ?_, ?_, ?_⟩
  · rw [hX]
    have := gaussianReal_const_add (gaussianReal_mul_const h1 s1) mu1
    refine ⟨this.aemeasurable, this.map_eq.trans ?_⟩
    congr 1
    · simp
    · apply NNReal.eq
      simp
  · rw [hY]
    have a := gaussianReal_mul_const h1 (s2 * rho)
    have b := gaussianReal_mul_const h2 (s2 * Real.sqrt (1 - rho * rho))
    have hi : IndepFun (fun ω => N (2 * s) ω * (s2 * rho)) (fun ω => N (2 * s + 1) ω * (s2 * Real.sqrt (1 - rho * rho))) P :=
      hind.comp (measurable_id.mul_const _) (measurable_id.mul_const _)
    have c := gaussianReal_add_gaussianReal_of_indepFun hi a.map_eq b.map_eq
    have hc : HasLaw (fun ω => N (2 * s) ω * (s2 * rho) + N (2 * s + 1) ω * (s2 * Real.sqrt (1 - rho * rho))) (gaussianReal (s2 * rho * 0 + s2 * Real.sqrt (1 - rho * rho) * 0) _) P :=
      ⟨a.aemeasurable.add b.aemeasurable, c⟩
    have := gaussianReal_const_add hc mu2
    refine ⟨this.aemeasurable, this.map_eq.trans ?_⟩
    congr 1
    · simp
    · apply NNReal.eq
      simp only [NNReal.coe_add, NNReal.coe_mul, NNReal.coe_mk, NNReal.coe_one]
      rw [mul_pow, mul_pow, hq]; ring
  · have m1 : MemLp (N (2 * s)) 2 P := by
      have := (memLp_id_gaussianReal (μ := 0) (v := 1) 2)
      rw [← h1.map_eq] at this
      exact (memLp_map_measure_iff aestronglyMeasurable_id h1.aemeasurable).1 this
    have m2 : MemLp (N (2 * s + 1)) 2 P := by
      have := (memLp_id_gaussianReal (μ := 0) (v := 1) 2)
      rw [← h2.map_eq] at this
      exact (memLp_map_measure_iff aestronglyMeasurable_id h2.aemeasurable).1 this
    have m3 : MemLp (fun ω => N (2 * s) ω * (s2 * rho)) 2 P := m1.mul_const _
    have m4 : MemLp (fun ω => N (2 * s + 1) ω * (s2 * Real.sqrt (1 - rho * rho))) 2 P := m2.mul_const _
    have hv : cov[N (2 * s), N (2 * s); P] = 1 := by
      rw [covariance_self h1.aemeasurable, h1.variance_eq, variance_id_gaussianReal]; rfl
    have hz : cov[N (2 * s), N (2 * s + 1); P] = 0 := hind.covariance_eq_zero m1 m2
    rw [hX, hY, covariance_const_add_left ((m1.mul_const _).integrable (by norm_num)),
      covariance_const_add_right (show Integrable (fun ω => N (2 * s) ω * (s2 * rho) + N (2 * s + 1) ω * (s2 * Real.sqrt (1 - rho * rho))) P from
        (m3.add m4).integrable (by norm_num))]
    have := covariance_add_right (X := fun ω => N (2 * s) ω * s1) (m1.mul_const _) m3 m4
    refine Eq.trans this ?_
    rw [covariance_mul_const_left, covariance_mul_const_right, covariance_mul_const_left, covariance_mul_const_right, hv, hz]
    ring

/-- **C101 is false for the documented weight.**  The documentation promises a hypervolume weighted by a multivariate normal distribution centred at
the goal.  For no box and no goal is there a weight with this property that is positive on open sets (as every non-degenerate normal distribution is): the limit of
the estimate is not the weight of the dominated region. -/
theorem C101_false_point_weight (ideal ref mu : ℕ → ℝ) (h : ∀ d < 2, ideal d < ref d) :
    ¬ ∃ ν : Measure (Fin 2 → ℝ), IsFiniteMeasure ν ∧ ν.IsOpenPosMeasure ∧ ∀ (pts : ℕ → ℕ → ℝ) (n : ℕ),
      (ref 0 - ideal 0) * (ref 1 - ideal 1) * (gaussianReal 0 1).real {x | ∃ j < n, goalDistance ideal ref mu (pts j) ≤ x / 4} =
        ν.real {y | ∃ i < n, ∀ k : Fin 2, pts i k ≤ y k} := by
  rintro ⟨ν, hfin, hpos, hall⟩
  have e0 := sub_pos.2 (h 0 (by omega))
  have e1 := sub_pos.2 (h 1 (by omega))
  let pts : ℕ → ℕ → ℝ := fun i k => if i = 0 then mu k else if k = 0 then mu 0 - (ref 0 - ideal 0) else mu 1 + (ref 1 - ideal 1)
  have hsame : {x : ℝ | ∃ j < 1, goalDistance ideal ref mu (pts j) ≤ x / 4} = {x : ℝ | ∃ j < 2, goalDistance ideal ref mu (pts j) ≤ x / 4} := by
    have d0 : goalDistance ideal ref mu (pts 0) = 0 := by simp [goalDistance, pts]
    have d1 : goalDistance ideal ref mu (pts 1) = 1 := by
      have a0 : ref 0 - ideal 0 ≠ 0 := e0.ne'
      have a1 : ref 1 - ideal 1 ≠ 0 := e1.ne'
      have r0 : (pts 1 0 - mu 0) / (ref 0 - ideal 0) = -1 := by simp only [pts]; norm_num; field_simp; ring
      have r1 : (pts 1 1 - mu 1) / (ref 1 - ideal 1) = 1 := by simp only [pts]; norm_num; exact a1
      unfold goalDistance
      rw [r0, r1]; norm_num
    ext x
    constructor
    · rintro ⟨j, hj, e⟩; exact ⟨j, by omega, e⟩
    · rintro ⟨j, hj, e⟩
      refine ⟨0, by omega, ?_⟩
      rw [d0]
      interval_cases j
      · rwa [d0] at e
      · rw [d1] at e; linarith
  have h1 := hall pts 1
  have h2 := hall pts 2
  rw [hsame, h2] at h1
  let O : Set (Fin 2 → ℝ) := {y | mu 0 - (ref 0 - ideal 0) < y 0 ∧ y 0 < mu 0 ∧ mu 1 + (ref 1 - ideal 1) < y 1}
  have hO : IsOpen O :=
    (isOpen_lt continuous_const (continuous_apply 0)).inter ((isOpen_lt (continuous_apply 0) continuous_const).inter (isOpen_lt continuous_const (continuous_apply 1)))
  have hne : O.Nonempty := ⟨fun k => if k = 0 then mu 0 - (ref 0 - ideal 0) / 2 else mu 1 + (ref 1 - ideal 1) + 1, by
    simp only [O, Set.mem_ofPred_eq]; norm_num; linarith⟩
  have hp : 0 < ν.real O := by
    rw [Measure.real, ENNReal.toReal_pos_iff]
    exact ⟨hO.measure_pos ν hne, measure_lt_top ν O⟩
  have hdisj : Disjoint {y : Fin 2 → ℝ | ∃ i < 1, ∀ k : Fin 2, pts i k ≤ y k} O := by
    rw [Set.disjoint_left]
    rintro y ⟨i, hi, hk⟩ ⟨_, b, _⟩
    obtain rfl : i = 0 := by omega
    have := hk 0
    simp only [pts] at this
    exact absurd this (not_le.2 b)
  have hsub : {y : Fin 2 → ℝ | ∃ i < 1, ∀ k : Fin 2, pts i k ≤ y k} ∪ O ⊆ {y : Fin 2 → ℝ | ∃ i < 2, ∀ k : Fin 2, pts i k ≤ y k} := by
    rintro y (⟨i, hi, hk⟩ | ⟨a, b, c⟩)
    · exact ⟨i, by omega, hk⟩
    · refine ⟨1, by omega, fun k => ?_⟩
      fin_cases k
      · simp only [pts]; norm_num; linarith
      · simp only [pts]; norm_num; linarith
  have hle := measureReal_mono hsub (μ := ν)
  rw [measureReal_union hdisj hO.measurableSet] at hle
  linarith

/-- Every non-degenerate product of normal distributions is a weight that `C101_false_point_weight` excludes. -/
example (m : Fin 2 → ℝ) (v : Fin 2 → ℝ≥0) (hv : ∀ k, v k ≠ 0) :
    IsFiniteMeasure (Measure.pi fun k => gaussianReal (m k) (v k)) ∧ (Measure.pi fun k => gaussianReal (m k) (v k)).IsOpenPosMeasure := by
  have : ∀ k, (gaussianReal (m k) (v k)).IsOpenPosMeasure := fun k => (gaussianReal_absolutelyContinuous' (m k) (hv k)).isOpenPosMeasure
  exact ⟨inferInstance, inferInstance⟩

end

/-- The hypotheses of the mean are met: the box from (1, 1) to (4, 4), the goal (2.9, 0.9) of the documentation, and independent standard normal numbers. -/
example : (∀ d < 2, (fun _ : ℕ => (1 : ℝ)) d < (fun _ : ℕ => 4) d) ∧
    ∃ (Ω : Type) (_ : MeasurableSpace Ω) (P : Measure Ω) (N : ℕ → Ω → ℝ), (∀ s, HasLaw (N s) (gaussianReal 0 1) P) ∧ iIndepFun N P := by
  refine ⟨fun d _ => by norm_num, ℕ → ℝ, inferInstance, Measure.infinitePi (fun _ => gaussianReal 0 1), fun i ω => ω i, fun s => ?_, ?_⟩
  · exact ⟨(measurable_pi_apply s).aemeasurable, Measure.infinitePi_map_eval _ s⟩
  · exact iIndepFun_infinitePi (fun _ => measurable_id)

/-- The two sets of `C101_point_one_number`: the point (3, 1) is at distance 1/30 from the goal of the documentation; adding (1, 3.9) does not change the estimate. -/
example (N : ℕ) (u : ℕ → ℝ) :
    whvHypeGaus streamRng Real.sqrt (fun _ k => if k = 0 then 3 else 1) 1 (fun _ => 1) (fun _ => 4) N u (fun k => if k = 0 then 2.9 else 0.9) =
    whvHypeGaus streamRng Real.sqrt (fun i k => if i = 0 then (if k = 0 then 3 else 1) else (if k = 0 then 1 else 3.9)) 2 (fun _ => 1) (fun _ => 4) N u
      (fun k => if k = 0 then 2.9 else 0.9) := by
  refine C101_point_one_number _ _ _ _ _ _ _ (fun d _ => by norm_num) (fun i hi => ⟨0, by omega, by simp⟩) (fun j hj => ⟨0, by omega, ?_⟩) N u
  interval_cases j
  · simp
  · norm_num [goalDistance]

end Moo
