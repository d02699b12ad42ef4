import Mathlib.MeasureTheory.Constructions.HaarToSphere
import Mathlib.MeasureTheory.Measure.Lebesgue.VolumeOfBalls
import Mathlib.MeasureTheory.Measure.Haar.OfBasis
import Mathlib.MeasureTheory.Measure.Haar.InnerProductSpace
import Mathlib.MeasureTheory.Integral.Pi
import Mathlib.Probability.Distributions.Gaussian.Real

/-!
# Volumes of star-shaped sets as expectations over the direction of a standard normal vector
-/

set_option autoImplicit false

namespace Moo

open MeasureTheory MeasureTheory.Measure ProbabilityTheory
open scoped ENNReal

section Polar

variable {E : Type*} [NormedAddCommGroup E] [NormedSpace ℝ E] [MeasurableSpace E] [BorelSpace E] [FiniteDimensional ℝ E] [Nontrivial E]
  (μ : Measure E) [μ.IsAddHaarMeasure]

theorem lintegral_polar (g : E → ℝ≥0∞) (hg : Measurable g) :
    ∫⁻ x, g x ∂μ = ∫⁻ w : Metric.sphere (0 : E) 1, ∫⁻ r : Set.Ioi (0 : ℝ), g ((r : ℝ) • (w : E))
      ∂(volumeIoiPow (Module.finrank ℝ E - 1)) ∂μ.toSphere := by
  have h0 := μ.measurePreserving_homeomorphUnitSphereProd
  have h1 : ∫⁻ x, g x ∂μ = ∫⁻ x : ({0}ᶜ : Set E), g x ∂(μ.comap (↑)) := by
    rw [lintegral_subtype_comap (measurableSet_singleton _).compl g, restrict_compl_singleton]
  have hs := h0.symm (homeomorphUnitSphereProd E).toMeasurableEquiv
  rw [h1, ← hs.lintegral_comp_emb (MeasurableEquiv.measurableEmbedding _), lintegral_prod]
  · rfl
  · exact ((hg.comp measurable_subtype_coe).comp (MeasurableEquiv.measurable _)).aemeasurable

/-- The radial measure does not charge points, so closed and open segments are the same. -/
theorem volumeIoiPow_Iio (n : ℕ) (x : ℝ) (hx : 0 ≤ x) :
    volumeIoiPow n {r | (r : ℝ) < x} = ENNReal.ofReal (x ^ (n + 1) / (n + 1)) := by
  rcases hx.eq_or_lt with h | h
  · subst h
    have : {r : Set.Ioi (0 : ℝ) | (r : ℝ) < 0} = ∅ := by
      ext r; simp only [Set.mem_ofPred_eq, Set.mem_empty_iff_false, iff_false, not_lt]; exact le_of_lt r.2
    rw [this]; simp
  · exact volumeIoiPow_apply_Iio n ⟨x, h⟩

/-- The volume of the star-shaped set with radius `ρ`, which depends on the direction only. -/
theorem volume_star (ρ : E → ℝ) (hm : Measurable ρ) (h0 : ∀ x, 0 ≤ ρ x) (hh : ∀ (r : ℝ) (x : E), 0 < r → ρ (r • x) = ρ x) :
    μ {x | ‖x‖ < ρ x} = (∫⁻ w : Metric.sphere (0 : E) 1, ENNReal.ofReal (ρ w) ^ Module.finrank ℝ E ∂μ.toSphere) / Module.finrank ℝ E := by
  have hS : MeasurableSet {x | ‖x‖ < ρ x} := measurableSet_lt measurable_norm hm
  have hd : 0 < Module.finrank ℝ E := Module.finrank_pos
  rw [← lintegral_indicator_one hS, lintegral_polar μ _ (measurable_one.indicator hS), ENNReal.div_eq_inv_mul,
    ← lintegral_const_mul']
  · refine lintegral_congr (fun w => ?_)
    have : ∀ r : Set.Ioi (0 : ℝ), {x : E | ‖x‖ < ρ x}.indicator (1 : E → ℝ≥0∞) ((r : ℝ) • (w : E))
        = {r : Set.Ioi (0 : ℝ) | (r : ℝ) < ρ w}.indicator 1 r := by
      intro r
      have hr : (0 : ℝ) < r := r.2
      have hw : ‖(w : E)‖ = 1 := by simp
      simp only [Set.indicator, Set.mem_ofPred_eq, norm_smul, hw, mul_one, hh _ _ hr, Real.norm_eq_abs, abs_of_pos hr, Pi.one_apply]
    simp only [this]
    rw [lintegral_indicator_one (measurableSet_lt measurable_subtype_coe measurable_const), volumeIoiPow_Iio _ _ (h0 _),
      Nat.sub_add_cancel hd, Nat.cast_sub (by omega : 1 ≤ Module.finrank ℝ E), Nat.cast_one, sub_add_cancel,
      ENNReal.ofReal_div_of_pos (by exact_mod_cast hd), ENNReal.ofReal_pow (h0 _), ENNReal.ofReal_natCast, ENNReal.div_eq_inv_mul]
  · exact ENNReal.inv_ne_top.mpr (by exact_mod_cast hd.ne')

/-- A measure whose density depends on the norm only: the expectation of a function of the direction is its mean over the sphere. -/
theorem lintegral_radial (h : ℝ → ℝ≥0∞) (hm : Measurable h) (f : E → ℝ≥0∞) (hf : Measurable f)
    (hh : ∀ (r : ℝ) (x : E), 0 < r → f (r • x) = f x) :
    ∫⁻ x, h ‖x‖ * f x ∂μ = (∫⁻ r : Set.Ioi (0 : ℝ), h r ∂(volumeIoiPow (Module.finrank ℝ E - 1))) *
      ∫⁻ w : Metric.sphere (0 : E) 1, f w ∂μ.toSphere := by
  rw [lintegral_polar μ (fun x => h ‖x‖ * f x) ((hm.comp measurable_norm).mul hf), ← lintegral_const_mul _ (f := fun w : Metric.sphere (0 : E) 1 => f w)
    (hf.comp measurable_subtype_coe)]
  refine lintegral_congr (fun w => ?_)
  rw [← lintegral_mul_const _ (f := fun r : Set.Ioi (0 : ℝ) => h r) (hm.comp measurable_subtype_coe)]
  refine lintegral_congr (fun r => ?_)
  have hr : (0 : ℝ) < r := r.2
  have hw : ‖(w : E)‖ = 1 := by simp
  simp only [norm_smul, hw, mul_one, hh _ _ hr, Real.norm_eq_abs, abs_of_pos hr]

/-- The same for the volume of a star-shaped set: it is the expectation of the `d`-th power of the radius, times the volume of the ball. -/
theorem volume_star_eq_radial (h : ℝ → ℝ≥0∞) (hm : Measurable h) (h1 : ∫⁻ x, h ‖x‖ ∂μ = 1)
    (ρ : E → ℝ) (hρ : Measurable ρ) (h0 : ∀ x, 0 ≤ ρ x) (hh : ∀ (r : ℝ) (x : E), 0 < r → ρ (r • x) = ρ x) :
    μ {x | ‖x‖ < ρ x} = μ (Metric.ball 0 1) * ∫⁻ x, h ‖x‖ * ENNReal.ofReal (ρ x) ^ Module.finrank ℝ E ∂μ := by
  have hd : 0 < Module.finrank ℝ E := Module.finrank_pos
  have e1 := lintegral_radial μ h hm (fun _ => 1) measurable_const (fun _ _ _ => rfl)
  simp only [mul_one] at e1
  rw [h1, lintegral_const, one_mul, toSphere_apply_univ] at e1
  rw [volume_star μ ρ hρ h0 hh, lintegral_radial μ h hm (fun x => ENNReal.ofReal (ρ x) ^ Module.finrank ℝ E)
    ((ENNReal.measurable_ofReal.comp hρ).pow_const _) (fun r x hr => by simp only [hh r x hr])]
  set I := ∫⁻ w : Metric.sphere (0 : E) 1, ENNReal.ofReal (ρ w) ^ Module.finrank ℝ E ∂μ.toSphere
  set H := ∫⁻ r : Set.Ioi (0 : ℝ), h r ∂(volumeIoiPow (Module.finrank ℝ E - 1))
  have hdn : (Module.finrank ℝ E : ℝ≥0∞) ≠ 0 := by exact_mod_cast hd.ne'
  have : μ (Metric.ball 0 1) * (H * I) = (μ (Metric.ball 0 1) * H) * I := by ring
  rw [this, ENNReal.div_eq_inv_mul]
  congr 1
  symm
  apply ENNReal.eq_inv_of_mul_eq_one_left
  rw [e1]; ring

end Polar

/-- The standard normal distribution of `m` independent coordinates. -/
noncomputable def stdNormal (m : ℕ) : Measure (Fin m → ℝ) := Measure.pi (fun _ => gaussianReal 0 1)

/-- Its density is a function of the Euclidean norm. -/
theorem stdNormal_density (m : ℕ) :
    stdNormal m = volume.withDensity (fun z : Fin m → ℝ => ENNReal.ofReal ((√(2 * Real.pi))⁻¹ ^ m * Real.exp (-(∑ k, z k ^ 2) / 2))) := by
  unfold stdNormal
  symm
  have hv : (gaussianReal 0 1) = volume.withDensity (gaussianPDF 0 1) := gaussianReal_of_var_ne_zero 0 one_ne_zero
  have hd : ∀ z : Fin m → ℝ, ENNReal.ofReal ((√(2 * Real.pi))⁻¹ ^ m * Real.exp (-(∑ k, z k ^ 2) / 2)) = ∏ k, gaussianPDF 0 1 (z k) := by
    intro z
    simp only [gaussianPDF, gaussianPDFReal]
    rw [← ENNReal.ofReal_prod_of_nonneg (fun k _ => by positivity), Finset.prod_mul_distrib, ← Real.exp_sum]
    simp [Finset.sum_neg_distrib, Finset.sum_div, neg_div]
  simp only [hd]
  refine (Measure.pi_eq (fun s hs => ?_)).symm
  have hG : ∀ k, Integrable ((s k).indicator (gaussianPDFReal 0 1)) := fun k => (integrable_gaussianPDFReal 0 1).indicator (hs k)
  have hG0 : ∀ k x, 0 ≤ (s k).indicator (gaussianPDFReal 0 1) x := fun k x => Set.indicator_nonneg (fun y _ => gaussianPDFReal_nonneg 0 1 y) x
  have hm : Measurable (fun z : Fin m → ℝ => ∏ k, gaussianPDF 0 1 (z k)) :=
    Finset.measurable_prod _ (fun k _ => (measurable_gaussianPDF 0 1).comp (measurable_pi_apply k))
  rw [withDensity_apply _ (MeasurableSet.univ_pi hs), ← lintegral_indicator (MeasurableSet.univ_pi hs)]
  have e1 : ∀ z : Fin m → ℝ, (Set.univ.pi s).indicator (fun z => ∏ k, gaussianPDF 0 1 (z k)) z
      = ENNReal.ofReal (∏ k, (s k).indicator (gaussianPDFReal 0 1) (z k)) := by
    intro z
    rw [ENNReal.ofReal_prod_of_nonneg (fun k _ => hG0 k _)]
    by_cases h : z ∈ Set.univ.pi s
    · rw [Set.indicator_of_mem h]
      refine Finset.prod_congr rfl (fun k _ => ?_)
      rw [Set.indicator_of_mem (h k (Set.mem_univ k))]; rfl
    · rw [Set.indicator_of_notMem h]
      simp only [Set.mem_univ_pi, not_forall] at h
      obtain ⟨k, hk⟩ := h
      symm
      refine Finset.prod_eq_zero (Finset.mem_univ k) ?_
      rw [Set.indicator_of_notMem hk]; simp
  simp only [e1]
  have hGi : Integrable (fun z : Fin m → ℝ => ∏ k, (s k).indicator (gaussianPDFReal 0 1) (z k)) volume := Integrable.fintype_prod hG
  rw [← ofReal_integral_eq_lintegral_ofReal hGi
      (Filter.Eventually.of_forall (fun z => Finset.prod_nonneg (fun k _ => hG0 k _))),
    integral_fintype_prod_volume_eq_prod, ENNReal.ofReal_prod_of_nonneg (fun k _ => integral_nonneg (hG0 k))]
  refine Finset.prod_congr rfl (fun k _ => ?_)
  rw [ofReal_integral_eq_lintegral_ofReal (hG k) (Filter.Eventually.of_forall (hG0 k)), hv, withDensity_apply _ (hs k),
    ← lintegral_indicator (hs k)]
  refine lintegral_congr (fun x => ?_)
  by_cases h : x ∈ s k
  · simp [h, gaussianPDF]
  · simp [h]


/-- **Star-shaped sets.**  For a radius `ρ` that depends on the direction only, the volume of the points closer to the origin than `ρ` is the
volume of the unit ball times the mean of `ρ ^ m` over a standard normal vector. -/
theorem volume_star_normal (m : ℕ) (hm : 0 < m) (ρ : (Fin m → ℝ) → ℝ) (hρ : Measurable ρ) (h0 : ∀ x, 0 ≤ ρ x)
    (hh : ∀ (r : ℝ) (x : Fin m → ℝ), 0 < r → ρ (r • x) = ρ x) :
    volume {x : Fin m → ℝ | √(∑ k, x k ^ 2) < ρ x} =
      ENNReal.ofReal (√Real.pi ^ m / Real.Gamma (m / 2 + 1)) * ∫⁻ z, ENNReal.ofReal (ρ z) ^ m ∂(stdNormal m) := by
  have : Nonempty (Fin m) := ⟨⟨0, hm⟩⟩
  have hto := PiLp.volume_preserving_ofLp (Fin m)
  have hfun : ∀ x : EuclideanSpace ℝ (Fin m), ‖x‖ = √(∑ k, (x.ofLp k) ^ 2) := by
    intro x; rw [EuclideanSpace.norm_eq]; simp
  set c : ℝ := (√(2 * Real.pi))⁻¹ ^ m with hc
  set h : ℝ → ℝ≥0∞ := fun t => ENNReal.ofReal (c * Real.exp (-(t ^ 2) / 2)) with hhdef
  have hhm : Measurable h := by
    refine ENNReal.measurable_ofReal.comp ?_
    fun_prop
  have hsq : ∀ x : EuclideanSpace ℝ (Fin m), h ‖x‖ = ENNReal.ofReal (c * Real.exp (-(∑ k, (x.ofLp k) ^ 2) / 2)) := by
    intro x
    simp only [hhdef]
    rw [hfun x, Real.sq_sqrt (Finset.sum_nonneg (fun k _ => sq_nonneg _))]
  have hdm : Measurable (fun z : Fin m → ℝ => ENNReal.ofReal (c * Real.exp (-(∑ k, z k ^ 2) / 2))) := by
    refine ENNReal.measurable_ofReal.comp ?_
    fun_prop
  have h1 : ∫⁻ x : EuclideanSpace ℝ (Fin m), h ‖x‖ = 1 := by
    simp only [hsq]
    rw [hto.lintegral_comp (f := fun z : Fin m → ℝ => ENNReal.ofReal (c * Real.exp (-(∑ k, z k ^ 2) / 2))) hdm]
    have : (stdNormal m) Set.univ = 1 := by
      unfold stdNormal; exact measure_univ
    rw [stdNormal_density, withDensity_apply _ MeasurableSet.univ, Measure.restrict_univ] at this
    exact this
  have key := volume_star_eq_radial (volume : Measure (EuclideanSpace ℝ (Fin m))) h hhm h1 (fun x => ρ x.ofLp)
    (hρ.comp hto.measurable) (fun x => h0 _) (fun r x hr => hh r _ hr)
  have hset : MeasurableSet {x : Fin m → ℝ | √(∑ k, x k ^ 2) < ρ x} := measurableSet_lt (by fun_prop) hρ
  rw [← hto.measure_preimage hset.nullMeasurableSet]
  have : (WithLp.ofLp ⁻¹' {x : Fin m → ℝ | √(∑ k, x k ^ 2) < ρ x}) = {x : EuclideanSpace ℝ (Fin m) | ‖x‖ < ρ x.ofLp} := by
    ext x; simp only [Set.mem_preimage, Set.mem_ofPred_eq, hfun x]
  rw [this, key, EuclideanSpace.volume_ball]
  simp only [ENNReal.ofReal_one, one_pow, one_mul, Fintype.card_fin, finrank_euclideanSpace, hsq]
  congr 1
  rw [hto.lintegral_comp (f := fun z : Fin m → ℝ => ENNReal.ofReal (c * Real.exp (-(∑ k, z k ^ 2) / 2)) * ENNReal.ofReal (ρ z) ^ m)
    (hdm.mul ((ENNReal.measurable_ofReal.comp hρ).pow_const _)), stdNormal_density,
    lintegral_withDensity_eq_lintegral_mul _ hdm (g := fun z => ENNReal.ofReal (ρ z) ^ m) ((ENNReal.measurable_ofReal.comp hρ).pow_const _)]
  rfl

/-- Taking absolute values maps the volume to `2 ^ m` times the volume of the positive orthant. -/
theorem volume_abs_preimage (m : ℕ) (D : Set (Fin m → ℝ)) (hD : MeasurableSet D) :
    volume {x : Fin m → ℝ | (fun k => |x k|) ∈ D} = 2 ^ m * volume (D ∩ Set.univ.pi (fun _ => Set.Ici (0 : ℝ))) := by
  have habs : Measurable (fun x : ℝ => |x|) := measurable_norm
  have hν : ∀ s : Set ℝ, MeasurableSet s → (volume.map (fun x : ℝ => |x|)) s = 2 * (volume.restrict (Set.Ici (0 : ℝ))) s := by
    intro s hs
    rw [Measure.map_apply habs hs, Measure.restrict_apply hs]
    have h1 : (fun x : ℝ => |x|) ⁻¹' s = (s ∩ Set.Ici 0) ∪ (Neg.neg ⁻¹' (s ∩ Set.Ioi 0)) := by
      ext x
      simp only [Set.mem_preimage, Set.mem_union, Set.mem_inter_iff, Set.mem_Ici, Set.mem_Ioi]
      rcases le_or_gt 0 x with h | h
      · rw [abs_of_nonneg h]; constructor
        · intro hx; exact Or.inl ⟨hx, h⟩
        · rintro (hx | hx)
          · exact hx.1
          · exfalso; linarith [hx.2]
      · rw [abs_of_neg h]; constructor
        · intro hx; exact Or.inr ⟨hx, by linarith⟩
        · rintro (hx | hx)
          · exfalso; linarith [hx.2]
          · exact hx.1
    have h2 : Disjoint (s ∩ Set.Ici 0) (Neg.neg ⁻¹' (s ∩ Set.Ioi (0 : ℝ))) := by
      rw [Set.disjoint_left]
      rintro x ⟨_, hx⟩ ⟨_, hy⟩
      simp only [Set.mem_Ici, Set.mem_Ioi] at hx hy
      linarith
    rw [h1, measure_union h2 ((hs.inter measurableSet_Ioi).preimage measurable_neg), Measure.measure_preimage_neg, two_mul]
    congr 1
    refine measure_congr ?_
    exact Filter.EventuallyEq.inter (Filter.EventuallyEq.refl _ _) Ioi_ae_eq_Ici
  have hsf : SigmaFinite (volume.map (fun x : ℝ => |x|)) := by
    have : volume.map (fun x : ℝ => |x|) = (2 : ℝ≥0∞) • volume.restrict (Set.Ici (0 : ℝ)) := by
      ext s hs; rw [hν s hs]; simp
    rw [this]
    have : (2 : ℝ≥0∞) • volume.restrict (Set.Ici (0 : ℝ)) = (2 : NNReal) • volume.restrict (Set.Ici (0 : ℝ)) := rfl
    rw [this]; infer_instance
  have hmap : (volume : Measure (Fin m → ℝ)).map (fun x k => |x k|) = Measure.pi (fun _ => volume.map (fun x : ℝ => |x|)) :=
    Measure.pi_map_pi (fun _ => habs.aemeasurable)
  have hpi : Measure.pi (fun _ : Fin m => volume.map (fun x : ℝ => |x|))
      = (2 : ℝ≥0∞) ^ m • (volume : Measure (Fin m → ℝ)).restrict (Set.univ.pi (fun _ => Set.Ici (0 : ℝ))) := by
    refine Measure.pi_eq (fun s hs => ?_)
    have : (volume : Measure (Fin m → ℝ)).restrict (Set.univ.pi (fun _ => Set.Ici (0 : ℝ)))
        = Measure.pi (fun _ => volume.restrict (Set.Ici (0 : ℝ))) := Measure.restrict_pi_pi _ _
    rw [this, Measure.smul_apply, Measure.pi_pi]
    simp only [hν _ (hs _), Finset.prod_mul_distrib, Finset.prod_const, Finset.card_univ, Fintype.card_fin, smul_eq_mul]
  have hm' : Measurable (fun (x : Fin m → ℝ) (k : Fin m) => |x k|) := by fun_prop
  have : {x : Fin m → ℝ | (fun k => |x k|) ∈ D} = (fun (x : Fin m → ℝ) (k : Fin m) => |x k|) ⁻¹' D := rfl
  rw [this, ← Measure.map_apply hm' hD, hmap, hpi, Measure.smul_apply, Measure.restrict_apply hD, smul_eq_mul]

end Moo
