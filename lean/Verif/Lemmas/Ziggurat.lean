import Verif.Model.Ziggurat
import Verif.Lemmas.Reject
import Verif.Props.WhvHypeMean
import Mathlib.Probability.Distributions.Gaussian.Real
import Mathlib.MeasureTheory.Measure.Lebesgue.Basic
import Mathlib.MeasureTheory.Group.LIntegral
import Mathlib.Probability.UniformOn

set_option autoImplicit false
set_option linter.unusedSectionVars false

/-!
# Lemmas about the ziggurat method
-/

namespace Moo

open MeasureTheory ProbabilityTheory Set

/-- The uniform distribution on the unit interval. -/
noncomputable abbrev unif01 : Measure ℝ := volume.restrict (Icc (0 : ℝ) 1)

instance isProbabilityMeasure_unif01 : IsProbabilityMeasure unif01 := ⟨by simp⟩

/-- The density of the standard normal distribution, up to a factor. -/
noncomputable def bell (x : ℝ) : ℝ := Real.exp (-0.5 * x * x)

theorem bell_pos (x : ℝ) : 0 < bell x := Real.exp_pos _

theorem bell_neg (x : ℝ) : bell (-x) = bell x := by unfold bell; congr 1; ring

theorem measurable_bell : Measurable bell := by unfold bell; fun_prop

theorem bell_le_iff {x y : ℝ} (hx : 0 ≤ x) (hy : 0 ≤ y) : bell x ≤ bell y ↔ y ≤ x := by
  unfold bell
  rw [Real.exp_le_exp]
  constructor
  · intro h
    by_contra hc
    push Not at hc
    nlinarith
  · intro h
    nlinarith

theorem bell_eq (x : ℝ) : bell x = Real.exp (-x ^ 2 / 2) := by unfold bell; congr 1; ring

/-! ## Scaling -/

theorem lintegral_unif_scale (w : ℝ) (hw : 0 < w) (g : ℝ → ENNReal) (hg : Measurable g) :
    ∫⁻ u, g (u * w) ∂unif01 = ENNReal.ofReal w⁻¹ * ∫⁻ x in Icc 0 w, g x := by
  have h1 : ∫⁻ u, g (u * w) ∂unif01 = ∫⁻ u, (Icc (0 : ℝ) w).indicator g (u * w) := by
    rw [← lintegral_indicator measurableSet_Icc]
    congr 1
    funext u
    by_cases hu : u ∈ Icc (0 : ℝ) 1
    · rw [indicator_of_mem hu, indicator_of_mem]
      exact ⟨mul_nonneg hu.1 hw.le, by nlinarith [hu.2]⟩
    · rw [indicator_of_notMem hu, indicator_of_notMem]
      rintro ⟨a, b⟩
      exact hu ⟨nonneg_of_mul_nonneg_left a hw, by
        by_contra hc
        push Not at hc
        nlinarith⟩
  rw [h1, ← lintegral_map (hg.indicator measurableSet_Icc) (by fun_prop : Measurable fun u : ℝ => u * w),
    Real.map_volume_mul_right hw.ne', lintegral_smul_measure, lintegral_indicator measurableSet_Icc, abs_of_pos (inv_pos.2 hw)]
  rfl

theorem unif_lt (δ f F : ℝ) (hδ : 0 < δ) (h1 : F - f ≤ δ) :
    unif01 {v | δ * v + f < F} = ENNReal.ofReal ((F - f) / δ) := by
  have : {v | δ * v + f < F} ∩ Icc (0 : ℝ) 1 = Ico 0 ((F - f) / δ) := by
    ext v
    constructor
    · rintro ⟨a, b⟩
      refine ⟨b.1, ?_⟩
      rw [lt_div_iff₀ hδ]
      have : δ * v + f < F := a
      linarith
    · rintro ⟨a, b⟩
      have hb := b
      rw [lt_div_iff₀ hδ] at b
      refine ⟨?_, a, ?_⟩
      · show δ * v + f < F
        linarith
      · exact hb.le.trans ((div_le_one hδ).2 h1)
  rw [Measure.restrict_apply (measurableSet_lt (by fun_prop) measurable_const), this, Real.volume_Ico, sub_zero]

/-! ## A layer -/

/-- What a pass with index `idx ≠ 0` accepts, without the sign. -/
def layerSet (w k f' f : ℝ) (C : Set ℝ) : Set (ℝ × ℝ) :=
  {p | (p.1 < k ∧ p.1 * w ∈ C) ∨ (¬ p.1 < k ∧ (f' - f) * p.2 + f < bell (p.1 * w) ∧ p.1 * w ∈ C)}

theorem measurableSet_layerSet (w k f' f : ℝ) (C : Set ℝ) (hC : MeasurableSet C) : MeasurableSet (layerSet w k f' f C) := by
  have hmul : Measurable fun p : ℝ × ℝ => p.1 * w := by fun_prop
  have e : layerSet w k f' f C = ({p | p.1 < k} ∩ (fun p : ℝ × ℝ => p.1 * w) ⁻¹' C) ∪
      ({p | p.1 < k}ᶜ ∩ ({p | (f' - f) * p.2 + f < bell (p.1 * w)} ∩ (fun p : ℝ × ℝ => p.1 * w) ⁻¹' C)) := by
    ext p; rfl
  have h1 : MeasurableSet {p : ℝ × ℝ | p.1 < k} := measurableSet_lt measurable_fst measurable_const
  have h2 : MeasurableSet {p : ℝ × ℝ | (f' - f) * p.2 + f < bell (p.1 * w)} :=
    measurableSet_lt (by fun_prop) (measurable_bell.comp hmul)
  rw [e]
  exact (h1.inter (hmul hC)).union (h1.compl.inter (h2.inter (hmul hC)))

theorem layer_prob (w w' f' f v : ℝ) (hw : 0 < w) (hw' : 0 ≤ w') (hww : w' < w) (hf : f = bell w) (hf' : f' = bell w')
    (hv : w * (f' - f) = v) (C : Set ℝ) (hC : MeasurableSet C) :
    (unif01.prod unif01) (layerSet w (w' / w) f' f C) =
      ∫⁻ x in Ici 0, C.indicator (fun x => ENNReal.ofReal ((min (bell x) f' - min (bell x) f) / v)) x := by
  have hδ : 0 < f' - f := by
    rw [hf, hf', sub_pos]
    by_contra hc
    push Not at hc
    rw [bell_le_iff hw' hw.le] at hc
    linarith
  have hvpos : 0 < v := by rw [← hv]; positivity
  set g : ℝ → ENNReal := C.indicator (fun x => if x < w' then 1 else ENNReal.ofReal ((bell x - f) / (f' - f))) with hg
  have hgm : Measurable g := by
    refine Measurable.indicator (Measurable.ite (measurableSet_lt measurable_id measurable_const) measurable_const ?_) hC
    exact ENNReal.measurable_ofReal.comp ((measurable_bell.sub measurable_const).div_const _)
  have h1 : (unif01.prod unif01) (layerSet w (w' / w) f' f C) = ∫⁻ u, g (u * w) ∂unif01 := by
    rw [Measure.prod_apply (measurableSet_layerSet _ _ _ _ _ hC)]
    refine setLIntegral_congr_fun measurableSet_Icc (fun u hu => ?_)
    show unif01 {y | (u, y) ∈ layerSet w (w' / w) f' f C} = g (u * w)
    by_cases hc : u * w ∈ C
    · rw [hg, indicator_of_mem hc]
      by_cases hk : u < w' / w
      · rw [if_pos ((lt_div_iff₀ hw).1 hk)]
        have : {y | (u, y) ∈ layerSet w (w' / w) f' f C} = univ := by
          ext y
          exact ⟨fun _ => trivial, fun _ => Or.inl ⟨hk, hc⟩⟩
        rw [this, measure_univ]
      · rw [if_neg (fun h => hk ((lt_div_iff₀ hw).2 h))]
        have : {y | (u, y) ∈ layerSet w (w' / w) f' f C} = {y | (f' - f) * y + f < bell (u * w)} := by
          ext y
          constructor
          · rintro (h | h)
            · exact absurd h.1 hk
            · exact h.2.1
          · intro h
            exact Or.inr ⟨hk, h, hc⟩
        have hk' : w' ≤ u * w := not_lt.1 (fun h => hk ((lt_div_iff₀ hw).2 h))
        have hx0 : 0 ≤ u * w := hw'.trans hk'
        rw [this]
        refine unif_lt _ _ _ hδ ?_
        · have : bell (u * w) ≤ f' := by rw [hf', bell_le_iff hx0 hw']; exact hk'
          linarith
    · rw [hg, indicator_of_notMem hc]
      have : {y | (u, y) ∈ layerSet w (w' / w) f' f C} = ∅ := by
        ext y
        constructor
        · rintro (h | h)
          · exact absurd h.2 hc
          · exact absurd h.2.2 hc
        · intro h; exact absurd h (notMem_empty _)
      rw [this, measure_empty]
  rw [h1, lintegral_unif_scale w hw g hgm, ← lintegral_const_mul _ hgm, ← lintegral_indicator measurableSet_Icc, ← lintegral_indicator measurableSet_Ici]
  congr 1
  funext x
  by_cases hx : x ∈ Icc 0 w
  · rw [indicator_of_mem hx, indicator_of_mem (show x ∈ Ici (0 : ℝ) from hx.1)]
    by_cases hc : x ∈ C
    · rw [hg, indicator_of_mem hc, indicator_of_mem hc]
      have hmin : min (bell x) f = f := min_eq_right (by rw [hf, bell_le_iff hw.le hx.1]; exact hx.2)
      rw [hmin]
      by_cases hk : x < w'
      · have hmin' : min (bell x) f' = f' := min_eq_right (by rw [hf', bell_le_iff hw' hx.1]; exact hk.le)
        rw [if_pos hk, hmin', mul_one, ← hv]
        congr 1
        field_simp
      · have hmin' : min (bell x) f' = bell x := min_eq_left (by rw [hf', bell_le_iff hx.1 hw']; exact not_lt.1 hk)
        rw [if_neg hk, hmin', ← ENNReal.ofReal_mul (inv_pos.2 hw).le, ← hv]
        congr 1
        field_simp
    · rw [hg, indicator_of_notMem hc, indicator_of_notMem hc, mul_zero]
  · rw [indicator_of_notMem hx]
    by_cases h0 : x ∈ Ici (0 : ℝ)
    · rw [indicator_of_mem h0]
      have hlt : w < x := by
        by_contra hc
        exact hx ⟨h0, not_lt.1 hc⟩
      have a1 : min (bell x) f' = bell x := min_eq_left (by rw [hf', bell_le_iff h0 hw']; linarith)
      have a2 : min (bell x) f = bell x := min_eq_left (by rw [hf, bell_le_iff h0 hw.le]; linarith)
      by_cases hc : x ∈ C
      · rw [indicator_of_mem hc, a1, a2, sub_self, zero_div, ENNReal.ofReal_zero]
      · rw [indicator_of_notMem hc]
    · rw [indicator_of_notMem h0]

/-! ## The tail -/

theorem map_one_sub_unif : unif01.map (fun x => 1 + -x) = unif01 := by
  have h := (Measure.measurePreserving_sub_left (volume : Measure ℝ) 1).restrict_preimage (s := Icc (0 : ℝ) 1) measurableSet_Icc
  have e : (fun x : ℝ => 1 - x) ⁻¹' Icc 0 1 = Icc 0 1 := by
    ext x
    constructor
    · rintro ⟨a, b⟩
      dsimp only at a b
      exact ⟨by linarith, by linarith⟩
    · rintro ⟨a, b⟩
      exact ⟨by dsimp only; linarith, by dsimp only; linarith⟩
  rw [e] at h
  have : (fun x : ℝ => 1 + -x) = fun x => 1 - x := by funext x; ring
  rw [this]
  exact h.map_eq

theorem map_neg_log_one_sub (mu : ℝ) (hmu : 0 < mu) : unif01.map (fun x => -mu * Real.log (1 + -x)) = expMeasure (1 / mu) := by
  rw [← map_neg_log_uniform mu hmu]
  conv_rhs => rw [show volume.restrict (Icc (0 : ℝ) 1) = unif01.map (fun x => 1 + -x) from map_one_sub_unif.symm]
  rw [Measure.map_map (by fun_prop) (by fun_prop)]
  congr 1
  funext x
  simp only [Function.comp]
  ring

theorem expMeasure_Ioi (t : ℝ) (ht : 0 ≤ t) : expMeasure 1 (Ioi t) = ENNReal.ofReal (Real.exp (-t)) := by
  have := isProbabilityMeasure_expMeasure (r := 1) one_pos
  have h := cdf_expMeasure_eq (r := 1) one_pos t
  rw [if_pos ht, cdf_eq_real] at h
  have h2 : (expMeasure 1).real (Ioi t) = Real.exp (-t) := by
    rw [← compl_Iic, measureReal_compl measurableSet_Iic, probReal_univ, h]
    ring_nf
  rw [← h2, ofReal_measureReal]

/-- What one pass of the loop for the tail accepts, without the sign. -/
def tailSet (T : ZigTable) (C : Set ℝ) : Set (ℝ × ℝ) := {t | zigYY t + zigYY t > zigXX T t * zigXX T t ∧ T.r + zigXX T t ∈ C}

theorem measurable_zigXX (T : ZigTable) : Measurable (zigXX T) := by unfold zigXX; fun_prop

theorem measurable_zigYY : Measurable zigYY := by unfold zigYY; fun_prop

theorem measurableSet_tailSet (T : ZigTable) (C : Set ℝ) (hC : MeasurableSet C) : MeasurableSet (tailSet T C) :=
  (measurableSet_lt ((measurable_zigXX T).mul (measurable_zigXX T)) (measurable_zigYY.add measurable_zigYY)).inter
    ((measurable_const.add (measurable_zigXX T)) hC)

theorem tail_pass_prob (T : ZigTable) (hr : 0 < T.r) (hi : T.invR = 1 / T.r) (C : Set ℝ) (hC : MeasurableSet C) :
    (unif01.prod unif01) (tailSet T C) =
      ENNReal.ofReal (T.r * Real.exp (T.r * T.r / 2)) * ∫⁻ x in Ici T.r, C.indicator (fun x => ENNReal.ofReal (bell x)) x := by
  have hp1 := isProbabilityMeasure_expMeasure (r := T.r) hr
  have hp2 := isProbabilityMeasure_expMeasure (r := 1) one_pos
  have hx : unif01.map (fun x => -T.invR * Real.log (1 + -x)) = expMeasure T.r := by
    rw [map_neg_log_one_sub _ (by rw [hi]; positivity), hi, one_div_one_div]
  have hy : unif01.map (fun x => -Real.log (1 + -x)) = expMeasure 1 := by
    have := map_neg_log_one_sub 1 one_pos
    rw [one_div_one] at this
    rw [← this]
    congr 1
    funext x
    ring
  set Q : Set (ℝ × ℝ) := {p | p.2 + p.2 > p.1 * p.1 ∧ T.r + p.1 ∈ C} with hQ
  have hQ1 : MeasurableSet {p : ℝ × ℝ | p.1 * p.1 < p.2 + p.2} := measurableSet_lt (by fun_prop) (by fun_prop)
  have hQm : MeasurableSet Q := hQ1.inter ((by fun_prop : Measurable fun p : ℝ × ℝ => T.r + p.1) hC)
  have h1 : (unif01.prod unif01) (tailSet T C) = ((expMeasure T.r).prod (expMeasure 1)) Q := by
    rw [← hx, ← hy, Measure.map_prod_map _ _ (by fun_prop) (by fun_prop), Measure.map_apply (by fun_prop) hQm]
    rfl
  have hd : expMeasure T.r = volume.withDensity (exponentialPDF T.r) := rfl
  have hm1 : Measurable fun x : ℝ => (expMeasure 1) (Prod.mk x ⁻¹' Q) := measurable_measure_prodMk_left hQm
  have hm2 : Measurable (exponentialPDF T.r) := (measurable_exponentialPDFReal T.r).ennreal_ofReal
  have hmb : Measurable (C.indicator (fun x => ENNReal.ofReal (bell x))) := (measurable_bell.ennreal_ofReal).indicator hC
  rw [h1, Measure.prod_apply hQm, hd, lintegral_withDensity_eq_lintegral_mul _ hm2 hm1, ← lintegral_indicator measurableSet_Ici,
    ← lintegral_add_left_eq_self ((Ici T.r).indicator _) T.r, ← lintegral_const_mul _ (by exact (hmb.indicator measurableSet_Ici).comp (by fun_prop : Measurable fun x : ℝ => T.r + x))]
  congr 1
  funext x
  rw [Pi.mul_apply, exponentialPDF_eq]
  by_cases h0 : 0 ≤ x
  · rw [if_pos h0, indicator_of_mem (show T.r + x ∈ Ici T.r by rw [mem_Ici]; linarith)]
    by_cases hc : T.r + x ∈ C
    · rw [indicator_of_mem hc]
      have : Prod.mk x ⁻¹' Q = Ioi (x * x / 2) := by
        ext y
        constructor
        · rintro ⟨h, _⟩
          dsimp only at h
          rw [mem_Ioi]
          linarith
        · intro h
          rw [mem_Ioi] at h
          exact ⟨by dsimp only; linarith, hc⟩
      rw [this, expMeasure_Ioi _ (by positivity), ← ENNReal.ofReal_mul (by positivity), ← ENNReal.ofReal_mul (by positivity)]
      congr 1
      unfold bell
      rw [mul_assoc, ← Real.exp_add, mul_assoc, ← Real.exp_add]
      congr 2
      ring
    · rw [indicator_of_notMem hc]
      have : Prod.mk x ⁻¹' Q = ∅ := by
        ext y
        constructor
        · rintro ⟨_, h⟩
          exact absurd h hc
        · intro h; exact absurd h (notMem_empty _)
      rw [this, measure_empty, mul_zero, mul_zero]
  · rw [if_neg h0, ENNReal.ofReal_zero, zero_mul, indicator_of_notMem (show T.r + x ∉ Ici T.r by rw [mem_Ici]; intro h; linarith), mul_zero]

/-- The random numbers for which the loop for the tail ends with a value in `C`. -/
def tailHit (T : ZigTable) (C : Set ℝ) : Set (ℕ → ℝ × ℝ) := {t | ∃ fuel y, zigTail T fuel t = some y ∧ y ∈ C}

theorem zigTail_eq_some (T : ZigTable) (fuel : ℕ) (t : ℕ → ℝ × ℝ) (y : ℝ) :
    zigTail T fuel t = some y ↔
      ∃ n < fuel, (∀ m < n, t m ∈ (tailSet T univ)ᶜ) ∧ t n ∈ tailSet T univ ∧ y = T.r + zigXX T (t n) := by
  have hiff : ∀ p, p ∈ tailSet T univ ↔ zigYY p + zigYY p > zigXX T p * zigXX T p := fun p => ⟨fun h => h.1, fun h => ⟨h, trivial⟩⟩
  induction fuel generalizing t with
  | zero => simp [zigTail]
  | succ fuel ih =>
    unfold zigTail
    by_cases h : zigYY (t 0) + zigYY (t 0) > zigXX T (t 0) * zigXX T (t 0)
    · rw [if_pos h]
      constructor
      · intro e
        exact ⟨0, by omega, fun m hm => by omega, (hiff _).2 h, (Option.some.inj e).symm⟩
      · rintro ⟨n, _, h1, _, h3⟩
        rcases Nat.eq_zero_or_pos n with rfl | hn
        · rw [h3]
        · exact absurd ((hiff _).2 h) (h1 0 hn)
    · rw [if_neg h]
      refine (ih _).trans ?_
      constructor
      · rintro ⟨n, hn, h1, h2, h3⟩
        refine ⟨n + 1, by omega, fun m hm => ?_, h2, h3⟩
        rcases m with _ | m
        · exact fun hc => h ((hiff _).1 hc)
        · exact h1 m (by omega)
      · rintro ⟨n, hn, h1, h2, h3⟩
        rcases n with _ | n
        · exact absurd ((hiff _).1 h2) h
        · exact ⟨n, by omega, fun m hm => h1 (m + 1) (by omega), h2, h3⟩

theorem tailHit_eq (T : ZigTable) (C : Set ℝ) :
    tailHit T C = {t | ∃ n, (∀ m < n, t m ∈ (tailSet T univ)ᶜ) ∧ t n ∈ tailSet T C} := by
  ext t
  constructor
  · rintro ⟨fuel, y, h, hy⟩
    obtain ⟨n, _, h1, h2, h3⟩ := (zigTail_eq_some _ _ _ _).1 h
    exact ⟨n, h1, h2.1, by rw [← h3]; exact hy⟩
  · rintro ⟨n, h1, h2⟩
    exact ⟨n + 1, _, (zigTail_eq_some _ _ _ _).2 ⟨n, by omega, h1, ⟨h2.1, trivial⟩, rfl⟩, h2.2⟩

theorem measurableSet_tailHit (T : ZigTable) (C : Set ℝ) (hC : MeasurableSet C) : MeasurableSet (tailHit T C) := by
  have : tailHit T C = ⋃ n : ℕ, (⋂ m, ⋂ (_ : m < n), (fun t : ℕ → ℝ × ℝ => t m) ⁻¹' (tailSet T univ)ᶜ) ∩ (fun t => t n) ⁻¹' tailSet T C := by
    rw [tailHit_eq]
    ext t
    simp
  rw [this]
  exact MeasurableSet.iUnion fun n => (MeasurableSet.iInter fun m => MeasurableSet.iInter fun _ =>
    (measurable_pi_apply m) (measurableSet_tailSet T univ MeasurableSet.univ).compl).inter ((measurable_pi_apply n) (measurableSet_tailSet T C hC))

/-- The area under the curve right of `r`. -/
noncomputable def bellTail (r : ℝ) : ℝ := ∫ x in Ioi r, Real.exp (-x ^ 2 / 2)

theorem integrable_bell : Integrable (fun x : ℝ => Real.exp (-x ^ 2 / 2)) := by
  have := integrable_exp_neg_mul_sq (b := 1 / 2) (by norm_num)
  refine this.congr (Filter.Eventually.of_forall fun x => ?_)
  show Real.exp _ = Real.exp _
  congr 1
  ring

theorem lintegral_bell_tail (r : ℝ) : ∫⁻ x in Ici r, ENNReal.ofReal (bell x) = ENNReal.ofReal (bellTail r) := by
  unfold bellTail
  rw [ofReal_integral_eq_lintegral_ofReal integrable_bell.integrableOn (Filter.Eventually.of_forall fun x => (Real.exp_pos _).le),
    setLIntegral_congr Ioi_ae_eq_Ici]
  simp only [bell_eq]

theorem bellTail_pos (r : ℝ) : 0 < bellTail r := by
  unfold bellTail
  rw [setIntegral_pos_iff_support_of_nonneg_ae (Filter.Eventually.of_forall fun x => (Real.exp_pos _).le) integrable_bell.integrableOn]
  have : Function.support (fun x : ℝ => Real.exp (-x ^ 2 / 2)) = univ := by
    ext x
    simp [Real.exp_ne_zero]
  rw [this, univ_inter, Real.volume_Ioi]
  exact ENNReal.zero_lt_top

/-- The sequence of pairs of numbers of the loop for the tail. -/
noncomputable abbrev pairsLaw : Measure (ℕ → ℝ × ℝ) := Measure.infinitePi fun _ => unif01.prod unif01

theorem tail_prob (T : ZigTable) (hr : 0 < T.r) (hi : T.invR = 1 / T.r) (C : Set ℝ) (hC : MeasurableSet C) :
    pairsLaw (tailHit T C) =
      (ENNReal.ofReal (bellTail T.r))⁻¹ * ∫⁻ x in Ici T.r, C.indicator (fun x => ENNReal.ofReal (bell x)) x := by
  have hA := measurableSet_tailSet T univ MeasurableSet.univ
  have h := reject_prob (P := pairsLaw) (ν := unif01.prod unif01) (X := fun n t => t n) (fun n => measurable_pi_apply n)
    (iIndepFun_infinitePi (P := fun _ : ℕ => unif01.prod unif01) (X := fun _ x => x) (fun _ => measurable_id))
    (fun n => Measure.infinitePi_map_eval _ n) hA.compl (measurableSet_tailSet T C hC)
    (disjoint_compl_left_iff_subset.2 fun p hp => ⟨hp.1, trivial⟩)
  rw [tailHit_eq, h, prob_compl_eq_one_sub hA, ENNReal.sub_sub_cancel ENNReal.one_ne_top prob_le_one,
    tail_pass_prob T hr hi univ MeasurableSet.univ, tail_pass_prob T hr hi C hC, indicator_univ, lintegral_bell_tail]
  have hc : ENNReal.ofReal (T.r * Real.exp (T.r * T.r / 2)) ≠ 0 := by
    rw [Ne, ENNReal.ofReal_eq_zero, not_le]
    positivity
  rw [ENNReal.mul_inv (Or.inl hc) (Or.inl ENNReal.ofReal_ne_top)]
  calc _ = ((ENNReal.ofReal (T.r * Real.exp (T.r * T.r / 2)))⁻¹ * ENNReal.ofReal (T.r * Real.exp (T.r * T.r / 2))) *
        ((ENNReal.ofReal (bellTail T.r))⁻¹ * ∫⁻ x in Ici T.r, C.indicator (fun x => ENNReal.ofReal (bell x)) x) := by ring
    _ = _ := by rw [ENNReal.inv_mul_cancel hc ENNReal.ofReal_ne_top, one_mul]

/-! ## The base -/

/-- What a pass with index 0 accepts. -/
def baseSet (T : ZigTable) (C C' : Set ℝ) : Set ((ℝ × ℝ) × (ℕ → ℝ × ℝ)) :=
  {q | (q.1.1 < T.k 0 ∧ q.1.1 * T.w 0 ∈ C) ∨ (¬ q.1.1 < T.k 0 ∧ q.2 ∈ tailHit T C')}

theorem baseSet_eq (T : ZigTable) (C C' : Set ℝ) : baseSet T C C' =
    (({u | u < T.k 0 ∧ u * T.w 0 ∈ C} ×ˢ univ) ×ˢ univ) ∪ (({u | ¬ u < T.k 0} ×ˢ univ) ×ˢ tailHit T C') := by
  ext q
  simp [baseSet]

theorem measurableSet_baseSet (T : ZigTable) (C C' : Set ℝ) (hC : MeasurableSet C) (hC' : MeasurableSet C') : MeasurableSet (baseSet T C C') := by
  rw [baseSet_eq]
  have h1 : MeasurableSet {u | u < T.k 0 ∧ u * T.w 0 ∈ C} :=
    (measurableSet_lt measurable_id measurable_const).inter ((by fun_prop : Measurable fun u : ℝ => u * T.w 0) hC)
  have h2 : MeasurableSet {u | ¬ u < T.k 0} := (measurableSet_lt measurable_id measurable_const).compl
  exact ((h1.prod MeasurableSet.univ).prod MeasurableSet.univ).union ((h2.prod MeasurableSet.univ).prod (measurableSet_tailHit T C' hC'))

/-- The part of the base left of `r`. -/
noncomputable def basePart (r f v : ℝ) (C : Set ℝ) : ENNReal :=
  ∫⁻ x in Ici 0, C.indicator (fun x => if x < r then ENNReal.ofReal (f / v) else 0) x

/-- The tail. -/
noncomputable def tailPart (r v : ℝ) (C : Set ℝ) : ENNReal :=
  ∫⁻ x in Ici 0, C.indicator (fun x => if x < r then 0 else ENNReal.ofReal (bell x / v)) x

theorem base_prob (T : ZigTable) (f v : ℝ) (hr : 0 < T.r) (hi : T.invR = 1 / T.r) (hf : 0 < f)
    (hw : T.w 0 = v / f) (hk : T.k 0 = T.r / T.w 0) (hv : T.r * f + bellTail T.r = v)
    (C C' : Set ℝ) (hC : MeasurableSet C) (hC' : MeasurableSet C') :
    ((unif01.prod unif01).prod pairsLaw) (baseSet T C C') = basePart T.r f v C + tailPart T.r v C' := by
  have ht := bellTail_pos T.r
  have hvp : 0 < v := by rw [← hv]; positivity
  have hwp : 0 < T.w 0 := by rw [hw]; positivity
  have hrw : T.r ≤ T.w 0 := by
    rw [hw, le_div_iff₀ hf]; linarith
  have h1 : MeasurableSet {u | u < T.k 0 ∧ u * T.w 0 ∈ C} :=
    (measurableSet_lt measurable_id measurable_const).inter ((by fun_prop : Measurable fun u : ℝ => u * T.w 0) hC)
  have h2 : MeasurableSet {u | ¬ u < T.k 0} := (measurableSet_lt measurable_id measurable_const).compl
  rw [baseSet_eq, measure_union _ ((h2.prod MeasurableSet.univ).prod (measurableSet_tailHit T C' hC')), Measure.prod_prod, Measure.prod_prod,
    Measure.prod_prod, Measure.prod_prod, measure_univ, measure_univ, mul_one, mul_one, mul_one, tail_prob T hr hi C' hC']
  · congr 1
    · set g : ℝ → ENNReal := C.indicator (fun x => if x < T.r then 1 else 0) with hg
      have hgm : Measurable g :=
        Measurable.indicator (Measurable.ite (measurableSet_lt measurable_id measurable_const) measurable_const measurable_const) hC
      have e : unif01 {u | u < T.k 0 ∧ u * T.w 0 ∈ C} = ∫⁻ u, g (u * T.w 0) ∂unif01 := by
        rw [← lintegral_indicator_one h1]
        congr 1
        funext u
        have hlt : u < T.k 0 ↔ u * T.w 0 < T.r := by rw [hk, lt_div_iff₀ hwp]
        by_cases hc : u * T.w 0 ∈ C
        · rw [hg, indicator_of_mem hc]
          by_cases hu : u < T.k 0
          · rw [if_pos (hlt.1 hu), indicator_of_mem (show u ∈ {u | u < T.k 0 ∧ u * T.w 0 ∈ C} from ⟨hu, hc⟩)]
            rfl
          · rw [if_neg (fun h => hu (hlt.2 h)), indicator_of_notMem (fun h => hu h.1)]
        · rw [hg, indicator_of_notMem hc, indicator_of_notMem (fun h => hc h.2)]
      rw [e, lintegral_unif_scale _ hwp g hgm, ← lintegral_const_mul _ hgm, basePart, ← lintegral_indicator measurableSet_Icc,
        ← lintegral_indicator measurableSet_Ici]
      congr 1
      funext x
      have hinv : (T.w 0)⁻¹ = f / v := by rw [hw, inv_div]
      by_cases hx0 : 0 ≤ x
      · rw [indicator_of_mem (show x ∈ Ici (0 : ℝ) from hx0)]
        by_cases hxw : x ≤ T.w 0
        · rw [indicator_of_mem (show x ∈ Icc 0 (T.w 0) from ⟨hx0, hxw⟩)]
          by_cases hc : x ∈ C
          · rw [hg, indicator_of_mem hc, indicator_of_mem hc, hinv]
            split_ifs <;> simp
          · rw [hg, indicator_of_notMem hc, indicator_of_notMem hc, mul_zero]
        · rw [indicator_of_notMem (fun h => hxw h.2)]
          by_cases hc : x ∈ C
          · rw [indicator_of_mem hc, if_neg (by intro h; exact hxw (by linarith))]
          · rw [indicator_of_notMem hc]
      · rw [indicator_of_notMem (fun h => hx0 h.1), indicator_of_notMem (show x ∉ Ici (0 : ℝ) from hx0)]
    · have hmb : Measurable (C'.indicator (fun x => ENNReal.ofReal (bell x))) := (measurable_bell.ennreal_ofReal).indicator hC'
      have e : unif01 {u | ¬ u < T.k 0} = ENNReal.ofReal (bellTail T.r / v) := by
        have hk0 : 0 ≤ T.k 0 := by rw [hk]; positivity
        have : {u | ¬ u < T.k 0} ∩ Icc (0 : ℝ) 1 = Icc (T.k 0) 1 := by
          ext u
          constructor
          · rintro ⟨a, b⟩
            exact ⟨not_lt.1 a, b.2⟩
          · rintro ⟨a, b⟩
            exact ⟨not_lt.2 a, hk0.trans a, b⟩
        rw [Measure.restrict_apply h2, this, Real.volume_Icc]
        congr 1
        rw [hk, hw, ← hv]
        field_simp
        ring
      have e2 : ENNReal.ofReal (bellTail T.r / v) * (ENNReal.ofReal (bellTail T.r))⁻¹ = ENNReal.ofReal v⁻¹ := by
        rw [← ENNReal.ofReal_inv_of_pos ht, ← ENNReal.ofReal_mul (by positivity)]
        congr 1
        field_simp
      rw [e, ← mul_assoc, e2, tailPart, ← lintegral_const_mul _ hmb, ← lintegral_indicator measurableSet_Ici, ← lintegral_indicator measurableSet_Ici]
      congr 1
      funext x
      by_cases hxr : T.r ≤ x
      · rw [indicator_of_mem (show x ∈ Ici T.r from hxr), indicator_of_mem (show x ∈ Ici (0 : ℝ) from hr.le.trans hxr)]
        by_cases hc : x ∈ C'
        · rw [indicator_of_mem hc, indicator_of_mem hc, if_neg (not_lt.2 hxr), ← ENNReal.ofReal_mul (inv_pos.2 hvp).le]
          congr 1
          field_simp
        · rw [indicator_of_notMem hc, indicator_of_notMem hc, mul_zero]
      · rw [indicator_of_notMem (show x ∉ Ici T.r from hxr)]
        by_cases hx0 : x ∈ Ici (0 : ℝ)
        · rw [indicator_of_mem hx0]
          by_cases hc : x ∈ C'
          · rw [indicator_of_mem hc, if_pos (not_le.1 hxr)]
          · rw [indicator_of_notMem hc]
        · rw [indicator_of_notMem hx0]
  · rw [Set.disjoint_left]
    rintro q ⟨⟨a, _⟩, _⟩ ⟨⟨b, _⟩, _⟩
    exact b a.1

end Moo
