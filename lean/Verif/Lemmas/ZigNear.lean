import Verif.Props.Ziggurat

set_option autoImplicit false
set_option linter.unusedSectionVars false

/-!
# The ziggurat method with tables that satisfy its equations approximately

For C110.  The law of one pass is compared with the area under the curve, layer by layer.
-/

namespace Moo

open MeasureTheory ProbabilityTheory Set

/-- The tables satisfy the equations of the method up to the error `ε`. -/
structure ZigNear (T : ZigTable) (N : ℕ) (v ε : ℝ) : Prop where
  two_le : 2 ≤ N
  v_pos : 0 < v
  eps : 0 ≤ ε
  eps_le : ε ≤ 1 / 100
  total : N * v ≤ 2
  f_zero : T.f 0 = 1
  f_pos : ∀ i < N, 0 < T.f i
  f_anti : ∀ i, i + 1 < N → T.f (i + 1) < T.f i
  w_pos : ∀ i < N, 0 < T.w i
  above : ∀ i, 1 ≤ i → i < N → bell (T.w i) ≤ (1 + ε * v) * T.f i
  area_le : ∀ i, 1 ≤ i → i < N → T.w i * (T.f (i - 1) - T.f i) ≤ (1 + ε) * v
  area_ge : ∀ i, 1 ≤ i → i < N → v ≤ (1 + ε) * (T.w i * (T.f (i - 1) - T.f i))
  k_nonneg : ∀ i < N, 0 ≤ T.k i
  k_le : ∀ i < N, T.k i ≤ 1
  k_near : ∀ i, 1 ≤ i → i < N → T.f (i - 1) - bell (T.k i * T.w i) ≤ ε * (T.f (i - 1) - T.f i)
  base_w : T.w 0 * T.f (N - 1) ≤ (1 + ε) * v
  base_k : (T.r - T.k 0 * T.w 0) * T.f (N - 1) ≤ ε * v
  r_pos : 0 < T.r
  invR_pos : 0 < T.invR
  tail_le : bellTail (1 / T.invR) ≤ (1 + ε) * (1 - T.k 0) * v
  shift : (1 / T.invR - T.r) * 4 ≤ ε * v
  shift_le : 1 / T.invR ≤ 3 * T.r
  f_last : T.f (N - 1) ≤ (1 + ε) * bell T.r
  f_last' : bell T.r ≤ (1 + ε) * T.f (N - 1)
  base_area : v ≤ (1 + ε) * (T.r * T.f (N - 1) + bellTail T.r)

/-! ## Integrals -/

theorem bellTail_zero_le : bellTail 0 ≤ 2 := by
  unfold bellTail
  have h := integral_gaussian_Ioi (1 / 2)
  have e : ∫ x in Ioi (0 : ℝ), Real.exp (-x ^ 2 / 2) = ∫ x in Ioi (0 : ℝ), Real.exp (-(1 / 2) * x ^ 2) := by
    congr 1
    funext x
    congr 1
    ring
  rw [e, h]
  have : √(Real.pi / (1 / 2)) ≤ 4 := by
    rw [Real.sqrt_le_left (by norm_num)]
    have := Real.pi_le_four
    linarith
  linarith

theorem lintegral_mul_bell (r : ℝ) (hr : 0 ≤ r) : ∫⁻ x in Ici r, ENNReal.ofReal (x * bell x) ≤ ENNReal.ofReal 2 := by
  have h := integral_gaussian_Ioi (1 / 4)
  have hi : Integrable (fun x : ℝ => Real.exp (-(1 / 4) * x ^ 2)) := integrable_exp_neg_mul_sq (by norm_num)
  have h1 : ∫⁻ x in Ioi (0 : ℝ), ENNReal.ofReal (Real.exp (-(1 / 4) * x ^ 2)) ≤ ENNReal.ofReal 2 := by
    rw [← ofReal_integral_eq_lintegral_ofReal hi.integrableOn (Filter.Eventually.of_forall fun x => (Real.exp_pos _).le), h]
    refine ENNReal.ofReal_le_ofReal ?_
    have : √(Real.pi / (1 / 4)) ≤ 4 := by
      rw [Real.sqrt_le_left (by norm_num)]
      have := Real.pi_le_four
      linarith
    linarith
  refine le_trans ?_ h1
  rw [setLIntegral_congr Ioi_ae_eq_Ici.symm]
  refine (lintegral_mono_set (Ioi_subset_Ioi hr)).trans (lintegral_mono fun x => ENNReal.ofReal_le_ofReal ?_)
  have e : bell x = Real.exp (-(1 / 4) * x ^ 2) * Real.exp (-(1 / 4) * x ^ 2) := by
    rw [bell_eq, ← Real.exp_add]
    congr 1
    ring
  rw [e, ← mul_assoc]
  refine mul_le_of_le_one_left (Real.exp_pos _).le ?_
  have h2 : x ≤ Real.exp ((1 / 4) * x ^ 2) := by
    have := Real.add_one_le_exp ((1 / 4) * x ^ 2)
    nlinarith [sq_nonneg (x / 2 - 1)]
  calc x * Real.exp (-(1 / 4) * x ^ 2) ≤ Real.exp ((1 / 4) * x ^ 2) * Real.exp (-(1 / 4) * x ^ 2) := mul_le_mul_of_nonneg_right h2 (Real.exp_pos _).le
    _ = 1 := by rw [← Real.exp_add]; simp

/-! ## A layer -/

theorem unif_lt_min (δ f F : ℝ) (hδ : 0 < δ) :
    unif01 {v | δ * v + f < F} = ENNReal.ofReal ((min F (f + δ) - f) / δ) := by
  rcases le_total F (f + δ) with h | h
  · rw [min_eq_left h]
    exact unif_lt δ f F hδ (by linarith)
  · rw [min_eq_right h, add_sub_cancel_left, div_self hδ.ne', ENNReal.ofReal_one]
    refine le_antisymm prob_le_one ?_
    have h1 := unif_lt δ f (f + δ) hδ (by linarith)
    rw [add_sub_cancel_left, div_self hδ.ne', ENNReal.ofReal_one] at h1
    rw [← h1]
    exact measure_mono fun v (hv : δ * v + f < f + δ) => lt_of_lt_of_le hv h

/-- The probability with which a point of a layer is accepted. -/
noncomputable def layAcc (w k f' f : ℝ) (x : ℝ) : ENNReal := if x < k * w then 1 else ENNReal.ofReal ((min (bell x) f' - f) / (f' - f))

theorem measurable_layAcc (w k f' f : ℝ) : Measurable (layAcc w k f' f) :=
  Measurable.ite (measurableSet_lt measurable_id measurable_const) measurable_const
    (ENNReal.measurable_ofReal.comp (((measurable_bell.min measurable_const).sub measurable_const).div_const _))

theorem layer_gen (w k f' f : ℝ) (hw : 0 < w) (hff : f < f') (C : Set ℝ) (hC : MeasurableSet C) :
    (unif01.prod unif01) (layerSet w k f' f C) = ENNReal.ofReal w⁻¹ * ∫⁻ x in Icc 0 w, C.indicator (layAcc w k f' f) x := by
  have hδ : 0 < f' - f := by linarith
  have hgm := (measurable_layAcc w k f' f).indicator hC
  have h1 : (unif01.prod unif01) (layerSet w k f' f C) = ∫⁻ u, C.indicator (layAcc w k f' f) (u * w) ∂unif01 := by
    rw [Measure.prod_apply (measurableSet_layerSet _ _ _ _ _ hC)]
    refine lintegral_congr fun u => ?_
    show unif01 {y | (u, y) ∈ layerSet w k f' f C} = _
    by_cases hc : u * w ∈ C
    · rw [indicator_of_mem hc, layAcc]
      by_cases hk : u < k
      · rw [if_pos (mul_lt_mul_of_pos_right hk hw)]
        have : {y | (u, y) ∈ layerSet w k f' f C} = univ := by
          ext y
          exact ⟨fun _ => trivial, fun _ => Or.inl ⟨hk, hc⟩⟩
        rw [this, measure_univ]
      · rw [if_neg (fun h => hk (lt_of_mul_lt_mul_right h hw.le))]
        have : {y | (u, y) ∈ layerSet w k f' f C} = {y | (f' - f) * y + f < bell (u * w)} := by
          ext y
          constructor
          · rintro (h | h)
            · exact absurd h.1 hk
            · exact h.2.1
          · intro h
            exact Or.inr ⟨hk, h, hc⟩
        rw [this, unif_lt_min _ _ _ hδ, add_sub_cancel]
    · rw [indicator_of_notMem hc]
      have : {y | (u, y) ∈ layerSet w k f' f C} = ∅ := by
        ext y
        constructor
        · rintro (h | h)
          · exact absurd h.2 hc
          · exact absurd h.2.2 hc
        · intro h; exact absurd h (notMem_empty _)
      rw [this, measure_empty]
  rw [h1, lintegral_unif_scale w hw _ hgm]

/-- The part of the height of the curve that belongs to a layer. -/
noncomputable def layT (f' f v : ℝ) (x : ℝ) : ENNReal := ENNReal.ofReal ((min (bell x) f' - min (bell x) f) / v)

theorem measurable_layT (f' f v : ℝ) : Measurable (layT f' f v) :=
  ENNReal.measurable_ofReal.comp (((measurable_bell.min measurable_const).sub (measurable_bell.min measurable_const)).div_const _)

theorem layer_lower (w k f' f v ε : ℝ) (hw : 0 < w) (hff : f < f') (hv : 0 < v) (hε : 0 ≤ ε) (hab : bell w ≤ (1 + ε * v) * f) (har : w * (f' - f) ≤ (1 + ε) * v)
    (C : Set ℝ) (hC : MeasurableSet C) :
    ∫⁻ x in Ici 0, C.indicator (layT f' f v) x ≤ ENNReal.ofReal (1 + ε) * (unif01.prod unif01) (layerSet w k f' f C) + ENNReal.ofReal (2 * ε) := by
  have hδ : 0 < f' - f := by linarith
  have hgm := (measurable_layAcc w k f' f).indicator hC
  have hpt : ∀ x ∈ Ici (0 : ℝ), C.indicator (layT f' f v) x ≤
      (Icc 0 w).indicator (fun x => ENNReal.ofReal ((1 + ε) * w⁻¹) * C.indicator (layAcc w k f' f) x) x + ENNReal.ofReal (ε * bell x) := by
    intro x hx
    by_cases hc : x ∈ C
    · rw [indicator_of_mem hc]
      by_cases hxw : x ≤ w
      · rw [indicator_of_mem (show x ∈ Icc 0 w from ⟨hx, hxw⟩), indicator_of_mem hc]
        refine le_trans ?_ le_self_add
        unfold layT layAcc
        have hcoef : v⁻¹ ≤ (1 + ε) * w⁻¹ * (f' - f)⁻¹ := by
          rw [mul_assoc, ← mul_inv, inv_le_iff_one_le_mul₀ hv, mul_assoc, mul_comm _ v, ← mul_assoc, ← div_eq_mul_inv, one_le_div (by positivity)]
          exact har
        have h0 : 0 ≤ min (bell x) f' - min (bell x) f := sub_nonneg.2 (min_le_min_left _ hff.le)
        by_cases hk : x < k * w
        · rw [if_pos hk, mul_one]
          refine ENNReal.ofReal_le_ofReal ?_
          have h1 : min (bell x) f' - min (bell x) f ≤ f' - f := by
            rcases le_total (bell x) f with h | h
            · rw [min_eq_left h, min_eq_left (h.trans hff.le)]; linarith
            · rw [min_eq_right h]
              linarith [min_le_right (bell x) f']
          rw [div_eq_mul_inv]
          calc _ ≤ (f' - f) * ((1 + ε) * w⁻¹ * (f' - f)⁻¹) := mul_le_mul h1 hcoef (inv_pos.2 hv).le hδ.le
            _ = _ := by field_simp
        · rw [if_neg hk, ← ENNReal.ofReal_mul (by positivity)]
          rcases le_total (bell x) f with h | h
          · rw [min_eq_left h, min_eq_left (h.trans hff.le), sub_self, zero_div, ENNReal.ofReal_zero]
            exact zero_le
          · refine ENNReal.ofReal_le_ofReal ?_
            rw [min_eq_right h] at h0 ⊢
            rw [div_eq_mul_inv, div_eq_mul_inv, mul_left_comm]
            calc _ ≤ (min (bell x) f' - f) * ((1 + ε) * w⁻¹ * (f' - f)⁻¹) := mul_le_mul_of_nonneg_left hcoef h0
              _ = _ := by ring
      · refine le_trans ?_ le_add_self
        unfold layT
        refine ENNReal.ofReal_le_ofReal ?_
        rw [div_le_iff₀ hv]
        have hb : bell x ≤ bell w := (bell_le_iff hx hw.le).2 (not_le.1 hxw).le
        have hbp := bell_pos x
        rcases le_total (bell x) f with h | h
        · rw [min_eq_left h, min_eq_left (h.trans hff.le), sub_self]
          positivity
        · rw [min_eq_right h]
          have h1 := min_le_left (bell x) f'
          have h2 : ε * v * f ≤ ε * v * bell x := mul_le_mul_of_nonneg_left h (by positivity)
          linarith
    · rw [indicator_of_notMem hc]
      exact zero_le
  refine (setLIntegral_mono' measurableSet_Ici hpt).trans ?_
  rw [lintegral_add_right _ (by exact (measurable_bell.const_mul ε).ennreal_ofReal)]
  refine add_le_add ?_ ?_
  · rw [layer_gen w k f' f hw hff C hC, ← mul_assoc, ← ENNReal.ofReal_mul (by positivity), ← lintegral_const_mul _ hgm, ← lintegral_indicator measurableSet_Icc]
    exact setLIntegral_le_lintegral _ _
  · simp only [ENNReal.ofReal_mul hε]
    rw [lintegral_const_mul _ measurable_bell.ennreal_ofReal, lintegral_bell_tail, ← ENNReal.ofReal_mul hε]
    refine ENNReal.ofReal_le_ofReal ?_
    nlinarith [bellTail_zero_le]

theorem layer_upper (w k f' f v ε : ℝ) (hw : 0 < w) (hff : f < f') (hv : 0 < v) (hε : 0 ≤ ε) (hk0 : 0 ≤ k) (har : v ≤ (1 + ε) * (w * (f' - f)))
    (hkn : f' - bell (k * w) ≤ ε * (f' - f)) :
    (unif01.prod unif01) (layerSet w k f' f univ) ≤ ENNReal.ofReal (1 + ε) * (∫⁻ x in Ici 0, layT f' f v x) + ENNReal.ofReal ε := by
  have hδ : 0 < f' - f := by linarith
  have hpt : ∀ x ∈ Icc (0 : ℝ) w, (univ : Set ℝ).indicator (layAcc w k f' f) x ≤ ENNReal.ofReal ((1 + ε) * w) * layT f' f v x + ENNReal.ofReal ε := by
    intro x hx
    rw [indicator_univ]
    unfold layT layAcc
    have h0 : 0 ≤ min (bell x) f' - min (bell x) f := sub_nonneg.2 (min_le_min_left _ hff.le)
    have hcoef : (f' - f)⁻¹ ≤ (1 + ε) * w * v⁻¹ := by
      rw [inv_le_iff_one_le_mul₀ hδ, mul_right_comm, ← div_eq_mul_inv, one_le_div hv]
      linarith
    have h1 : (min (bell x) f' - min (bell x) f) / (f' - f) ≤ (1 + ε) * w * ((min (bell x) f' - min (bell x) f) / v) := by
      rw [div_eq_mul_inv, div_eq_mul_inv, mul_left_comm]
      exact mul_le_mul_of_nonneg_left hcoef h0
    rw [← ENNReal.ofReal_mul (by positivity), ← ENNReal.ofReal_add (mul_nonneg (by positivity) (div_nonneg h0 hv.le)) hε]
    by_cases hk : x < k * w
    · rw [if_pos hk, ← ENNReal.ofReal_one]
      refine ENNReal.ofReal_le_ofReal ?_
      have hb : bell (k * w) ≤ bell x := (bell_le_iff (mul_nonneg hk0 hw.le) hx.1).2 hk.le
      have h2 : (1 - ε) * (f' - f) ≤ min (bell x) f' - min (bell x) f := by
        rcases le_total (bell x) f' with h | h
        · rw [min_eq_left h]
          have := min_le_right (bell x) f
          linarith
        · rw [min_eq_right h]
          have := min_le_right (bell x) f
          nlinarith
      rw [← le_div_iff₀ hδ] at h2
      linarith
    · rw [if_neg hk]
      refine ENNReal.ofReal_le_ofReal ?_
      have h2 : (min (bell x) f' - f) / (f' - f) ≤ (min (bell x) f' - min (bell x) f) / (f' - f) :=
        div_le_div_of_nonneg_right (by linarith [min_le_right (bell x) f]) hδ.le
      linarith
  rw [layer_gen w k f' f hw hff univ MeasurableSet.univ]
  refine (mul_le_mul_right (setLIntegral_mono' measurableSet_Icc hpt) _).trans ?_
  rw [lintegral_add_right _ measurable_const, lintegral_const_mul _ (measurable_layT _ _ _), setLIntegral_const, Real.volume_Icc, sub_zero, mul_add, ← mul_assoc,
    ← ENNReal.ofReal_mul (by positivity), ← ENNReal.ofReal_mul hε, ← ENNReal.ofReal_mul (by positivity)]
  refine add_le_add ?_ ?_
  · have e : w⁻¹ * ((1 + ε) * w) = 1 + ε := by field_simp
    rw [e]
    exact mul_le_mul_right (lintegral_mono_set (fun x hx => hx.1)) _
  · have e : w⁻¹ * (ε * w) = ε := by field_simp
    rw [e]

/-! ## The tail -/

theorem zigTail_shift (T : ZigTable) (r' : ℝ) (fuel : ℕ) (t : ℕ → ℝ × ℝ) :
    zigTail T fuel t = (zigTail { T with r := r' } fuel t).map (fun y => y + (T.r - r')) := by
  induction fuel generalizing t with
  | zero => rfl
  | succ n ih =>
    have e : ∀ p, zigXX { T with r := r' } p = zigXX T p := fun _ => rfl
    unfold zigTail
    rw [e]
    split_ifs
    · simp only [Option.map_some]
      congr 1
      ring
    · exact ih _

theorem tail_prob_gen (T : ZigTable) (hi : 0 < T.invR) (C : Set ℝ) (hC : MeasurableSet C) :
    pairsLaw (tailHit T C) = (ENNReal.ofReal (bellTail (1 / T.invR)))⁻¹ *
      ∫⁻ x in Ici (1 / T.invR), {x | x + (T.r - 1 / T.invR) ∈ C}.indicator (fun x => ENNReal.ofReal (bell x)) x := by
  have hm : MeasurableSet {x | x + (T.r - 1 / T.invR) ∈ C} := (by fun_prop : Measurable fun x : ℝ => x + (T.r - 1 / T.invR)) hC
  refine Eq.trans ?_ (tail_prob { T with r := 1 / T.invR } (show 0 < 1 / T.invR by positivity) (show T.invR = 1 / (1 / T.invR) by simp) _ hm)
  congr 1
  ext t
  constructor
  · rintro ⟨fuel, y, h, hy⟩
    rw [zigTail_shift T (1 / T.invR)] at h
    obtain ⟨z, hz, rfl⟩ := Option.map_eq_some_iff.1 h
    exact ⟨fuel, z, hz, hy⟩
  · rintro ⟨fuel, y, h, hy⟩
    exact ⟨fuel, _, by rw [zigTail_shift T (1 / T.invR), h]; rfl, hy⟩

theorem tail_univ (T : ZigTable) (hi : 0 < T.invR) : pairsLaw (tailHit T univ) = 1 := by
  rw [tail_prob_gen T hi univ MeasurableSet.univ]
  have : {x | x + (T.r - 1 / T.invR) ∈ univ} = univ := by ext; simp
  rw [this, indicator_univ, lintegral_bell_tail]
  refine ENNReal.inv_mul_cancel ?_ ENNReal.ofReal_ne_top
  rw [Ne, ENNReal.ofReal_eq_zero, not_le]
  exact bellTail_pos _

theorem bell_shift (r ρ y : ℝ) (hr : 0 < r) (hρ : 0 < ρ) (h3 : ρ ≤ 3 * r) (hy : r ≤ y) : bell y ≤ bell (y - (r - ρ)) + 2 * max (ρ - r) 0 * (y * bell y) := by
  have hy0 : 0 < y := lt_of_lt_of_le hr hy
  have hb := bell_pos y
  rcases le_total ρ r with h | h
  · rw [max_eq_right (by linarith)]
    have := (bell_le_iff hy0.le (show (0 : ℝ) ≤ y - (r - ρ) by linarith)).2 (by linarith)
    linarith
  · rw [max_eq_left (by linarith)]
    set d := ρ - r with hd
    have hd0 : 0 ≤ d := by linarith
    have e : bell (y - (r - ρ)) = bell y * Real.exp (-(d * y + d * d / 2)) := by
      unfold bell
      rw [← Real.exp_add]
      congr 1
      rw [hd]
      ring
    have h1 := Real.add_one_le_exp (-(d * y + d * d / 2))
    have h2 : d * d / 2 ≤ d * y := by nlinarith
    have h3 : 1 - 2 * (d * y) ≤ Real.exp (-(d * y + d * d / 2)) := by linarith
    have h4 := mul_le_mul_of_nonneg_left h3 hb.le
    rw [e]
    linarith

theorem tail_lower (T : ZigTable) (v ε : ℝ) (hv : 0 < v) (hε : 0 ≤ ε) (hr : 0 < T.r) (hi : 0 < T.invR) (hk : T.k 0 ≤ 1)
    (htl : bellTail (1 / T.invR) ≤ (1 + ε) * (1 - T.k 0) * v) (hsh : (1 / T.invR - T.r) * 4 ≤ ε * v) (h3 : 1 / T.invR ≤ 3 * T.r) (C : Set ℝ) (hC : MeasurableSet C) :
    ∫⁻ x in Ici T.r, C.indicator (fun x => ENNReal.ofReal (bell x / v)) x ≤
      ENNReal.ofReal (1 + ε) * (ENNReal.ofReal (1 - T.k 0) * pairsLaw (tailHit T C)) + ENNReal.ofReal ε := by
  have hρ : 0 < 1 / T.invR := by positivity
  set ρ := 1 / T.invR with hρd
  set d := max (ρ - T.r) 0 with hd
  have hd0 : 0 ≤ d := le_max_right _ _
  have hpt : ∀ x ∈ Ici T.r, C.indicator (fun x => ENNReal.ofReal (bell x / v)) x ≤
      C.indicator (fun x => ENNReal.ofReal (bell (x - (T.r - ρ)) / v)) x + ENNReal.ofReal (2 * d / v) * ENNReal.ofReal (x * bell x) := by
    intro x hx
    by_cases hc : x ∈ C
    · rw [indicator_of_mem hc, indicator_of_mem hc, ← ENNReal.ofReal_mul (by positivity),
        ← ENNReal.ofReal_add (div_nonneg (bell_pos _).le hv.le) (mul_nonneg (by positivity) (mul_nonneg (hr.le.trans hx) (bell_pos _).le))]
      refine ENNReal.ofReal_le_ofReal ?_
      have := div_le_div_of_nonneg_right (bell_shift T.r ρ x hr hρ h3 hx) hv.le
      refine this.trans (le_of_eq ?_)
      rw [← hd]
      ring
    · rw [indicator_of_notMem hc]
      exact zero_le
  have hm : Measurable fun x : ℝ => ENNReal.ofReal (x * bell x) := (measurable_id.mul measurable_bell).ennreal_ofReal
  refine (setLIntegral_mono' measurableSet_Ici hpt).trans ?_
  rw [lintegral_add_right _ (hm.const_mul _), lintegral_const_mul _ hm]
  refine add_le_add ?_ ?_
  · have e : ∫⁻ x in Ici T.r, C.indicator (fun x => ENNReal.ofReal (bell (x - (T.r - ρ)) / v)) x =
        ENNReal.ofReal v⁻¹ * ∫⁻ x in Ici ρ, {x | x + (T.r - ρ) ∈ C}.indicator (fun x => ENNReal.ofReal (bell x)) x := by
      have hmC : MeasurableSet {x | x + (T.r - ρ) ∈ C} := (by fun_prop : Measurable fun x : ℝ => x + (T.r - ρ)) hC
      rw [← lintegral_const_mul _ (measurable_bell.ennreal_ofReal.indicator hmC), ← lintegral_indicator measurableSet_Ici, ← lintegral_indicator measurableSet_Ici,
        ← lintegral_add_right_eq_self _ (T.r - ρ)]
      congr 1
      funext x
      by_cases hx : ρ ≤ x
      · rw [indicator_of_mem (show x + (T.r - ρ) ∈ Ici T.r by rw [mem_Ici]; linarith), indicator_of_mem (show x ∈ Ici ρ from hx)]
        by_cases hc : x + (T.r - ρ) ∈ C
        · rw [indicator_of_mem hc, indicator_of_mem (show x ∈ {x | x + (T.r - ρ) ∈ C} from hc), ← ENNReal.ofReal_mul (inv_pos.2 hv).le, add_sub_cancel_right]
          congr 1
          field_simp
        · rw [indicator_of_notMem hc, indicator_of_notMem (show x ∉ {x | x + (T.r - ρ) ∈ C} from hc), mul_zero]
      · rw [indicator_of_notMem (show x + (T.r - ρ) ∉ Ici T.r by rw [mem_Ici]; intro h; exact hx (by linarith)), indicator_of_notMem (show x ∉ Ici ρ from hx)]
    rw [e, tail_prob_gen T hi C hC, ← hρd, ← mul_assoc, ← mul_assoc]
    refine mul_le_mul_left ?_ _
    have ht := bellTail_pos ρ
    rw [← ENNReal.ofReal_mul (by positivity), ← ENNReal.ofReal_inv_of_pos ht, ← ENNReal.ofReal_mul (mul_nonneg (by positivity) (by linarith))]
    refine ENNReal.ofReal_le_ofReal ?_
    rw [inv_eq_one_div, div_le_iff₀ hv, ← div_eq_mul_inv, div_mul_eq_mul_div, one_le_div ht]
    exact htl
  · refine (mul_le_mul_right (lintegral_mul_bell T.r hr.le) _).trans ?_
    rw [← ENNReal.ofReal_mul (by positivity)]
    refine ENNReal.ofReal_le_ofReal ?_
    rw [div_mul_eq_mul_div, div_le_iff₀ hv]
    rcases le_total (ρ - T.r) 0 with h | h
    · rw [hd, max_eq_right h]; nlinarith
    · rw [hd, max_eq_left h]; linarith

/-! ## The base -/

/-- What the pass accepts in the base. -/
theorem base_gen (T : ZigTable) (hw : 0 < T.w 0) (hk0 : 0 ≤ T.k 0) (C C' : Set ℝ) (hC : MeasurableSet C) (hC' : MeasurableSet C') :
    ((unif01.prod unif01).prod pairsLaw) (baseSet T C C') =
      ENNReal.ofReal (T.w 0)⁻¹ * (∫⁻ x in Icc 0 (T.w 0), C.indicator (fun x => if x < T.k 0 * T.w 0 then 1 else 0) x) + ENNReal.ofReal (1 - T.k 0) * pairsLaw (tailHit T C') := by
  have h1 : MeasurableSet {u | u < T.k 0 ∧ u * T.w 0 ∈ C} :=
    (measurableSet_lt measurable_id measurable_const).inter ((by fun_prop : Measurable fun u : ℝ => u * T.w 0) hC)
  have h2 : MeasurableSet {u | ¬ u < T.k 0} := (measurableSet_lt measurable_id measurable_const).compl
  rw [baseSet_eq, measure_union _ ((h2.prod MeasurableSet.univ).prod (measurableSet_tailHit T C' hC')), Measure.prod_prod, Measure.prod_prod,
    Measure.prod_prod, Measure.prod_prod, measure_univ, measure_univ, mul_one, mul_one, mul_one]
  · congr 1
    · set g : ℝ → ENNReal := C.indicator (fun x => if x < T.k 0 * T.w 0 then 1 else 0) with hg
      have hgm : Measurable g :=
        Measurable.indicator (Measurable.ite (measurableSet_lt measurable_id measurable_const) measurable_const measurable_const) hC
      rw [← lintegral_unif_scale _ hw g hgm, ← lintegral_indicator_one h1]
      congr 1
      funext u
      have hlt : u < T.k 0 ↔ u * T.w 0 < T.k 0 * T.w 0 := (mul_lt_mul_iff_left₀ hw).symm
      by_cases hc : u * T.w 0 ∈ C
      · rw [hg, indicator_of_mem hc]
        by_cases hu : u < T.k 0
        · rw [if_pos (hlt.1 hu), indicator_of_mem (show u ∈ {u | u < T.k 0 ∧ u * T.w 0 ∈ C} from ⟨hu, hc⟩)]
          rfl
        · rw [if_neg (fun h => hu (hlt.2 h)), indicator_of_notMem (fun h => hu h.1)]
      · rw [hg, indicator_of_notMem hc, indicator_of_notMem (fun h => hc h.2)]
    · congr 1
      have : {u | ¬ u < T.k 0} ∩ Icc (0 : ℝ) 1 = Icc (T.k 0) 1 := by
        ext u
        constructor
        · rintro ⟨a, b⟩
          exact ⟨not_lt.1 a, b.2⟩
        · rintro ⟨a, b⟩
          exact ⟨not_lt.2 a, hk0.trans a, b⟩
      rw [Measure.restrict_apply h2, this, Real.volume_Icc]
  · rw [Set.disjoint_left]
    rintro q ⟨⟨a, _⟩, _⟩ ⟨⟨b, _⟩, _⟩
    exact b a.1

theorem base_lower (T : ZigTable) (f v ε : ℝ) (hf : 0 < f) (hv : 0 < v) (hε : 0 ≤ ε) (hw : 0 < T.w 0) (hk : T.k 0 ≤ 1) (hbw : T.w 0 * f ≤ (1 + ε) * v)
    (hbk : (T.r - T.k 0 * T.w 0) * f ≤ ε * v) (C : Set ℝ) (hC : MeasurableSet C) :
    ∫⁻ x in Ici 0, C.indicator (fun x => ENNReal.ofReal (min (bell x) f / v)) x ≤
      ENNReal.ofReal (1 + ε) * (ENNReal.ofReal (T.w 0)⁻¹ * (∫⁻ x in Icc 0 (T.w 0), C.indicator (fun x => if x < T.k 0 * T.w 0 then 1 else 0) x)) +
        ENNReal.ofReal ε + ∫⁻ x in Ici T.r, C.indicator (fun x => ENNReal.ofReal (bell x / v)) x := by
  set g : ℝ → ENNReal := C.indicator (fun x => if x < T.k 0 * T.w 0 then 1 else 0) with hg
  have hgm : Measurable g :=
    Measurable.indicator (Measurable.ite (measurableSet_lt measurable_id measurable_const) measurable_const measurable_const) hC
  have hm3 : Measurable ((Ici T.r).indicator (C.indicator (fun x => ENNReal.ofReal (bell x / v)))) :=
    ((measurable_bell.div_const v).ennreal_ofReal.indicator hC).indicator measurableSet_Ici
  have hm2 : Measurable ((Ico (T.k 0 * T.w 0) T.r).indicator (fun _ : ℝ => ENNReal.ofReal (f / v))) := measurable_const.indicator measurableSet_Ico
  have hpt : ∀ x ∈ Ici (0 : ℝ), C.indicator (fun x => ENNReal.ofReal (min (bell x) f / v)) x ≤
      (Icc 0 (T.w 0)).indicator (fun x => ENNReal.ofReal ((1 + ε) * (T.w 0)⁻¹) * g x) x + (Ico (T.k 0 * T.w 0) T.r).indicator (fun _ => ENNReal.ofReal (f / v)) x +
        (Ici T.r).indicator (C.indicator (fun x => ENNReal.ofReal (bell x / v))) x := by
    intro x hx
    by_cases hc : x ∈ C
    · rw [indicator_of_mem hc]
      by_cases h1 : x < T.k 0 * T.w 0
      · have hxw : x ≤ T.w 0 := h1.le.trans (mul_le_of_le_one_left hw.le hk)
        refine le_trans ?_ (le_self_add.trans le_self_add)
        rw [indicator_of_mem (show x ∈ Icc 0 (T.w 0) from ⟨hx, hxw⟩), hg, indicator_of_mem hc, if_pos h1, mul_one]
        refine ENNReal.ofReal_le_ofReal ?_
        rw [div_le_iff₀ hv, mul_right_comm, ← div_eq_mul_inv, le_div_iff₀ hw]
        have := min_le_right (bell x) f
        nlinarith
      · by_cases h2 : x < T.r
        · refine le_trans ?_ (le_add_self.trans le_self_add)
          rw [indicator_of_mem (show x ∈ Ico (T.k 0 * T.w 0) T.r from ⟨not_lt.1 h1, h2⟩)]
          exact ENNReal.ofReal_le_ofReal (div_le_div_of_nonneg_right (min_le_right _ _) hv.le)
        · refine le_trans ?_ le_add_self
          rw [indicator_of_mem (show x ∈ Ici T.r from not_lt.1 h2), indicator_of_mem hc]
          exact ENNReal.ofReal_le_ofReal (div_le_div_of_nonneg_right (min_le_left _ _) hv.le)
    · rw [indicator_of_notMem hc]
      exact zero_le
  refine (setLIntegral_mono' measurableSet_Ici hpt).trans ?_
  rw [lintegral_add_right _ hm3, lintegral_add_right _ hm2]
  refine add_le_add (add_le_add ?_ ?_) ?_
  · rw [← mul_assoc, ← ENNReal.ofReal_mul (by positivity), ← lintegral_const_mul _ hgm, ← lintegral_indicator measurableSet_Icc]
    exact setLIntegral_le_lintegral _ _
  · refine (setLIntegral_le_lintegral _ _).trans ?_
    rw [lintegral_indicator measurableSet_Ico, setLIntegral_const, Real.volume_Ico, ← ENNReal.ofReal_mul (by positivity)]
    refine ENNReal.ofReal_le_ofReal ?_
    rw [div_mul_eq_mul_div, div_le_iff₀ hv]
    linarith
  · rw [← lintegral_indicator measurableSet_Ici (f := C.indicator (fun x => ENNReal.ofReal (bell x / v)))]
    exact setLIntegral_le_lintegral _ _

theorem base_upper (r f v ε : ℝ) (hr : 0 < r) (hf : 0 < f) (hv : 0 < v) (hε : 0 ≤ ε) (h1 : f ≤ (1 + ε) * bell r) (h2 : bell r ≤ (1 + ε) * f)
    (h3 : v ≤ (1 + ε) * (r * f + bellTail r)) :
    1 ≤ ENNReal.ofReal ((1 + ε) ^ 2) * ∫⁻ x in Ici 0, ENNReal.ofReal (min (bell x) f / v) := by
  have hm : Measurable fun x => ENNReal.ofReal (min (bell x) f / v) := ((measurable_bell.min measurable_const).div_const v).ennreal_ofReal
  have e : (Ici (0 : ℝ)) = Ico 0 r ∪ Ici r := (Ico_union_Ici_eq_Ici hr.le).symm
  have hd : Disjoint (Ico (0 : ℝ) r) (Ici r) := by
    rw [Set.disjoint_left]
    intro x hx hx'
    exact absurd hx.2 (not_lt.2 hx')
  have a1 : ENNReal.ofReal (r * f / v) ≤ ENNReal.ofReal (1 + ε) * ∫⁻ x in Ico 0 r, ENNReal.ofReal (min (bell x) f / v) := by
    rw [← lintegral_const_mul _ hm]
    have : ∫⁻ _ in Ico (0 : ℝ) r, ENNReal.ofReal (f / v) = ENNReal.ofReal (r * f / v) := by
      rw [setLIntegral_const, Real.volume_Ico, ← ENNReal.ofReal_mul (by positivity)]
      congr 1
      ring
    rw [← this]
    refine setLIntegral_mono' measurableSet_Ico fun x hx => ?_
    rw [← ENNReal.ofReal_mul (by positivity), ← mul_div_assoc]
    refine ENNReal.ofReal_le_ofReal (div_le_div_of_nonneg_right ?_ hv.le)
    have hb : bell r ≤ bell x := (bell_le_iff hr.le hx.1).2 hx.2.le
    rw [mul_min_of_nonneg _ _ (by linarith)]
    refine le_min ?_ (by nlinarith)
    exact h1.trans (mul_le_mul_of_nonneg_left hb (by linarith))
  have a2 : ENNReal.ofReal (bellTail r / v) ≤ ENNReal.ofReal (1 + ε) * ∫⁻ x in Ici r, ENNReal.ofReal (min (bell x) f / v) := by
    have : ∫⁻ x in Ici r, ENNReal.ofReal (bell x / v) = ENNReal.ofReal (bellTail r / v) := by
      simp only [div_eq_mul_inv, mul_comm _ v⁻¹, ENNReal.ofReal_mul (inv_pos.2 hv).le]
      rw [lintegral_const_mul _ measurable_bell.ennreal_ofReal, lintegral_bell_tail]
    rw [← lintegral_const_mul _ hm, ← this]
    refine setLIntegral_mono' measurableSet_Ici fun x hx => ?_
    rw [← ENNReal.ofReal_mul (by positivity), ← mul_div_assoc]
    refine ENNReal.ofReal_le_ofReal (div_le_div_of_nonneg_right ?_ hv.le)
    have hb : bell x ≤ bell r := (bell_le_iff (hr.le.trans hx) hr.le).2 hx
    have := bell_pos x
    rw [mul_min_of_nonneg _ _ (by linarith)]
    exact le_min (by nlinarith) (hb.trans h2)
  rw [e, lintegral_union measurableSet_Ici hd, pow_two, ENNReal.ofReal_mul (by linarith), mul_assoc, mul_add]
  calc (1 : ENNReal) ≤ ENNReal.ofReal (1 + ε) * (ENNReal.ofReal (r * f / v) + ENNReal.ofReal (bellTail r / v)) := by
        rw [← ENNReal.ofReal_add (by positivity) (div_nonneg (bellTail_pos r).le hv.le), ← ENNReal.ofReal_mul (by linarith), ← ENNReal.ofReal_one]
        refine ENNReal.ofReal_le_ofReal ?_
        rw [← add_div, ← mul_div_assoc, one_le_div hv]
        exact h3
    _ ≤ _ := mul_le_mul_right (add_le_add a1 a2) _

end Moo
