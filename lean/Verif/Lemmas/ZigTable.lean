import Verif.Lemmas.Ziggurat
import Mathlib.MeasureTheory.Integral.IntervalIntegral.Basic
import Mathlib.MeasureTheory.Integral.DominatedConvergence
import Mathlib.Topology.Order.IntermediateValue

set_option autoImplicit false
set_option linter.unusedSectionVars false

/-!
# Tables of the ziggurat method exist, for every number of layers
-/

namespace Moo

open MeasureTheory Set

theorem continuous_bell : Continuous bell := by unfold bell; fun_prop

theorem bell_lt_iff {x y : ℝ} (hx : 0 ≤ x) (hy : 0 ≤ y) : bell x < bell y ↔ y < x := by
  rw [← not_le, bell_le_iff hy hx, not_le]

theorem bell_zero : bell 0 = 1 := by simp [bell]

theorem bell_le_one (x : ℝ) : bell x ≤ 1 := by
  unfold bell
  rw [Real.exp_le_one_iff]
  nlinarith [mul_self_nonneg x]

/-- The area of the layer from `a` to `x`. -/
noncomputable def layArea (a x : ℝ) : ℝ := x * (bell a - bell x)

theorem layArea_mono {a x y : ℝ} (ha : 0 ≤ a) (hx : a ≤ x) (hxy : x < y) : layArea a x < layArea a y := by
  unfold layArea
  have h1 : bell y < bell x := (bell_lt_iff (by linarith) (by linarith)).2 hxy
  have h2 : bell x ≤ bell a := (bell_le_iff (by linarith) ha).2 hx
  have h3 : x * (bell a - bell x) ≤ y * (bell a - bell x) := mul_le_mul_of_nonneg_right hxy.le (by linarith)
  have h4 : y * (bell a - bell x) < y * (bell a - bell y) := mul_lt_mul_of_pos_left (by linarith) (by linarith)
  linarith

theorem layArea_exists (a v : ℝ) (ha : 0 ≤ a) (hv : 0 < v) : ∃ x, a < x ∧ layArea a x = v := by
  have hd : 0 < bell a - bell (a + 1) := by
    have : bell (a + 1) < bell a := (bell_lt_iff (by linarith) ha).2 (by linarith)
    linarith
  set b := a + 1 + v / (bell a - bell (a + 1)) with hb
  have hdiv : 0 < v / (bell a - bell (a + 1)) := by positivity
  have hab : a ≤ b := by linarith
  have hcont : ContinuousOn (layArea a) (Icc a b) := by
    unfold layArea
    exact (continuous_id.mul (continuous_const.sub continuous_bell)).continuousOn
  have h0 : layArea a a = 0 := by simp [layArea]
  have h1 : v ≤ layArea a b := by
    unfold layArea
    have h2 : bell b ≤ bell (a + 1) := (bell_le_iff (by linarith) (by linarith)).2 (by linarith)
    have h3 : v / (bell a - bell (a + 1)) ≤ b := by linarith
    calc v = v / (bell a - bell (a + 1)) * (bell a - bell (a + 1)) := by field_simp
      _ ≤ b * (bell a - bell (a + 1)) := mul_le_mul_of_nonneg_right h3 hd.le
      _ ≤ b * (bell a - bell b) := mul_le_mul_of_nonneg_left (by linarith) (by linarith)
  obtain ⟨x, hx, hxv⟩ := intermediate_value_Icc hab hcont (show v ∈ Icc (layArea a a) (layArea a b) from ⟨by rw [h0]; exact hv.le, h1⟩)
  refine ⟨x, lt_of_le_of_ne hx.1 ?_, hxv⟩
  rintro rfl
  rw [h0] at hxv
  linarith

open Classical in
/-- The right end of the layer below the one that ends at `a`, if the layers have the area `v`. -/
noncomputable def zigNextX (a v : ℝ) : ℝ := if h : 0 ≤ a ∧ 0 < v then (layArea_exists a v h.1 h.2).choose else 0

theorem zigNextX_spec {a v : ℝ} (ha : 0 ≤ a) (hv : 0 < v) : a < zigNextX a v ∧ layArea a (zigNextX a v) = v := by
  unfold zigNextX
  rw [dif_pos ⟨ha, hv⟩]
  exact (layArea_exists a v ha hv).choose_spec

/-- The right ends of the layers. -/
noncomputable def zigX : ℕ → ℝ → ℝ
  | 0, _ => 0
  | i + 1, v => zigNextX (zigX i v) v

theorem zigX_nonneg (i : ℕ) {v : ℝ} (hv : 0 < v) : 0 ≤ zigX i v := by
  induction i with
  | zero => exact le_rfl
  | succ i ih => exact ih.trans (zigNextX_spec ih hv).1.le

theorem zigX_lt (i : ℕ) {v : ℝ} (hv : 0 < v) : zigX i v < zigX (i + 1) v := (zigNextX_spec (zigX_nonneg i hv) hv).1

theorem zigX_area (i : ℕ) {v : ℝ} (hv : 0 < v) : layArea (zigX i v) (zigX (i + 1) v) = v := (zigNextX_spec (zigX_nonneg i hv) hv).2

theorem zigX_small (i : ℕ) (ε : ℝ) (hε : 0 < ε) : ∃ δ > 0, ∀ v, 0 < v → v < δ → zigX i v < ε := by
  induction i generalizing ε with
  | zero => exact ⟨1, one_pos, fun _ _ _ => hε⟩
  | succ i ih =>
    obtain ⟨δ, hδ, h⟩ := ih (ε / 2) (by linarith)
    have hd : 0 < bell (ε / 2) - bell ε := by
      have : bell ε < bell (ε / 2) := (bell_lt_iff (by linarith) (by linarith)).2 (by linarith)
      linarith
    refine ⟨min δ (ε * (bell (ε / 2) - bell ε)), lt_min hδ (by positivity), fun v hv hvδ => ?_⟩
    have h1 := h v hv (lt_of_lt_of_le hvδ (min_le_left _ _))
    by_contra hc
    push Not at hc
    have h0 := zigX_nonneg i hv
    have h2 : layArea (zigX i v) ε ≤ v := by
      rcases hc.eq_or_lt with e | e
      · rw [e, zigX_area i hv]
      · exact (layArea_mono h0 (by linarith) e).le.trans_eq (zigX_area i hv)
    have h3 : bell (ε / 2) ≤ bell (zigX i v) := (bell_le_iff (by linarith) h0).2 h1.le
    have h4 : ε * (bell (ε / 2) - bell ε) ≤ layArea (zigX i v) ε := by
      unfold layArea
      exact mul_le_mul_of_nonneg_left (by linarith) hε.le
    have h5 := lt_of_lt_of_le hvδ (min_le_right _ _)
    linarith

theorem zigX_continuousOn (i : ℕ) : ContinuousOn (zigX i) (Ioi 0) := by
  induction i with
  | zero => exact continuousOn_const
  | succ i ih =>
    intro v0 hv0
    have hv0' : 0 < v0 := hv0
    refine ContinuousAt.continuousWithinAt ?_
    have hi : ContinuousAt (zigX i) v0 := (ih v0 hv0).continuousAt (Ioi_mem_nhds hv0')
    rw [Metric.continuousAt_iff']
    intro ε hε
    set x0 := zigX (i + 1) v0 with hx0
    set a0 := zigX i v0 with ha0
    have hlt : a0 < x0 := zigX_lt i hv0'
    have hnn : 0 ≤ a0 := zigX_nonneg i hv0'
    set e := min (ε / 2) ((x0 - a0) / 2) with he
    have hepos : 0 < e := lt_min (by linarith) (by linarith)
    have he1 : e ≤ ε / 2 := min_le_left _ _
    have he2 : e ≤ (x0 - a0) / 2 := min_le_right _ _
    have hA : layArea a0 x0 = v0 := zigX_area i hv0'
    have hc : ∀ x, ContinuousAt (fun v => layArea (zigX i v) x - v) v0 := by
      intro x
      unfold layArea
      exact ((continuousAt_const.mul ((continuous_bell.continuousAt.comp hi).sub continuousAt_const))).sub continuousAt_id
    have hlo : layArea a0 (x0 - e) - v0 < 0 := by
      have := layArea_mono hnn (show a0 ≤ x0 - e by linarith) (show x0 - e < x0 by linarith)
      linarith
    have hhi : 0 < layArea a0 (x0 + e) - v0 := by
      have := layArea_mono hnn hlt.le (show x0 < x0 + e by linarith)
      linarith
    have h1 := (hc (x0 - e)).eventually_lt_const hlo
    have h2 := (hc (x0 + e)).eventually_const_lt hhi
    have h3 := hi.eventually_lt_const (show zigX i v0 < x0 - e by linarith)
    filter_upwards [h1, h2, h3, Ioi_mem_nhds hv0'] with v g1 g2 g3 g4
    have g4' : 0 < v := g4
    have hA' := zigX_area i g4'
    have hl' := zigX_lt i g4'
    have hn' := zigX_nonneg i g4'
    rw [Real.dist_eq, abs_lt]
    constructor
    · by_contra hcon
      have hle : zigX (i + 1) v ≤ x0 - e := by linarith
      rcases hle.eq_or_lt with e1 | e1
      · rw [e1] at hA'; linarith
      · have := layArea_mono hn' hl'.le e1
        linarith
    · by_contra hcon
      have hle : x0 + e ≤ zigX (i + 1) v := by linarith
      rcases hle.eq_or_lt with e1 | e1
      · rw [← e1] at hA'; linarith
      · have := layArea_mono hn' (show zigX i v ≤ x0 + e by linarith) e1
        linarith

theorem bellTail_sub (a b : ℝ) : bellTail a - bellTail b = ∫ x in a..b, Real.exp (-x ^ 2 / 2) :=
  (intervalIntegral.integral_Ioi_sub_Ioi' integrable_bell.integrableOn integrable_bell.integrableOn)

theorem continuous_bellTail : Continuous bellTail := by
  have : bellTail = fun r => bellTail 0 - ∫ x in (0 : ℝ)..r, Real.exp (-x ^ 2 / 2) := by
    funext r
    rw [← bellTail_sub]
    ring
  rw [this]
  exact continuous_const.sub (intervalIntegral.continuous_primitive (fun a b => integrable_bell.intervalIntegrable) 0)

theorem bellTail_anti {a b : ℝ} (h : a ≤ b) : bellTail b ≤ bellTail a := by
  have := bellTail_sub a b
  have h2 : 0 ≤ ∫ x in a..b, Real.exp (-x ^ 2 / 2) := intervalIntegral.integral_nonneg h fun x _ => (Real.exp_pos _).le
  linarith

/-- For some area of the layers, the base together with the tail has the same area. -/
theorem zig_area_exists (M : ℕ) : ∃ v > 0, zigX M v * bell (zigX M v) + bellTail (zigX M v) = v := by
  set F : ℝ → ℝ := fun v => zigX M v * bell (zigX M v) + bellTail (zigX M v) - v with hF
  obtain ⟨δ, hδ, hsm⟩ := zigX_small M 1 one_pos
  have ht1 := bellTail_pos 1
  have ht0 := bellTail_pos 0
  set v0 := min (δ / 2) (bellTail 1 / 2) with hv0
  have hv0p : 0 < v0 := lt_min (by linarith) (by linarith)
  set v1 := 2 + bellTail 0 with hv1
  have h10 : bellTail 1 ≤ bellTail 0 := bellTail_anti zero_le_one
  have hle0 : v0 ≤ bellTail 1 / 2 := min_le_right _ _
  have h01 : v0 ≤ v1 := by linarith
  have hcont : ContinuousOn F (Icc v0 v1) := by
    have hX : ContinuousOn (zigX M) (Icc v0 v1) := (zigX_continuousOn M).mono fun v hv => lt_of_lt_of_le hv0p hv.1
    exact ((hX.mul (continuous_bell.comp_continuousOn hX)).add (continuous_bellTail.comp_continuousOn hX)).sub continuousOn_id
  have hlo : 0 ≤ F v0 := by
    have h1 := hsm v0 hv0p (lt_of_le_of_lt (min_le_left _ _) (by linarith))
    have h2 := bellTail_anti h1.le
    have h3 := mul_nonneg (zigX_nonneg M hv0p) (bell_pos (zigX M v0)).le
    simp only [hF]
    linarith
  have hhi : F v1 ≤ 0 := by
    have hv1p : 0 < v1 := by linarith
    have h1 := zigX_nonneg M hv1p
    have h2 := bellTail_anti h1
    have h3 : ∀ x : ℝ, 0 ≤ x → x * bell x ≤ 1 := by
      intro x hx
      have e : bell x = (Real.exp (x * x / 2))⁻¹ := by
        unfold bell
        rw [← Real.exp_neg]
        congr 1
        ring
      have h4 : x ≤ Real.exp (x * x / 2) := by
        have := Real.add_one_le_exp (x * x / 2)
        nlinarith [mul_self_nonneg (x - 1)]
      rw [e, ← div_eq_mul_inv, div_le_one (Real.exp_pos _)]
      exact h4
    have h5 := h3 _ h1
    simp only [hF]
    linarith
  obtain ⟨v, hv, hFv⟩ := intermediate_value_Icc' h01 hcont (show (0 : ℝ) ∈ Icc (F v1) (F v0) from ⟨hhi, hlo⟩)
  refine ⟨v, lt_of_lt_of_le hv0p hv.1, ?_⟩
  simp only [hF] at hFv
  linarith

/-- The table with the layers of area `v`. -/
noncomputable def idealTable (N : ℕ) (v : ℝ) : ZigTable where
  w i := if i = 0 then v / bell (zigX (N - 1) v) else zigX i v
  k i := if i = 0 then zigX (N - 1) v / (v / bell (zigX (N - 1) v)) else zigX (i - 1) v / zigX i v
  f i := bell (zigX i v)
  r := zigX (N - 1) v
  invR := 1 / zigX (N - 1) v

end Moo
