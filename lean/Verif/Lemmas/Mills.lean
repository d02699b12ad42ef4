import Verif.Lemmas.Ziggurat
import Mathlib.Analysis.SpecialFunctions.Gamma.Basic

set_option autoImplicit false
set_option linter.unusedSectionVars false

/-!
# Bounds for the area of the tail of the normal curve

The convergents of the continued fraction of Laplace bound the ratio of the tail and the density from above and from below.
-/

namespace Moo

open MeasureTheory Set Filter Topology

/-- The numerators and denominators of the convergents: consecutive pairs. -/
def millsRec {K : Type*} [Semiring K] (x : K) (p q : K) : ℕ → K × K
  | 0 => (p, q)
  | n + 1 => ((millsRec x p q n).2, x * (millsRec x p q n).2 + (n + 1) * (millsRec x p q n).1)

/-- The moments of the tail. -/
noncomputable def millsJ (x : ℝ) (n : ℕ) : ℝ := ∫ y in Ioi (0 : ℝ), y ^ n * Real.exp (-(x * y) - y ^ 2 / 2)

theorem hasDerivAt_millsExp (x y : ℝ) : HasDerivAt (fun y : ℝ => -(x * y) - y ^ 2 / 2) (-x - y) y := by
  refine ((((hasDerivAt_id' y).const_mul x).neg).sub ((hasDerivAt_pow 2 y).div_const 2)).congr_deriv ?_
  norm_num

section
variable {x : ℝ} (hx : 1 ≤ x)
include hx

theorem millsJ_integrable (n : ℕ) : IntegrableOn (fun y : ℝ => y ^ n * Real.exp (-(x * y) - y ^ 2 / 2)) (Ioi 0) := by
  have h := Real.GammaIntegral_convergent (s := (n : ℝ) + 1) (by positivity)
  refine Integrable.mono' h ?_ ?_
  · exact (by fun_prop : Measurable fun y : ℝ => y ^ n * Real.exp (-(x * y) - y ^ 2 / 2)).aestronglyMeasurable
  · refine (ae_restrict_iff' measurableSet_Ioi).2 (Eventually.of_forall fun y hy => ?_)
    have hy0 : 0 < y := hy
    rw [Real.norm_of_nonneg (by positivity), add_sub_cancel_right, Real.rpow_natCast, mul_comm]
    refine mul_le_mul_of_nonneg_right (Real.exp_le_exp.2 ?_) (by positivity)
    nlinarith [sq_nonneg y]

theorem millsJ_tendsto (n : ℕ) : Tendsto (fun y : ℝ => y ^ n * Real.exp (-(x * y) - y ^ 2 / 2)) atTop (𝓝 0) := by
  refine squeeze_zero' (g := fun y : ℝ => y ^ n * Real.exp (-y)) ?_ ?_ (Real.tendsto_pow_mul_exp_neg_atTop_nhds_zero n)
  · filter_upwards [eventually_ge_atTop (0 : ℝ)] with y hy
    positivity
  · filter_upwards [eventually_ge_atTop (0 : ℝ)] with y hy
    refine mul_le_mul_of_nonneg_left (Real.exp_le_exp.2 ?_) (by positivity)
    nlinarith [sq_nonneg y]

theorem millsJ_one : millsJ x 1 = 1 - x * millsJ x 0 := by
  have hd : ∀ y ∈ Ici (0 : ℝ), HasDerivAt (fun y => y ^ 0 * Real.exp (-(x * y) - y ^ 2 / 2))
      (-(x * (y ^ 0 * Real.exp (-(x * y) - y ^ 2 / 2)) + y ^ 1 * Real.exp (-(x * y) - y ^ 2 / 2))) y := by
    intro y _
    have h1 := hasDerivAt_millsExp x y
    have := h1.exp
    simp only [pow_zero, one_mul, pow_one]
    convert this using 1
    ring
  have h0 := millsJ_integrable hx 0
  have h1 := millsJ_integrable hx 1
  have := integral_Ioi_of_hasDerivAt_of_tendsto' hd ((h0.const_mul x).add h1).neg (millsJ_tendsto hx 0)
  rw [integral_neg, integral_add (h0.const_mul x) h1, integral_const_mul] at this
  simp only [mul_zero, neg_zero] at this
  have e : ((0 : ℝ) ^ 0 * Real.exp (0 - 0 ^ 2 / 2)) = 1 := by simp
  unfold millsJ
  rw [e] at this
  linarith

theorem millsJ_succ (n : ℕ) : millsJ x (n + 2) = (n + 1) * millsJ x n - x * millsJ x (n + 1) := by
  have hd : ∀ y ∈ Ici (0 : ℝ), HasDerivAt (fun y => y ^ (n + 1) * Real.exp (-(x * y) - y ^ 2 / 2))
      ((n + 1) * (y ^ n * Real.exp (-(x * y) - y ^ 2 / 2)) - (x * (y ^ (n + 1) * Real.exp (-(x * y) - y ^ 2 / 2)) + y ^ (n + 2) * Real.exp (-(x * y) - y ^ 2 / 2))) y := by
    intro y _
    have h1 := hasDerivAt_millsExp x y
    refine ((hasDerivAt_pow (n + 1) y).mul h1.exp).congr_deriv ?_
    rw [Nat.add_sub_cancel]
    push_cast
    ring
  have h0 := millsJ_integrable hx n
  have h1 := millsJ_integrable hx (n + 1)
  have h2 := millsJ_integrable hx (n + 2)
  have h12 : IntegrableOn (fun y => x * (y ^ (n + 1) * Real.exp (-(x * y) - y ^ 2 / 2)) + y ^ (n + 2) * Real.exp (-(x * y) - y ^ 2 / 2)) (Ioi 0) :=
    (h1.const_mul x).add h2
  have := integral_Ioi_of_hasDerivAt_of_tendsto' hd ((h0.const_mul _).sub h12) (millsJ_tendsto hx (n + 1))
  rw [integral_sub (h0.const_mul _) h12, integral_add (h1.const_mul x) h2, integral_const_mul, integral_const_mul] at this
  simp only [pow_succ (0 : ℝ) n, mul_zero, zero_mul, sub_zero] at this
  unfold millsJ
  linarith

theorem millsJ_nonneg (n : ℕ) : 0 ≤ millsJ x n :=
  setIntegral_nonneg measurableSet_Ioi fun _ hy => mul_nonneg (pow_nonneg (le_of_lt hy) _) (Real.exp_pos _).le

theorem millsJ_eq (n : ℕ) : millsJ x n = (-1) ^ n * ((millsRec x 1 x n).1 * millsJ x 0 - (millsRec x 0 1 n).1) ∧
    millsJ x (n + 1) = (-1) ^ (n + 1) * ((millsRec x 1 x n).2 * millsJ x 0 - (millsRec x 0 1 n).2) := by
  induction n with
  | zero =>
    refine ⟨by simp [millsRec], ?_⟩
    rw [millsJ_one hx]
    simp [millsRec]
  | succ n ih =>
    refine ⟨ih.2, ?_⟩
    rw [millsJ_succ hx, ih.1, ih.2]
    simp only [millsRec, pow_succ]
    ring

theorem millsRec_pos (n : ℕ) : 0 < (millsRec x 1 x n).1 ∧ 0 < (millsRec x 1 x n).2 := by
  induction n with
  | zero => exact ⟨one_pos, by simp only [millsRec]; linarith⟩
  | succ n ih =>
    refine ⟨ih.2, ?_⟩
    have h1 := ih.1
    have h2 := ih.2
    show 0 < x * (millsRec x 1 x n).2 + ((n : ℝ) + 1) * (millsRec x 1 x n).1
    positivity

theorem millsJ_ge (n : ℕ) (hn : Even n) : (millsRec x 0 1 n).1 / (millsRec x 1 x n).1 ≤ millsJ x 0 := by
  have h := (millsJ_eq hx n).1
  have h0 := millsJ_nonneg hx n
  rw [h, hn.neg_one_pow, one_mul] at h0
  rw [div_le_iff₀ (millsRec_pos hx n).1]
  linarith

theorem millsJ_le (n : ℕ) (hn : Odd n) : millsJ x 0 ≤ (millsRec x 0 1 n).1 / (millsRec x 1 x n).1 := by
  have h := (millsJ_eq hx n).1
  have h0 := millsJ_nonneg hx n
  rw [h, hn.neg_one_pow] at h0
  rw [le_div_iff₀ (millsRec_pos hx n).1]
  linarith

end

theorem bellTail_eq (x : ℝ) : bellTail x = bell x * millsJ x 0 := by
  unfold bellTail millsJ
  rw [← integral_indicator measurableSet_Ioi, ← integral_indicator measurableSet_Ioi, ← integral_const_mul, ← integral_add_right_eq_self _ x]
  congr 1
  funext y
  by_cases hy : 0 < y
  · rw [indicator_of_mem (show y + x ∈ Ioi x by rw [mem_Ioi]; linarith), indicator_of_mem (show y ∈ Ioi (0 : ℝ) from hy), pow_zero, one_mul, bell_eq, ← Real.exp_add]
    congr 1
    ring
  · rw [indicator_of_notMem (show y + x ∉ Ioi x by rw [mem_Ioi]; intro h; exact hy (by linarith)), indicator_of_notMem (show y ∉ Ioi (0 : ℝ) from hy), mul_zero]

theorem bellTail_antitone {x y : ℝ} (h : x ≤ y) : bellTail y ≤ bellTail x :=
  setIntegral_mono_set integrable_bell.integrableOn (Eventually.of_forall fun _ => (Real.exp_pos _).le) (Ioi_subset_Ioi h).eventuallyLE

theorem millsRec_cast (x p q : ℚ) (n : ℕ) : millsRec (x : ℝ) (p : ℝ) (q : ℝ) n = ((((millsRec x p q n).1 : ℚ) : ℝ), (((millsRec x p q n).2 : ℚ) : ℝ)) := by
  induction n with
  | zero => rfl
  | succ n ih =>
    simp only [millsRec, ih]
    push_cast
    ring_nf

/-! ## Bounds for the exponential function -/

/-- The first terms of the series of the exponential function. -/
def expS : ℕ → ℚ → ℚ
  | 0, _ => 0
  | n + 1, y => expS n y + y ^ n / n.factorial

theorem expS_cast (n : ℕ) (y : ℚ) : ((expS n y : ℚ) : ℝ) = ∑ i ∈ Finset.range n, (y : ℝ) ^ i / i.factorial := by
  induction n with
  | zero => simp [expS]
  | succ n ih =>
    rw [expS, Finset.sum_range_succ, ← ih]
    push_cast
    rfl

/-- `exp (-x^2/2) ≤ c`, checked with rational numbers. -/
def bellLe (x c : ℚ) : Bool := decide (0 ≤ x) && decide (0 ≤ c) && decide (1 ≤ c * expS 24 (x ^ 2 / 16) ^ 8)

/-- `c ≤ exp (-x^2/2)`, checked with rational numbers. -/
def bellGe (x c : ℚ) : Bool :=
  decide (0 ≤ x) && decide (x ^ 2 / 16 ≤ 1) && decide (0 ≤ c) && decide (c * (expS 24 (x ^ 2 / 16) + (x ^ 2 / 16) ^ 24 * 25 / (Nat.factorial 24 * 24)) ^ 8 ≤ 1)

theorem bell_pow (x : ℝ) : bell x * Real.exp (x ^ 2 / 16) ^ 8 = 1 := by
  rw [bell_eq, ← Real.exp_nat_mul, ← Real.exp_add]
  rw [show -x ^ 2 / 2 + ((8 : ℕ) : ℝ) * (x ^ 2 / 16) = 0 by push_cast; ring, Real.exp_zero]

theorem bellLe_ok {x c : ℚ} (h : bellLe x c = true) : bell x ≤ c := by
  simp only [bellLe, Bool.and_eq_true, decide_eq_true_eq] at h
  obtain ⟨⟨_, hc⟩, h1⟩ := h
  have h1' : (1 : ℝ) ≤ c * ((expS 24 (x ^ 2 / 16) : ℚ) : ℝ) ^ 8 := by exact_mod_cast h1
  have hc' : (0 : ℝ) ≤ c := by exact_mod_cast hc
  have hy : (0 : ℝ) ≤ ((x ^ 2 / 16 : ℚ) : ℝ) := by push_cast; positivity
  have h2 := Real.sum_le_exp_of_nonneg hy 24
  rw [← expS_cast] at h2
  have h3 : (0 : ℝ) ≤ ((expS 24 (x ^ 2 / 16) : ℚ) : ℝ) := by
    rw [expS_cast]
    exact Finset.sum_nonneg fun i _ => by positivity
  have h4 := pow_le_pow_left₀ h3 h2 8
  have h5 := bell_pow x
  push_cast at h4 h1'
  have h6 : (1 : ℝ) ≤ c * Real.exp ((x : ℝ) ^ 2 / 16) ^ 8 := h1'.trans (mul_le_mul_of_nonneg_left h4 hc')
  rw [← h5] at h6
  exact le_of_mul_le_mul_right h6 (by positivity)

theorem bellGe_ok {x c : ℚ} (h : bellGe x c = true) : (c : ℝ) ≤ bell x := by
  simp only [bellGe, Bool.and_eq_true, decide_eq_true_eq] at h
  obtain ⟨⟨⟨_, h2⟩, hc⟩, h1⟩ := h
  have hc' : (0 : ℝ) ≤ c := by exact_mod_cast hc
  have hy : (0 : ℝ) ≤ ((x ^ 2 / 16 : ℚ) : ℝ) := by push_cast; positivity
  have hy1 : ((x ^ 2 / 16 : ℚ) : ℝ) ≤ 1 := by exact_mod_cast h2
  have h3 := Real.exp_bound' hy hy1 (n := 24) (by norm_num)
  rw [← expS_cast] at h3
  have h1' : (c : ℝ) * (((expS 24 (x ^ 2 / 16) : ℚ) : ℝ) + ((x ^ 2 / 16 : ℚ) : ℝ) ^ 24 * 25 / (Nat.factorial 24 * 24)) ^ 8 ≤ 1 := by exact_mod_cast h1
  have h4 : ((x ^ 2 / 16 : ℚ) : ℝ) ^ 24 * ((24 : ℕ) + 1) / (Nat.factorial 24 * (24 : ℕ)) = ((x ^ 2 / 16 : ℚ) : ℝ) ^ 24 * 25 / (Nat.factorial 24 * 24) := by
    push_cast
    norm_num
  rw [h4] at h3
  have h5 := pow_le_pow_left₀ (Real.exp_pos _).le h3 8
  have h6 := bell_pow x
  have h7 : (c : ℝ) * Real.exp ((x ^ 2 / 16 : ℚ) : ℝ) ^ 8 ≤ 1 := (mul_le_mul_of_nonneg_left h5 hc').trans h1'
  push_cast at h7
  rw [← h6] at h7
  exact le_of_mul_le_mul_right h7 (by positivity)

end Moo
