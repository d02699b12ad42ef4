import Verif.Lemmas.Float
import Mathlib.Analysis.SpecialFunctions.Sqrt

/-!
# Relative errors of sums of nonnegative numbers
-/

set_option autoImplicit false

namespace Moo

/-- `y` is `x ≥ 0` up to `k` roundings. -/
structure Within (k : ℕ) (x y : ℝ) : Prop where
  lo : (1 - ulpU) ^ k * x ≤ y
  hi : y ≤ (1 + ulpU) ^ k * x

theorem one_sub_ulpU_pos : 0 < 1 - ulpU := by have := ulpU_lt_one; linarith
theorem one_sub_ulpU_le : 1 - ulpU ≤ 1 := by have := ulpU_pos; linarith
theorem one_le_one_add_ulpU : 1 ≤ 1 + ulpU := by have := ulpU_pos; linarith

theorem Within.refl (x : ℝ) : Within 0 x x := ⟨by simp, by simp⟩

theorem Within.mono {k l : ℕ} {x y : ℝ} (h : Within k x y) (hx : 0 ≤ x) (hkl : k ≤ l) : Within l x y := by
  constructor
  · exact (mul_le_mul_of_nonneg_right (pow_le_pow_of_le_one one_sub_ulpU_pos.le one_sub_ulpU_le hkl) hx).trans h.lo
  · exact h.hi.trans (mul_le_mul_of_nonneg_right (pow_le_pow_right₀ one_le_one_add_ulpU hkl) hx)

theorem Within.nonneg {k : ℕ} {x y : ℝ} (h : Within k x y) (hx : 0 ≤ x) : 0 ≤ y :=
  (mul_nonneg (pow_nonneg one_sub_ulpU_pos.le _) hx).trans h.lo

theorem Within.pos {k : ℕ} {x y : ℝ} (h : Within k x y) (hx : 0 < x) : 0 < y :=
  lt_of_lt_of_le (mul_pos (pow_pos one_sub_ulpU_pos _) hx) h.lo

theorem Within.zero {k : ℕ} {y : ℝ} (h : Within k 0 y) : y = 0 := by
  have h1 := h.lo
  have h2 := h.hi
  rw [mul_zero] at h1 h2
  exact le_antisymm h2 h1

theorem Within.add {k : ℕ} {x y a b : ℝ} (h1 : Within k x y) (h2 : Within k a b) : Within k (x + a) (y + b) := by
  constructor
  · rw [mul_add]; exact add_le_add h1.lo h2.lo
  · rw [mul_add]; exact add_le_add h1.hi h2.hi

theorem Within.mul {k l : ℕ} {x y a b : ℝ} (h1 : Within k x y) (h2 : Within l a b) (hx : 0 ≤ x) (ha : 0 ≤ a) : Within (k + l) (x * a) (y * b) := by
  have p1 : 0 ≤ (1 - ulpU) ^ k * x := mul_nonneg (pow_nonneg one_sub_ulpU_pos.le _) hx
  have p2 : 0 ≤ (1 - ulpU) ^ l * a := mul_nonneg (pow_nonneg one_sub_ulpU_pos.le _) ha
  have hy := h1.nonneg hx
  have hb := h2.nonneg ha
  constructor
  · calc (1 - ulpU) ^ (k + l) * (x * a) = ((1 - ulpU) ^ k * x) * ((1 - ulpU) ^ l * a) := by rw [pow_add]; ring
      _ ≤ y * b := mul_le_mul h1.lo h2.lo p2 hy
  · calc y * b ≤ ((1 + ulpU) ^ k * x) * ((1 + ulpU) ^ l * a) :=
        mul_le_mul h1.hi h2.hi hb (mul_nonneg (pow_nonneg (zero_le_one.trans one_le_one_add_ulpU) _) hx)
      _ = (1 + ulpU) ^ (k + l) * (x * a) := by rw [pow_add]; ring

theorem Within.div {k : ℕ} {x y c : ℝ} (h : Within k x y) (hc : 0 < c) : Within k (x / c) (y / c) := by
  constructor
  · rw [← mul_div_assoc]; exact div_le_div_of_nonneg_right h.lo hc.le
  · rw [← mul_div_assoc]; exact div_le_div_of_nonneg_right h.hi hc.le

/-- One more rounding. -/
theorem Within.round {k : ℕ} {x y z : ℝ} (h : Within k x y) (hx : 0 ≤ x) (hz : |z - y| ≤ ulpU * |y|) : Within (k + 1) x z := by
  have hy := h.nonneg hx
  rw [abs_of_nonneg hy] at hz
  obtain ⟨h1, h2⟩ := abs_le.1 hz
  constructor
  · calc (1 - ulpU) ^ (k + 1) * x = (1 - ulpU) * ((1 - ulpU) ^ k * x) := by rw [pow_succ]; ring
      _ ≤ (1 - ulpU) * y := mul_le_mul_of_nonneg_left h.lo one_sub_ulpU_pos.le
      _ ≤ z := by linarith
  · calc z ≤ (1 + ulpU) * y := by linarith
      _ ≤ (1 + ulpU) * ((1 + ulpU) ^ k * x) := mul_le_mul_of_nonneg_left h.hi (zero_le_one.trans one_le_one_add_ulpU)
      _ = (1 + ulpU) ^ (k + 1) * x := by rw [pow_succ]; ring

theorem Within.sqrt {k : ℕ} {x y : ℝ} (h : Within k x y) (hx : 0 ≤ x) : Within k (Real.sqrt x) (Real.sqrt y) := by
  have hs := Real.sqrt_nonneg x
  constructor
  · apply Real.le_sqrt_of_sq_le
    rw [mul_pow, Real.sq_sqrt hx]
    refine le_trans (mul_le_mul_of_nonneg_right ?_ hx) h.lo
    have h1 : (1 - ulpU) ^ k ≤ 1 := pow_le_one₀ one_sub_ulpU_pos.le one_sub_ulpU_le
    have h0 : 0 ≤ (1 - ulpU) ^ k := pow_nonneg one_sub_ulpU_pos.le _
    nlinarith
  · apply Real.sqrt_le_iff.2
    refine ⟨mul_nonneg (pow_nonneg (zero_le_one.trans one_le_one_add_ulpU) _) hs, ?_⟩
    rw [mul_pow, Real.sq_sqrt hx]
    refine h.hi.trans (mul_le_mul_of_nonneg_right ?_ hx)
    have h1 : 1 ≤ (1 + ulpU) ^ k := one_le_pow₀ one_le_one_add_ulpU
    nlinarith

theorem Within.trans {k l : ℕ} {x y z : ℝ} (h1 : Within k x y) (h2 : Within l y z) : Within (k + l) x z := by
  constructor
  · calc (1 - ulpU) ^ (k + l) * x = (1 - ulpU) ^ l * ((1 - ulpU) ^ k * x) := by rw [pow_add]; ring
      _ ≤ (1 - ulpU) ^ l * y := mul_le_mul_of_nonneg_left h1.lo (pow_nonneg one_sub_ulpU_pos.le _)
      _ ≤ z := h2.lo
  · calc z ≤ (1 + ulpU) ^ l * y := h2.hi
      _ ≤ (1 + ulpU) ^ l * ((1 + ulpU) ^ k * x) := mul_le_mul_of_nonneg_left h1.hi (pow_nonneg (zero_le_one.trans one_le_one_add_ulpU) _)
      _ = (1 + ulpU) ^ (k + l) * x := by rw [pow_add]; ring

theorem Within.min {k : ℕ} {x y a b : ℝ} (h1 : Within k x y) (h2 : Within k a b) : Within k (min x a) (min y b) := by
  have p0 : 0 ≤ (1 - ulpU) ^ k := pow_nonneg one_sub_ulpU_pos.le _
  have p1 : 0 ≤ (1 + ulpU) ^ k := pow_nonneg (zero_le_one.trans one_le_one_add_ulpU) _
  constructor
  · rw [mul_min_of_nonneg _ _ p0]; exact min_le_min h1.lo h2.lo
  · rw [mul_min_of_nonneg _ _ p1]; exact min_le_min h1.hi h2.hi

end Moo
