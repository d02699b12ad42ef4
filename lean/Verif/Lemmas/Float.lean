import Verif.Spec.Float
import Mathlib.Algebra.Order.Archimedean.Basic
import Mathlib.Algebra.Order.Round
import Mathlib.Topology.MetricSpace.HausdorffDistance
import Mathlib.Topology.Instances.Real.Lemmas
import Mathlib.Tactic.Linarith
import Mathlib.Tactic.NormNum
import Mathlib.Tactic.Ring
import Mathlib.Tactic.Positivity
import Mathlib.Tactic.FieldSimp

/-!
# Rounding to nearest
-/

set_option autoImplicit false

namespace Moo

section
variable {F : Set ℝ} {rnd : ℝ → ℝ}

theorem Nearest.fix (h : Nearest F rnd) {x : ℝ} (hx : x ∈ F) : rnd x = x := by
  have := h.best x x hx
  rw [sub_self, abs_zero] at this
  have := abs_nonpos_iff.1 this
  linarith

theorem Nearest.mono (h : Nearest F rnd) : Monotone rnd := by
  intro x y hxy
  rcases hxy.lt_or_eq with hlt | rfl
  · by_contra hn
    push Not at hn
    have h1 := h.best x (rnd y) (h.mem y)
    have h2 := h.best y (rnd x) (h.mem x)
    rw [← sq_le_sq] at h1 h2
    nlinarith
  · exact le_rfl

theorem Nearest.nonneg (h : Nearest F rnd) (h0 : (0 : ℝ) ∈ F) {x : ℝ} (hx : 0 ≤ x) : 0 ≤ rnd x := by
  have := h.mono hx
  rwa [h.fix h0] at this

theorem Nearest.nonpos (h : Nearest F rnd) (h0 : (0 : ℝ) ∈ F) {x : ℝ} (hx : x ≤ 0) : rnd x ≤ 0 := by
  have := h.mono hx
  rwa [h.fix h0] at this

end

theorem ulpU_pos : 0 < ulpU := zpow_pos (by norm_num) _
theorem minNormal_pos : 0 < minNormal := zpow_pos (by norm_num) _
theorem minSub_pos : 0 < minSub := zpow_pos (by norm_num) _
theorem ulpU_lt_one : ulpU < 1 := zpow_lt_one_of_neg₀ (by norm_num) (by norm_num)
theorem minNormal_eq : minNormal = 2 ^ 52 * minSub := by
  unfold minNormal minSub
  rw [← zpow_natCast, ← zpow_add₀ (by norm_num : (2 : ℝ) ≠ 0)]
  rfl

theorem binary64_zero : (0 : ℝ) ∈ binary64 := ⟨0, 0, by norm_num, by norm_num, by simp⟩

theorem binary64_int {n : ℤ} (hn : |n| ≤ 2 ^ 53) : (n : ℝ) ∈ binary64 := ⟨n, 0, hn, by norm_num, by simp⟩

theorem binary64_neg {x : ℝ} (hx : x ∈ binary64) : -x ∈ binary64 := by
  obtain ⟨m, e, h1, h2, rfl⟩ := hx
  exact ⟨-m, e, by rwa [abs_neg], h2, by push_cast; ring⟩

/-- All numbers are multiples of the least positive one. -/
theorem binary64_grid {x : ℝ} (hx : x ∈ binary64) : ∃ k : ℤ, x = k * minSub := by
  unfold minSub
  obtain ⟨m, e, h1, h2, rfl⟩ := hx
  obtain ⟨j, hj⟩ : ∃ j : ℕ, e = -1074 + (j : ℤ) := ⟨(e + 1074).toNat, by omega⟩
  refine ⟨m * 2 ^ j, ?_⟩
  rw [hj, zpow_add₀ (by norm_num : (2 : ℝ) ≠ 0), zpow_natCast]
  push_cast
  ring

/-- Small multiples of the least positive number are representable. -/
theorem binary64_small {k : ℤ} (hk : |k| ≤ 2 ^ 53) : (k : ℝ) * minSub ∈ binary64 := ⟨k, -1074, hk, le_rfl, rfl⟩

section
variable {rnd : ℝ → ℝ}

/-- The relative error of rounding in the normal range. -/
theorem Nearest.rel (h : Nearest binary64 rnd) {x : ℝ} (hx : minNormal ≤ |x|) : |rnd x - x| ≤ ulpU * |x| := by
  have hpos : 0 < |x| := lt_of_lt_of_le minNormal_pos hx
  obtain ⟨n, h1, h2⟩ := exists_mem_Ico_zpow hpos (by norm_num : (1 : ℝ) < 2)
  have hn : -1022 ≤ n := by
    by_contra hlt
    push Not at hlt
    have : (2 : ℝ) ^ (n + 1) ≤ minNormal := zpow_le_zpow_right₀ (by norm_num) (by omega)
    exact absurd (hx.trans_lt h2) (not_lt.2 this)
  set e : ℤ := n - 52 with he
  have hp : (0 : ℝ) < (2 : ℝ) ^ e := zpow_pos (by norm_num) _
  have e1 : (2 : ℝ) ^ n = 2 ^ 52 * (2 : ℝ) ^ e := by
    have : n = 52 + e := by omega
    rw [this, zpow_add₀ (by norm_num : (2 : ℝ) ≠ 0)]
    norm_num
  have e2 : (2 : ℝ) ^ (n + 1) = 2 ^ 53 * (2 : ℝ) ^ e := by
    have : n + 1 = 53 + e := by omega
    rw [this, zpow_add₀ (by norm_num : (2 : ℝ) ≠ 0)]
    norm_num
  have hr := abs_sub_round (x / (2 : ℝ) ^ e)
  have hmem : (round (x / (2 : ℝ) ^ e) : ℝ) * (2 : ℝ) ^ e ∈ binary64 := by
    refine ⟨_, e, ?_, by omega, rfl⟩
    have h3 : |x / (2 : ℝ) ^ e| < 2 ^ 53 := by
      rw [abs_div, abs_of_pos hp, div_lt_iff₀ hp]
      linarith
    have h4 : |(round (x / (2 : ℝ) ^ e) : ℝ)| < 2 ^ 53 + 1 := by
      have := abs_sub_abs_le_abs_sub ((round (x / (2 : ℝ) ^ e) : ℤ) : ℝ) (x / (2 : ℝ) ^ e)
      rw [abs_sub_comm] at this
      linarith
    have h5 : |round (x / (2 : ℝ) ^ e)| < 2 ^ 53 + 1 := by exact_mod_cast h4
    exact Int.lt_add_one_iff.1 h5
  have hb := h.best x _ hmem
  have hc : |(round (x / (2 : ℝ) ^ e) : ℝ) * (2 : ℝ) ^ e - x| ≤ (2 : ℝ) ^ e / 2 := by
    have : (round (x / (2 : ℝ) ^ e) : ℝ) * (2 : ℝ) ^ e - x = -((x / (2 : ℝ) ^ e - round (x / (2 : ℝ) ^ e)) * (2 : ℝ) ^ e) := by
      field_simp
      ring
    rw [this, abs_neg, abs_mul, abs_of_pos hp]
    nlinarith
  have hd : (2 : ℝ) ^ e / 2 ≤ ulpU * |x| := by
    have e3 : ulpU * (2 ^ 52 * (2 : ℝ) ^ e) = (2 : ℝ) ^ e / 2 := by
      have : ulpU = 1 / 2 ^ 53 := by unfold ulpU; rw [zpow_neg]; norm_num
      rw [this]
      ring
    rw [← e3]
    rw [e1] at h1
    exact mul_le_mul_of_nonneg_left h1 ulpU_pos.le
  exact (hb.trans hc).trans hd

/-- Sums and differences of representable numbers have the relative error of the normal range also if they are small: they are then exact. -/
theorem Nearest.rel_grid (h : Nearest binary64 rnd) {x : ℝ} (hx : ∃ k : ℤ, x = k * minSub) :
    |rnd x - x| ≤ ulpU * |x| := by
  rcases le_or_gt (minNormal) |x| with h1 | h1
  · exact h.rel h1
  · obtain ⟨k, hk⟩ := hx
    have hmem : x ∈ binary64 := by
      rw [hk]
      apply binary64_small
      have hp : (0 : ℝ) < minSub := minSub_pos
      rw [hk, abs_mul, abs_of_pos hp] at h1
      rw [minNormal_eq] at h1
      have h2 := lt_of_mul_lt_mul_right h1 hp.le
      have h4 : |k| < 2 ^ 52 := by exact_mod_cast h2
      exact h4.le.trans (by norm_num)
    rw [h.fix hmem, sub_self, abs_zero]
    exact mul_nonneg ulpU_pos.le (abs_nonneg _)

theorem Nearest.rel_add (h : Nearest binary64 rnd) {a b : ℝ} (ha : a ∈ binary64) (hb : b ∈ binary64) :
    |rnd (a + b) - (a + b)| ≤ ulpU * |a + b| := by
  obtain ⟨j, hj⟩ := binary64_grid ha
  obtain ⟨k, hk⟩ := binary64_grid hb
  exact h.rel_grid ⟨j + k, by rw [hj, hk]; push_cast; ring⟩

theorem Nearest.rel_sub (h : Nearest binary64 rnd) {a b : ℝ} (ha : a ∈ binary64) (hb : b ∈ binary64) :
    |rnd (a - b) - (a - b)| ≤ ulpU * |a - b| := by
  rw [sub_eq_add_neg]
  exact h.rel_add ha (binary64_neg hb)

/-- The sign of a rounded difference is right (gradual underflow). -/
theorem Nearest.sub_nonpos (h : Nearest binary64 rnd) {a b : ℝ} (ha : a ∈ binary64) (hb : b ∈ binary64) : rnd (a - b) ≤ 0 ↔ a ≤ b := by
  constructor
  · intro h1
    by_contra hlt
    push Not at hlt
    have h2 := h.rel_sub ha hb
    rw [abs_of_pos (by linarith : 0 < a - b)] at h2
    have h3 := (abs_le.1 h2).1
    have h4 := ulpU_lt_one
    nlinarith
  · intro h1
    exact h.nonpos binary64_zero (by linarith)

end

/-- There is a rounding to nearest. -/
theorem exists_nearest64 : ∃ rnd, Nearest binary64 rnd := by
  have key : ∀ x : ℝ, ∃ f ∈ binary64, ∀ g ∈ binary64, |f - x| ≤ |g - x| := by
    intro x
    let S : Set ℝ := {f ∈ binary64 | |f - x| ≤ |x|}
    have hS0 : (0 : ℝ) ∈ S := ⟨binary64_zero, by simp⟩
    have hfin : S.Finite := by
      have hp : (0 : ℝ) < minSub := minSub_pos
      refine ((Set.finite_Icc (-(⌈2 * |x| / minSub⌉)) (⌈2 * |x| / minSub⌉)).image
        (fun k : ℤ => (k : ℝ) * minSub)).subset ?_
      rintro f ⟨hf, hfx⟩
      obtain ⟨k, rfl⟩ := binary64_grid hf
      refine ⟨k, ?_, rfl⟩
      have h1 : |(k : ℝ) * minSub| ≤ 2 * |x| := by
        have := abs_sub_abs_le_abs_sub ((k : ℝ) * minSub) x
        linarith
      rw [abs_mul, abs_of_pos hp, ← le_div_iff₀ hp] at h1
      have h2 := h1.trans (Int.le_ceil _)
      have h3 : |k| ≤ ⌈2 * |x| / minSub⌉ := by
        have : ((|k| : ℤ) : ℝ) ≤ (⌈2 * |x| / minSub⌉ : ℝ) := by push_cast; exact h2
        exact_mod_cast this
      exact Set.mem_Icc.2 (abs_le.1 h3)
    obtain ⟨f, hf, hmin⟩ := hfin.exists_minimalFor (fun f => |f - x|) S ⟨0, hS0⟩
    refine ⟨f, hf.1, ?_⟩
    intro g hg
    by_cases hgx : |g - x| ≤ |x|
    · rcases le_total |f - x| |g - x| with hle | hle
      · exact hle
      · exact hmin ⟨hg, hgx⟩ hle
    · exact hf.2.trans (not_le.1 hgx).le
  choose f h1 h2 using key
  exact ⟨f, h1, h2⟩

end Moo
