import Verif.Model.RngUniform
import Verif.Props.Mt19937
import Verif.Props.FloatNormalise
import Mathlib.Tactic.Linarith
import Mathlib.Algebra.Order.Floor.Ring

/-!
# C120: random numbers in an interval
-/

set_option autoImplicit false
set_option linter.unusedSectionVars false

namespace Moo

variable {rnd : ℝ → ℝ}

/-- A rounded difference, times a number less than 1 by at least one unit in the last place, does not exceed the exact difference. -/
theorem Nearest.mul_sub_le (hr : Nearest binary64 rnd) {a b u : ℝ} (ha : a ∈ binary64) (hb : b ∈ binary64) (hab : a < b) (hu1 : u ≤ 1 - ulpU) :
    rnd (rnd (b - a) * u) ≤ b - a := by
  set d := b - a with hd
  set D := rnd d with hD
  have hdpos : 0 < d := by rw [hd]; linarith
  have hD0 : 0 ≤ D := hr.nonneg binary64_zero hdpos.le
  have hDu : D * u ≤ D := by
    have : u ≤ 1 := by linarith [ulpU_pos]
    nlinarith
  have hFD : rnd (D * u) ≤ D := by
    have := hr.mono hDu
    rwa [hr.fix (hr.mem d)] at this
  rcases le_or_gt D d with h | h
  · exact hFD.trans h
  by_contra hcon
  push Not at hcon
  -- the product is rounded up to the difference
  have hFeq : rnd (D * u) = D := by
    have := hr.best d _ (hr.mem (D * u))
    rw [← hD, abs_of_pos (by linarith), abs_of_pos (by linarith)] at this
    linarith
  -- the difference is not small
  have hnorm : minNormal ≤ d := by
    by_contra hlt
    push Not at hlt
    obtain ⟨j, hj⟩ := binary64_grid ha
    obtain ⟨k, hk⟩ := binary64_grid hb
    have e : d = ((k - j : ℤ) : ℝ) * minSub := by rw [hd, hj, hk]; push_cast; ring
    have hmem : d ∈ binary64 := by
      rw [e]
      apply binary64_small
      rw [e, minNormal_eq] at hlt
      have h2 := lt_of_mul_lt_mul_right hlt minSub_pos.le
      rw [e] at hdpos
      have h3 := pos_of_mul_pos_left hdpos minSub_pos.le
      have h4 : (k - j) < 2 ^ 52 := by exact_mod_cast h2
      have h5 : 0 < k - j := by exact_mod_cast h3
      rw [abs_of_pos h5]
      exact h4.le.trans (by norm_num)
    rw [hD, hr.fix hmem] at h
    exact lt_irrefl _ h
  obtain ⟨n, h1, h2⟩ := exists_mem_Ico_zpow hdpos (by norm_num : (1 : ℝ) < 2)
  have hn : -1022 ≤ n := by
    by_contra hlt
    push Not at hlt
    have : (2 : ℝ) ^ (n + 1) ≤ minNormal := zpow_le_zpow_right₀ (by norm_num) (by omega)
    exact absurd (hnorm.trans_lt h2) (not_lt.2 this)
  obtain ⟨e, he⟩ : ∃ e : ℤ, n = 52 + e := ⟨n - 52, by omega⟩
  have hp : (0 : ℝ) < (2 : ℝ) ^ e := zpow_pos (by norm_num) _
  have e1 : (2 : ℝ) ^ n = 2 ^ 52 * (2 : ℝ) ^ e := by
    rw [he, zpow_add₀ (by norm_num : (2 : ℝ) ≠ 0)]
    norm_num
  have e2 : (2 : ℝ) ^ (n + 1) = 2 ^ 53 * (2 : ℝ) ^ e := by
    rw [show n + 1 = 53 + e by omega, zpow_add₀ (by norm_num : (2 : ℝ) ≠ 0)]
    norm_num
  rw [e1] at h1
  rw [e2] at h2
  -- the neighbours of the difference
  set k := ⌊d / (2 : ℝ) ^ e⌋ with hk
  have k1 : (k : ℝ) * (2 : ℝ) ^ e ≤ d := (le_div_iff₀ hp).1 (Int.floor_le _)
  have k2 : d < ((k : ℝ) + 1) * (2 : ℝ) ^ e := (div_lt_iff₀ hp).1 (Int.lt_floor_add_one _)
  have k3 : (k : ℝ) < 2 ^ 53 := lt_of_mul_lt_mul_right (k1.trans_lt h2) hp.le
  have k4 : k < 2 ^ 53 := by exact_mod_cast k3
  have k5 : 0 ≤ k := Int.floor_nonneg.2 (div_nonneg hdpos.le hp.le)
  have my : (k : ℝ) * (2 : ℝ) ^ e ∈ binary64 := ⟨k, e, by rw [abs_of_nonneg k5]; exact k4.le, by omega, rfl⟩
  have mY : ((k : ℝ) + 1) * (2 : ℝ) ^ e ∈ binary64 := ⟨k + 1, e, by rw [abs_of_nonneg (by omega)]; omega, by omega, by push_cast; ring⟩
  have hDY : D ≤ ((k : ℝ) + 1) * (2 : ℝ) ^ e := by
    have := hr.best d _ mY
    rw [← hD, abs_of_pos (by linarith), abs_of_pos (by linarith)] at this
    linarith
  have hgap : D * u < D - (2 : ℝ) ^ e / 2 := by
    have e3 : ulpU * (2 ^ 52 * (2 : ℝ) ^ e) = (2 : ℝ) ^ e / 2 := by
      have : ulpU = 1 / 2 ^ 53 := by unfold ulpU; rw [zpow_neg]; norm_num
      rw [this]
      ring
    have e4 : ulpU * (2 ^ 52 * (2 : ℝ) ^ e) < ulpU * D := mul_lt_mul_of_pos_left (h1.trans_lt h) ulpU_pos
    have e5 : D * u ≤ D * (1 - ulpU) := mul_le_mul_of_nonneg_left hu1 hD0
    nlinarith
  rcases le_or_gt (D * u) ((k : ℝ) * (2 : ℝ) ^ e) with hle | hlt
  · have := hr.mono hle
    rw [hr.fix my] at this
    linarith
  · have := hr.best (D * u) _ my
    rw [hFeq, abs_of_pos (by linarith), abs_of_neg (by linarith)] at this
    nlinarith

/-- **C120.**  `rng_uniform(rng, low, high)` on doubles is `low` without using the generator if `low ≥ high`, and otherwise uses the next two words
and is a double in `[low, high]`, although the difference, the product and the sum are rounded. -/
theorem C120_range (hr : Nearest binary64 rnd) {low high : ℝ} (hl : low ∈ binary64) (hh : high ∈ binary64) (s s' : MtState) (w1 w2 : BitVec 32)
    (hw : mtWords 2 s = some ([w1, w2], s')) :
    (high ≤ low → rngUniform rnd s low high = some (low, s)) ∧
    (low < high → ∃ r ∈ binary64, rngUniform rnd s low high = some (r, s') ∧ low ≤ r ∧ r ≤ high) := by
  obtain ⟨hd, hlt⟩ := C58_random rnd hr s w1 w2 s' hw
  constructor
  · intro h
    unfold rngUniform
    rw [if_pos h]
  · intro h
    unfold rngUniform
    rw [if_neg (not_le.2 h), hd]
    dsimp only
    set u : ℝ := (((w1.toNat / 2 ^ 5) * 2 ^ 26 + w2.toNat / 2 ^ 6 : ℕ) : ℝ) / 2 ^ 53 with hu
    have hu0 : 0 ≤ u := div_nonneg (Nat.cast_nonneg _) (by norm_num)
    have hu1 : u ≤ 1 - ulpU := by
      have e : ulpU = 1 / 2 ^ 53 := by unfold ulpU; rw [zpow_neg]; norm_num
      have : (((w1.toNat / 2 ^ 5) * 2 ^ 26 + w2.toNat / 2 ^ 6 : ℕ) : ℝ) ≤ 2 ^ 53 - 1 := by
        have h1 : (((w1.toNat / 2 ^ 5) * 2 ^ 26 + w2.toNat / 2 ^ 6 + 1 : ℕ) : ℝ) ≤ ((2 ^ 53 : ℕ) : ℝ) := Nat.cast_le.2 hlt
        rw [Nat.cast_add, Nat.cast_one] at h1
        have h2 : ((2 ^ 53 : ℕ) : ℝ) = 2 ^ 53 := by norm_num
        linarith
      rw [hu, e, div_le_iff₀ (by norm_num)]
      refine this.trans (le_of_eq ?_)
      norm_num
    have hd0 : 0 ≤ rnd (high - low) := hr.nonneg binary64_zero (by linarith)
    refine ⟨_, hr.mem _, rfl, ?_, ?_⟩
    · have := hr.mono (show low ≤ low + rnd (rnd (high - low) * u) by linarith [hr.nonneg binary64_zero (mul_nonneg hd0 hu0)])
      rwa [hr.fix hl] at this
    · have := hr.mono (show low + rnd (rnd (high - low) * u) ≤ high by linarith [hr.mul_sub_le hl hh h hu1])
      rwa [hr.fix hh] at this

/-- **C120.**  In exact arithmetic the result is `low + (high - low) k / 2^53` for the 53-bit number `k` made of the next two words, hence less than
`high`. -/
theorem C120_exact (hr : Nearest binary64 rnd) {low high : ℝ} (hlh : low < high) (s s' : MtState) (w1 w2 : BitVec 32) (hw : mtWords 2 s = some ([w1, w2], s'))
    (e1 : rnd (high - low) = high - low) (e2 : ∀ k : ℕ, k < 2 ^ 53 → rnd ((high - low) * (k / 2 ^ 53)) = (high - low) * (k / 2 ^ 53))
    (e3 : ∀ k : ℕ, k < 2 ^ 53 → rnd (low + (high - low) * (k / 2 ^ 53)) = low + (high - low) * (k / 2 ^ 53)) :
    ∃ k : ℕ, k < 2 ^ 53 ∧ k = (w1.toNat / 2 ^ 5) * 2 ^ 26 + w2.toNat / 2 ^ 6 ∧ rngUniform rnd s low high = some (low + (high - low) * (k / 2 ^ 53), s') ∧
      low + (high - low) * (k / 2 ^ 53) < high := by
  obtain ⟨hd, hlt⟩ := C58_random rnd hr s w1 w2 s' hw
  refine ⟨_, hlt, rfl, ?_, ?_⟩
  · unfold rngUniform
    rw [if_neg (not_le.2 hlh), hd]
    dsimp only
    rw [e1, e2 _ hlt, e3 _ hlt]
  · have h1 : (((w1.toNat / 2 ^ 5) * 2 ^ 26 + w2.toNat / 2 ^ 6 : ℕ) : ℝ) / 2 ^ 53 < 1 := by
      rw [div_lt_one (by norm_num)]
      have := Nat.cast_lt (α := ℝ).2 hlt
      rwa [show ((2 ^ 53 : ℕ) : ℝ) = 2 ^ 53 by norm_num] at this
    nlinarith

theorem one_mem64 : (1 : ℝ) ∈ binary64 := ⟨1, 0, by norm_num, by norm_num, by simp⟩

theorem oneNext_mem64 : (1 : ℝ) + 2 ^ (-52 : ℤ) ∈ binary64 := ⟨2 ^ 52 + 1, -52, by norm_num, by norm_num, by norm_num⟩

/-- **C120.**  `high` itself can be returned: between 1 and the next double it is whenever the uniform number is greater than 1/2, that is, when the
first of the two words is at least 2147483680. -/
theorem C120_false_open (hr : Nearest binary64 rnd) (s s' : MtState) (w1 w2 : BitVec 32) (hw : mtWords 2 s = some ([w1, w2], s')) (h1 : 2147483680 ≤ w1.toNat) :
    rngUniform rnd s 1 (1 + 2 ^ (-52 : ℤ)) = some (1 + 2 ^ (-52 : ℤ), s') := by
  have hlt : (1 : ℝ) < 1 + 2 ^ (-52 : ℤ) := by norm_num
  obtain ⟨r, _, e, _, hle⟩ := (C120_range hr one_mem64 oneNext_mem64 s s' w1 w2 hw).2 hlt
  obtain ⟨hd, hk⟩ := C58_random rnd hr s w1 w2 s' hw
  have e' := e
  unfold rngUniform at e
  rw [if_neg (not_le.2 hlt), hd] at e
  dsimp only at e
  rw [Option.some.injEq, Prod.mk.injEq] at e
  set k : ℕ := (w1.toNat / 2 ^ 5) * 2 ^ 26 + w2.toNat / 2 ^ 6 with hkd
  have hk2 : 2 ^ 52 < k := by omega
  have hk3 : ((2 ^ 52 : ℕ) : ℝ) < (k : ℝ) := Nat.cast_lt.2 hk2
  have f1 : rnd (1 + 2 ^ (-52 : ℤ) - 1) = (2 : ℝ) ^ (-52 : ℤ) := by
    rw [add_sub_cancel_left]
    exact hr.fix ⟨1, -52, by norm_num, by norm_num, by norm_num⟩
  have f2 : rnd ((2 : ℝ) ^ (-52 : ℤ) * ((k : ℝ) / 2 ^ 53)) = (k : ℝ) * (2 : ℝ) ^ (-105 : ℤ) := by
    have : (2 : ℝ) ^ (-52 : ℤ) * ((k : ℝ) / 2 ^ 53) = (k : ℝ) * (2 : ℝ) ^ (-105 : ℤ) := by
      rw [show (-105 : ℤ) = -52 + -53 by norm_num, zpow_add₀ (by norm_num : (2 : ℝ) ≠ 0)]
      norm_num
      ring
    rw [this]
    refine hr.fix ⟨k, -105, ?_, by norm_num, by simp⟩
    rw [abs_of_nonneg (Int.natCast_nonneg _)]
    exact_mod_cast hk.le
  rw [f1, f2] at e
  have hge := hr.ge_next (m := 2 ^ 52) (e := -52) le_rfl (by norm_num) (by norm_num) (x := 1 + (k : ℝ) * (2 : ℝ) ^ (-105 : ℤ)) (by
    have h53 : (2 : ℝ) ^ (52 : ℕ) * (2 : ℝ) ^ (-105 : ℤ) < (k : ℝ) * (2 : ℝ) ^ (-105 : ℤ) :=
      mul_lt_mul_of_pos_right (by rwa [show ((2 ^ 52 : ℕ) : ℝ) = 2 ^ 52 by norm_num] at hk3) (zpow_pos (by norm_num) _)
    refine lt_of_eq_of_lt ?_ (add_lt_add_right h53 1)
    norm_num)
  rw [e.1] at hge
  rw [e']
  have : r = 1 + 2 ^ (-52 : ℤ) := le_antisymm hle (le_trans (le_of_eq (by norm_num)) hge)
  rw [this]

/-- Non-vacuity: after seeding with 5489 the first two words are as in `C120_range` and `C120_false_open`. -/
example : (mtWords 2 (mtSeed (fun _ => 0#32) 5489#32)).map Prod.fst = some [3499211612#32, 581869302#32] ∧ 2147483680 ≤ (3499211612#32).toNat := by
  decide +kernel

/-- Non-vacuity of `C120_exact`: nothing is rounded in the interval from 0 to 1. -/
example (hr : Nearest binary64 rnd) (k : ℕ) (hk : k < 2 ^ 53) : rnd ((1 - 0) * ((k : ℝ) / 2 ^ 53)) = (1 - 0) * ((k : ℝ) / 2 ^ 53) := by
  refine hr.fix ⟨k, -53, ?_, by norm_num, ?_⟩
  · rw [abs_of_nonneg (Int.natCast_nonneg _)]
    exact_mod_cast hk.le
  · rw [zpow_neg]
    norm_num
    ring

end Moo
