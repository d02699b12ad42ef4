import Verif.Model.Float
import Verif.Lemmas.FloatEps
import Verif.Props.Normalise

set_option autoImplicit false

/-!
# C54: normalisation in double precision
-/

namespace Moo

variable {rnd : ℝ → ℝ}

theorem agreeNormaliseF_val (data : ℕ → ℕ → ℝ) (nobj n : ℕ) (mx : ℕ → Bool) (lo hi : ℝ) (L U : ℕ → ℝ) {k d : ℕ} (hk : k < n) (hd : d < nobj) :
    agreeNormaliseF rnd data nobj n mx lo hi L U k d =
      rnd (lo + rnd (rnd (rnd (hi - lo) * rnd (if mx d then U d - data k d else data k d - L d)) / normDiffF rnd (L d) (U d))) := by
  unfold agreeNormaliseF agreeObjectives normaliseF flipObjective minmaxFromBool AGREE_MINIMISE AGREE_MAXIMISE
  rcases Bool.eq_false_or_eq_true (mx d) with h | h <;> simp [hk, hd, h, sub_eq_add_neg]

theorem normDiffF_pos (hr : Nearest binary64 rnd) {l u : ℝ} (h : l ≤ u) : 0 < normDiffF rnd l u := by
  unfold normDiffF
  split_ifs with h0
  · exact one_pos
  · exact lt_of_le_of_ne (hr.nonneg binary64_zero (by linarith)) (Ne.symm h0)

theorem normStep_mono (hr : Nearest binary64 rnd) {lo hi l u s t : ℝ} (hlh : lo ≤ hi) (hlu : l ≤ u) (hst : s ≤ t) :
    rnd (lo + rnd (rnd (rnd (hi - lo) * rnd s) / normDiffF rnd l u)) ≤ rnd (lo + rnd (rnd (rnd (hi - lo) * rnd t) / normDiffF rnd l u)) := by
  have h1 : 0 ≤ rnd (hi - lo) := hr.nonneg binary64_zero (by linarith)
  have h2 := normDiffF_pos hr hlu
  exact hr.mono (add_le_add_right (hr.mono (div_le_div_of_nonneg_right (hr.mono (mul_le_mul_of_nonneg_left (hr.mono hst) h1)) h2.le)) _)

/-- **C54 (weak dominance).** Normalisation in double precision preserves weak dominance: rounding never reverses a comparison. -/
theorem C54_normalise_float_weak_dominance (hr : Nearest binary64 rnd) (data : ℕ → ℕ → ℝ) (nobj n : ℕ) (mx : ℕ → Bool) (lo hi : ℝ) (L U : ℕ → ℝ)
    (hlh : lo ≤ hi) (hLU : ∀ d < nobj, L d ≤ U d) (i j : ℕ) (hi' : i < n) (hj : j < n) (hdom : WeakDom nobj mx (data i) (data j)) :
    WeakDom nobj (fun _ => false) (agreeNormaliseF rnd data nobj n mx lo hi L U i) (agreeNormaliseF rnd data nobj n mx lo hi L U j) := by
  intro d hd
  rw [agreeNormaliseF_val data nobj n mx lo hi L U hi' hd, agreeNormaliseF_val data nobj n mx lo hi L U hj hd]
  have h := hdom d hd
  unfold AtLeastAsGood at h ⊢
  rw [if_neg (by simp)]
  apply normStep_mono hr hlh (hLU d hd)
  rcases Bool.eq_false_or_eq_true (mx d) with hm | hm <;> simp only [hm, if_true, Bool.false_eq_true, if_false] at h ⊢ <;> linarith

/-- **C54 (best value).** The best value (the lower bound, or the upper bound of a maximised objective) is mapped exactly to the start of the range. -/
theorem C54_normalise_float_best (hr : Nearest binary64 rnd) (data : ℕ → ℕ → ℝ) (nobj n : ℕ) (mx : ℕ → Bool) (lo hi : ℝ) (L U : ℕ → ℝ)
    (hlo : lo ∈ binary64) (k d : ℕ) (hk : k < n) (hd : d < nobj) (h : data k d = if mx d then U d else L d) :
    agreeNormaliseF rnd data nobj n mx lo hi L U k d = lo := by
  rw [agreeNormaliseF_val data nobj n mx lo hi L U hk hd, h]
  have h0 := hr.fix binary64_zero
  rcases Bool.eq_false_or_eq_true (mx d) with hm | hm <;>
    simp only [hm, if_true, Bool.false_eq_true, if_false, sub_self, h0, mul_zero, zero_div, add_zero, hr.fix hlo]

/-- **C54 (range of length 1).** For a target range `[lo, lo + 1]` (as the default ones, `[0, 1]` and `[1, 2]`), both bounds are mapped exactly and every value inside
the bounds is mapped into the range. -/
theorem C54_normalise_float_unit_range (hr : Nearest binary64 rnd) (data : ℕ → ℕ → ℝ) (nobj n : ℕ) (mx : ℕ → Bool) (lo hi : ℝ) (L U : ℕ → ℝ)
    (hlo : lo ∈ binary64) (hhi : hi ∈ binary64) (h1 : hi = lo + 1) (k d : ℕ) (hk : k < n) (hd : d < nobj) (hL : L d ∈ binary64) (hU : U d ∈ binary64)
    (hLU : L d < U d) :
    (data k d = L d → agreeNormaliseF rnd data nobj n mx lo hi L U k d = if mx d then hi else lo) ∧
    (data k d = U d → agreeNormaliseF rnd data nobj n mx lo hi L U k d = if mx d then lo else hi) ∧
    (L d ≤ data k d → data k d ≤ U d →
      lo ≤ agreeNormaliseF rnd data nobj n mx lo hi L U k d ∧ agreeNormaliseF rnd data nobj n mx lo hi L U k d ≤ hi) := by
  have hne : rnd (U d - L d) ≠ 0 := by
    intro h
    have := (hr.sub_nonpos hU hL).1 h.le
    linarith
  have hdiff : normDiffF rnd (L d) (U d) = rnd (U d - L d) := by unfold normDiffF; rw [if_neg hne]
  have hrange : rnd (hi - lo) = 1 := by rw [h1, add_sub_cancel_left, hr.fix binary64_one]
  have h0 := hr.fix binary64_zero
  have top : rnd (lo + rnd (rnd (rnd (hi - lo) * rnd (U d - L d)) / normDiffF rnd (L d) (U d))) = hi := by
    rw [hrange, one_mul, hr.fix (hr.mem _), hdiff, div_self hne, hr.fix binary64_one, ← h1, hr.fix hhi]
  have bot : rnd (lo + rnd (rnd (rnd (hi - lo) * rnd 0) / normDiffF rnd (L d) (U d))) = lo := by
    rw [h0, mul_zero, h0, zero_div, h0, add_zero, hr.fix hlo]
  rw [agreeNormaliseF_val data nobj n mx lo hi L U hk hd]
  refine ⟨fun e => ?_, fun e => ?_, fun e1 e2 => ?_⟩
  · rw [e]
    rcases Bool.eq_false_or_eq_true (mx d) with hm | hm <;> simp only [hm, if_true, Bool.false_eq_true, if_false, sub_self]
    · exact top
    · exact bot
  · rw [e]
    rcases Bool.eq_false_or_eq_true (mx d) with hm | hm <;> simp only [hm, if_true, Bool.false_eq_true, if_false, sub_self]
    · exact bot
    · exact top
  · constructor
    · conv_lhs => rw [← bot]
      apply normStep_mono hr (by linarith) hLU.le
      split_ifs <;> linarith
    · conv_rhs => rw [← top]
      apply normStep_mono hr (by linarith) hLU.le
      split_ifs <;> linarith

/-- No double lies between two consecutive ones, so a number above the middle is rounded up. -/
theorem Nearest.ge_next (hr : Nearest binary64 rnd) {m e : ℤ} (h1 : 2 ^ 52 ≤ m) (h2 : m < 2 ^ 53) (he : -1074 ≤ e) {x : ℝ}
    (hx : ((m : ℝ) + 1 / 2) * (2 : ℝ) ^ e < x) : ((m : ℝ) + 1) * (2 : ℝ) ^ e ≤ rnd x := by
  have p2 : (0 : ℝ) < (2 : ℝ) ^ e := zpow_pos (by norm_num) _
  have hmem : ((m : ℝ) + 1) * (2 : ℝ) ^ e ∈ binary64 := ⟨m + 1, e, by rw [abs_of_nonneg (by omega)]; omega, he, by push_cast; ring⟩
  rcases le_or_gt (((m : ℝ) + 1) * (2 : ℝ) ^ e) x with h | h
  · have := hr.mono h
    rwa [hr.fix hmem] at this
  · have hb := hr.best x _ hmem
    rw [abs_of_pos (by linarith : 0 < ((m : ℝ) + 1) * (2 : ℝ) ^ e - x)] at hb
    have hgt : (m : ℝ) * (2 : ℝ) ^ e < rnd x := by
      have := (abs_le.1 hb).1
      nlinarith
    by_contra hn
    push Not at hn
    obtain ⟨m', e', g1, g2, g3⟩ := hr.mem x
    rw [g3] at hgt hn
    rcases le_or_gt e e' with hle | hlt
    · obtain ⟨j, rfl⟩ : ∃ j : ℕ, e' = e + j := ⟨(e' - e).toNat, by omega⟩
      have hz : (2 : ℝ) ^ (e + (j : ℤ)) = (2 : ℝ) ^ j * (2 : ℝ) ^ e := by
        rw [zpow_add₀ (by norm_num), zpow_natCast, mul_comm]
      rw [hz, ← mul_assoc] at hgt hn
      have k1 : (m : ℝ) < m' * 2 ^ j := lt_of_mul_lt_mul_right hgt p2.le
      have k2 : (m' : ℝ) * 2 ^ j < m + 1 := lt_of_mul_lt_mul_right hn p2.le
      have k1' : m < m' * 2 ^ j := by exact_mod_cast k1
      have k2' : m' * 2 ^ j < m + 1 := by exact_mod_cast k2
      omega
    · have g1' : (m' : ℝ) ≤ 2 ^ 53 := by exact_mod_cast (abs_le.1 g1).2
      have hz : (2 : ℝ) ^ e' ≤ (2 : ℝ) ^ e / 2 := by
        have h3 : (2 : ℝ) ^ e' ≤ (2 : ℝ) ^ (e - 1) := zpow_le_zpow_right₀ (by norm_num) (by omega)
        rwa [zpow_sub_one₀ (by norm_num : (2 : ℝ) ≠ 0), ← div_eq_mul_inv] at h3
      have p3 : (0 : ℝ) < (2 : ℝ) ^ e' := zpow_pos (by norm_num) _
      have k1 : (m' : ℝ) * (2 : ℝ) ^ e' ≤ 2 ^ 53 * ((2 : ℝ) ^ e / 2) :=
        (mul_le_mul_of_nonneg_right g1' p3.le).trans (mul_le_mul_of_nonneg_left hz (by positivity))
      have hm : ((2 : ℝ) ^ 52) ≤ m := by exact_mod_cast h1
      have k2 : (2 : ℝ) ^ 52 * (2 : ℝ) ^ e ≤ m * (2 : ℝ) ^ e := mul_le_mul_of_nonneg_right hm p2.le
      have k3 : (2 : ℝ) ^ 53 * ((2 : ℝ) ^ e / 2) = (2 : ℝ) ^ 52 * (2 : ℝ) ^ e := by ring
      linarith

/-- **C54 (other ranges).** For other target ranges the worst value may be mapped outside of the range: with the range from 0 to the double nearest to `0.9` and the
bounds 0 and 13, the value 13 is mapped to a number larger than the end of the range. -/
theorem C54_normalise_float_exceeds_range : ∃ (data : ℕ → ℕ → ℝ) (lo hi : ℝ) (L U : ℕ → ℝ), lo ∈ binary64 ∧ hi ∈ binary64 ∧ lo < hi ∧ L 0 ∈ binary64 ∧
    U 0 ∈ binary64 ∧ L 0 < U 0 ∧ data 0 0 = U 0 ∧ ∀ rnd, Nearest binary64 rnd → hi < agreeNormaliseF rnd data 1 1 (fun _ => false) lo hi L U 0 0 := by
  have z53 : (2 : ℝ) ^ (-53 : ℤ) = 1 / 9007199254740992 := by
    rw [zpow_neg, show (53 : ℤ) = ((53 : ℕ) : ℤ) from rfl, zpow_natCast]; norm_num
  have z49 : (2 : ℝ) ^ (-49 : ℤ) = 1 / 562949953421312 := by
    rw [zpow_neg, show (49 : ℤ) = ((49 : ℕ) : ℤ) from rfl, zpow_natCast]; norm_num
  have hh : (8106479329266893 / 9007199254740992 : ℝ) ∈ binary64 := ⟨8106479329266893, -53, by norm_num, by norm_num, by rw [z53]; norm_num⟩
  have h13 : (13 : ℝ) ∈ binary64 := ⟨13, 0, by norm_num, by norm_num, by simp⟩
  refine ⟨fun _ _ => 13, 0, 8106479329266893 / 9007199254740992, fun _ => 0, fun _ => 13, binary64_zero, hh, by norm_num, binary64_zero, h13, by norm_num, rfl,
    fun rnd hr => ?_⟩
  rw [agreeNormaliseF_val _ _ _ _ _ _ _ _ (by omega) (by omega)]
  have hd : normDiffF rnd 0 13 = 13 := by unfold normDiffF; rw [sub_zero, hr.fix h13]; norm_num
  simp only [Bool.false_eq_true, if_false, sub_zero, hd, hr.fix hh, hr.fix h13, zero_add]
  have s1 := hr.ge_next (m := 6586514455029350) (e := -49) (x := 8106479329266893 / 9007199254740992 * 13) (by norm_num) (by norm_num) (by norm_num)
    (by rw [z49]; norm_num)
  rw [z49] at s1
  have s2 := hr.ge_next (m := 8106479329266893) (e := -53) (x := rnd (8106479329266893 / 9007199254740992 * 13) / 13) (by norm_num) (by norm_num) (by norm_num)
    (by rw [z53]; norm_num at s1 ⊢; linarith)
  rw [z53] at s2
  rw [hr.fix (hr.mem _)]
  norm_num at s2 ⊢
  linarith

/-- **C54 (strict dominance).** Dominance itself may be lost, also with the range `[1, 2]`: a point may dominate another one before, and be equal to it after. -/
theorem C54_normalise_float_dominance_lost : ∃ (data : ℕ → ℕ → ℝ), (∀ k < 2, data k 0 ∈ binary64 ∧ 0 ≤ data k 0 ∧ data k 0 ≤ 1) ∧
    Dom 1 (fun _ => false) (data 0) (data 1) ∧ ∀ rnd, Nearest binary64 rnd →
      agreeNormaliseF rnd data 1 2 (fun _ => false) 1 2 (fun _ => 0) (fun _ => 1) 0 0 =
      agreeNormaliseF rnd data 1 2 (fun _ => false) 1 2 (fun _ => 0) (fun _ => 1) 1 0 := by
  have z60 : (2 : ℝ) ^ (-60 : ℤ) = 1 / 1152921504606846976 := by
    rw [zpow_neg, show (60 : ℤ) = ((60 : ℕ) : ℤ) from rfl, zpow_natCast]; norm_num
  have hm : (1 / 1152921504606846976 : ℝ) ∈ binary64 := ⟨1, -60, by norm_num, by norm_num, by rw [z60]; norm_num⟩
  refine ⟨fun k _ => if k = 0 then 0 else 1 / 1152921504606846976, ?_, ?_, ?_⟩
  · intro k _
    dsimp only
    split_ifs
    · exact ⟨binary64_zero, le_rfl, zero_le_one⟩
    · exact ⟨hm, by norm_num, by norm_num⟩
  · rw [dom_iff]
    constructor
    · intro d _; simp [AtLeastAsGood]
    · intro h
      have := h 0 (by omega)
      simp [AtLeastAsGood] at this
      norm_num at this
  · intro rnd hr
    rw [agreeNormaliseF_val _ _ _ _ _ _ _ _ (by omega) (by omega), agreeNormaliseF_val _ _ _ _ _ _ _ _ (by omega) (by omega)]
    have hd : normDiffF rnd 0 1 = 1 := by unfold normDiffF; rw [sub_zero, hr.fix binary64_one]; norm_num
    have hrange : rnd (2 - 1) = 1 := by rw [show (2 : ℝ) - 1 = 1 by norm_num, hr.fix binary64_one]
    simp only [Bool.false_eq_true, if_false, sub_zero, hd, hrange, if_true, one_ne_zero, div_one, one_mul, hr.fix hm, hr.fix binary64_zero, add_zero,
      hr.fix binary64_one]
    -- the nearest double of `1 + 2 ^ -60` is 1
    have hge := hr.mono (by norm_num : (1 : ℝ) ≤ 1 + 1 / 1152921504606846976)
    rw [hr.fix binary64_one] at hge
    have hb := hr.best (1 + 1 / 1152921504606846976) 1 binary64_one
    rcases hge.lt_or_eq with h | h
    · exfalso
      have hg := binary64_gap (hr.mem _) binary64_one one_pos h
      rw [ulpU_val] at hg
      have := (abs_le.1 hb).2
      rw [show |(1 : ℝ) - (1 + 1 / 1152921504606846976)| = 1 / 1152921504606846976 by
        rw [abs_sub_comm, add_sub_cancel_left, abs_of_pos (by norm_num)]] at this
      norm_num at this hg
      linarith
    · exact h

/-- Non-vacuity of the positive statements: the range `[1, 2]`, bounds in double precision, one maximised objective. -/
example : ∃ rnd, Nearest binary64 rnd ∧ agreeNormaliseF rnd (fun _ _ => 3) 1 1 (fun _ => true) 1 2 (fun _ => 3) (fun _ => 7) 0 0 = 2 := by
  obtain ⟨rnd, hr⟩ := exists_nearest64
  refine ⟨rnd, hr, ?_⟩
  have := (C54_normalise_float_unit_range hr (fun _ _ => 3) 1 1 (fun _ => true) 1 2 (fun _ => 3) (fun _ => 7) binary64_one
    ⟨2, 0, by norm_num, by norm_num, by simp⟩ (by norm_num) 0 0 (by omega) (by omega) ⟨3, 0, by norm_num, by norm_num, by simp⟩
    ⟨7, 0, by norm_num, by norm_num, by simp⟩ (by norm_num)).1 rfl
  simpa using this

end Moo
