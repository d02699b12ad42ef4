import Verif.Model.Float
import Verif.Lemmas.FloatErr
import Verif.Lemmas.FloatEps
import Mathlib.Data.Rat.Floor
import Mathlib.Algebra.Order.Round

set_option autoImplicit false

/-!
# C51: percentiles and attainment levels in double precision

`tolerance = sqrt(DBL_EPSILON)` is `2 ^ -26 = 1 / 67108864`.
-/

namespace Moo

variable {rnd : ℝ → ℝ}

theorem binary64_tol : (1 / 67108864 : ℝ) ∈ binary64 := by
  refine ⟨1, -26, by norm_num, by norm_num, ?_⟩
  rw [zpow_neg, show (26 : ℤ) = ((26 : ℕ) : ℤ) from rfl, zpow_natCast]
  norm_num

theorem binary64_tol2 : (1 / 33554432 : ℝ) ∈ binary64 := by
  refine ⟨1, -25, by norm_num, by norm_num, ?_⟩
  rw [zpow_neg, show (25 : ℤ) = ((25 : ℕ) : ℤ) from rfl, zpow_natCast]
  norm_num

theorem binary64_half : (1 / 2 : ℝ) ∈ binary64 := by
  refine ⟨1, -1, by norm_num, by norm_num, ?_⟩
  rw [zpow_neg, zpow_one]
  norm_num

/-- The level chosen for the quotient `x`. -/
noncomputable def levelOf (rnd : ℝ → ℝ) (tol x : ℝ) : ℤ := if rnd (x - (⌊x⌋ : ℝ)) ≤ tol then ⌊x⌋ else ⌈x⌉

theorem levelOf_le_ceil (tol x : ℝ) : levelOf rnd tol x ≤ ⌈x⌉ := by
  unfold levelOf
  split_ifs
  · exact Int.floor_le_ceil x
  · exact le_rfl

theorem floor_le_levelOf (tol x : ℝ) : ⌊x⌋ ≤ levelOf rnd tol x := by
  unfold levelOf
  split_ifs
  · exact le_rfl
  · exact Int.floor_le_ceil x

theorem levelOf_mono (h : Monotone rnd) (tol : ℝ) : Monotone (levelOf rnd tol) := by
  intro x y hxy
  rcases lt_or_eq_of_le (Int.floor_mono hxy) with hlt | heq
  · refine (levelOf_le_ceil tol x).trans (le_trans ?_ (floor_le_levelOf tol y))
    have : ⌈x⌉ ≤ ⌊x⌋ + 1 := Int.ceil_le_floor_add_one x
    omega
  · unfold levelOf
    by_cases hy : rnd (y - (⌊y⌋ : ℝ)) ≤ tol
    · have hx : rnd (x - (⌊x⌋ : ℝ)) ≤ tol := (h (by rw [heq]; linarith)).trans hy
      rw [if_pos hx, if_pos hy, heq]
    · rw [if_neg hy]
      split_ifs
      · exact (Int.floor_mono hxy).trans (Int.floor_le_ceil y)
      · exact Int.ceil_mono hxy

theorem levelOf_near (hr : Nearest binary64 rnd) (x : ℝ) (k : ℤ) (hx : |x - k| ≤ 1 / 67108864) : levelOf rnd (1 / 67108864) x = k := by
  obtain ⟨h1, h2⟩ := abs_le.1 hx
  unfold levelOf
  rcases le_or_gt (k : ℝ) x with h | h
  · have hf : ⌊x⌋ = k := by rw [Int.floor_eq_iff]; constructor <;> linarith
    have : rnd (x - (⌊x⌋ : ℝ)) ≤ 1 / 67108864 := by
      rw [hf]
      have := hr.mono h2
      rwa [hr.fix binary64_tol] at this
    rw [if_pos this, hf]
  · have hf : ⌊x⌋ = k - 1 := by rw [Int.floor_eq_iff]; push_cast; constructor <;> linarith
    have hc : ⌈x⌉ = k := by rw [Int.ceil_eq_iff]; constructor <;> linarith
    have : 1 / 2 ≤ rnd (x - (⌊x⌋ : ℝ)) := by
      rw [hf]
      push_cast
      have := hr.mono (by linarith : (1 / 2 : ℝ) ≤ x - (k - 1))
      rwa [hr.fix binary64_half] at this
    rw [if_neg (by linarith), hc]

theorem percentile2levelF_eq (tol p : ℝ) (n : ℤ) :
    percentile2levelF rnd tol p n = (if levelOf rnd tol (rnd (rnd ((n : ℝ) * p) / 100)) ≤ n ∧ levelOf rnd tol (rnd (rnd ((n : ℝ) * p) / 100)) ≥ 0 then
      some (if levelOf rnd tol (rnd (rnd ((n : ℝ) * p) / 100)) < 1 then 1 else levelOf rnd tol (rnd (rnd ((n : ℝ) * p) / 100))) else none) := rfl

theorem binary64_int_mul100 {n : ℤ} (h0 : 0 ≤ n) (hn : n ≤ 2 ^ 31) : (n : ℝ) * 100 ∈ binary64 := by
  have := binary64_int (n := n * 100) (by rw [abs_of_nonneg (by omega)]; omega)
  push_cast at this
  exact this

/-- Values that are not tiny. -/
theorem minNormal_le {x : ℝ} (hx : (1 / 2) ^ 1022 ≤ x) : minNormal ≤ |x| := by
  have : minNormal = (1 / 2 : ℝ) ^ 1022 := by
    unfold minNormal
    rw [zpow_neg, show (1022 : ℤ) = ((1022 : ℕ) : ℤ) from rfl, zpow_natCast, one_div, inv_pow]
  rw [this]
  exact hx.trans (le_abs_self x)

theorem minNormal_le_small : minNormal ≤ 1 / 67108864 := by
  have h1 : minNormal ≤ (2 : ℝ) ^ (-26 : ℤ) := zpow_le_zpow_right₀ (by norm_num) (by norm_num)
  have h2 : (2 : ℝ) ^ (-26 : ℤ) = 1 / 67108864 := by
    rw [zpow_neg, show (26 : ℤ) = ((26 : ℕ) : ℤ) from rfl, zpow_natCast]
    norm_num
  rwa [h2] at h1

theorem Nearest.within (hr : Nearest binary64 rnd) {k : ℕ} {x y : ℝ} (h : Within k x y) (hx : 0 ≤ x) (hy : 1 / 67108864 ≤ y) :
    Within (k + 1) x (rnd y) :=
  h.round hx (hr.rel ((minNormal_le_small.trans hy).trans (le_abs_self y)))

/-- Crude bounds for up to four roundings. -/
theorem Within.crude {k : ℕ} {x y : ℝ} (h : Within k x y) (hk : k ≤ 4) (hx : 0 ≤ x) : x / 2 ≤ y ∧ |y - x| ≤ x / 2251799813685247 := by
  have h := h.mono hx hk
  have h1 := h.lo
  have h2 := h.hi
  rw [ulpU_val] at h1 h2
  have e1 : (1 - 1 / 2251799813685247 : ℝ) ≤ (1 - 1 / 9007199254740992) ^ 4 := by norm_num
  have e2 : (1 + 1 / 9007199254740992 : ℝ) ^ 4 ≤ 1 + 1 / 2251799813685247 := by norm_num
  have h3 := (mul_le_mul_of_nonneg_right e1 hx).trans h1
  have h4 := h2.trans (mul_le_mul_of_nonneg_right e2 hx)
  refine ⟨by linarith, abs_le.2 ⟨by linarith, by linarith⟩⟩

/-- **C51 (round trip).** For up to `2^24` runs, the percentile of level `k` is converted back to level `k`, in double precision. -/
theorem C51_percentile_roundtrip_float (hr : Nearest binary64 rnd) (k n : ℤ) (hk : 1 ≤ k) (hkn : k ≤ n) (hn : n ≤ 2 ^ 24) :
    percentile2levelF rnd (1 / 67108864) (level2percentileF rnd k n) n = some k := by
  have hnr : (n : ℝ) ≤ 16777216 := by exact_mod_cast hn
  have hkr : (1 : ℝ) ≤ k := by exact_mod_cast hk
  have hknr : (k : ℝ) ≤ n := by exact_mod_cast hkn
  have hn0 : (0 : ℝ) < n := by linarith
  have h100 := hr.fix (binary64_int_mul100 (n := k) (by omega) (by omega))
  have hw : Within 3 (k : ℝ) (rnd (rnd ((n : ℝ) * level2percentileF rnd k n) / 100)) := by
    unfold level2percentileF
    split_ifs with h
    · subst h
      rw [h100, mul_div_assoc, div_self (by norm_num), mul_one, hr.fix (binary64_int (by rw [abs_of_nonneg (by omega)]; omega))]
      exact (Within.refl _).mono (by linarith) (by omega)
    · rw [h100]
      have hq : 1 / 33554432 ≤ (k : ℝ) * 100 / n := by
        rw [div_le_div_iff₀ (by norm_num) hn0]
        nlinarith
      have w1 : Within 1 ((k : ℝ) * 100 / n) (rnd ((k : ℝ) * 100 / n)) :=
        hr.within (Within.refl _) (by positivity) (by linarith)
      have w2 : Within 1 ((k : ℝ) * 100) ((n : ℝ) * rnd ((k : ℝ) * 100 / n)) := by
        have := (Within.refl (n : ℝ)).mul w1 hn0.le (by positivity)
        rw [mul_div_cancel₀ _ hn0.ne'] at this
        simpa using this
      have w3 : Within 2 ((k : ℝ) * 100) (rnd ((n : ℝ) * rnd ((k : ℝ) * 100 / n))) :=
        hr.within w2 (by positivity) (by have := (w2.crude (by omega) (by positivity)).1; linarith)
      have w4 := w3.div (by norm_num : (0 : ℝ) < 100)
      rw [mul_div_assoc, div_self (by norm_num), mul_one] at w4
      exact hr.within w4 (by linarith) (by have := (w4.crude (by omega) (by linarith)).1; linarith)
  have hnear : levelOf rnd (1 / 67108864) (rnd (rnd ((n : ℝ) * level2percentileF rnd k n) / 100)) = k := by
    apply levelOf_near hr
    refine (hw.crude (by omega) (by linarith)).2.trans ?_
    rw [div_le_iff₀ (by norm_num)]
    linarith
  rw [percentile2levelF_eq, hnear, if_pos ⟨hkn, by omega⟩, if_neg (by omega)]

/-- **C51 (default percentiles).** The percentiles that `all_percentiles` writes are converted back to the levels `1..n`, for up to `2^24` runs, although
the last one need not be 100. -/
theorem C51_all_percentiles_float (hr : Nearest binary64 rnd) (i n : ℕ) (hi : 1 ≤ i) (hin : i ≤ n) (hn : n ≤ 2 ^ 24) :
    percentile2levelF rnd (1 / 67108864) (allPercentilesF rnd n i) n = some (i : ℤ) := by
  have hnr : (n : ℝ) ≤ 16777216 := by exact_mod_cast hn
  have hkr : (1 : ℝ) ≤ i := by exact_mod_cast hi
  have hknr : (i : ℝ) ≤ n := by exact_mod_cast hin
  have hn0 : (0 : ℝ) < n := by linarith
  have hw : Within 4 (i : ℝ) (rnd (rnd (((n : ℤ) : ℝ) * allPercentilesF rnd n i) / 100)) := by
    rw [Int.cast_natCast]
    unfold allPercentilesF
    have hq : 1 / 671088 ≤ (100 : ℝ) / n := by
      rw [div_le_div_iff₀ (by norm_num) hn0]
      linarith
    have w1 : Within 1 (100 / (n : ℝ)) (rnd (100 / (n : ℝ))) := hr.within (Within.refl _) (by positivity) (by linarith)
    have w1' : Within 1 ((i : ℝ) * (100 / (n : ℝ))) ((i : ℝ) * rnd (100 / (n : ℝ))) := by
      have := (Within.refl (i : ℝ)).mul w1 (by linarith) (by positivity)
      simpa using this
    have hq2 : 1 / 671088 ≤ (i : ℝ) * (100 / (n : ℝ)) := by nlinarith
    have w2 : Within 2 ((i : ℝ) * (100 / (n : ℝ))) (rnd ((i : ℝ) * rnd (100 / (n : ℝ)))) :=
      hr.within w1' (by positivity) (by have := (w1'.crude (by omega) (by positivity)).1; linarith)
    have w2' : Within 2 ((i : ℝ) * 100) ((n : ℝ) * rnd ((i : ℝ) * rnd (100 / (n : ℝ)))) := by
      have := (Within.refl (n : ℝ)).mul w2 hn0.le (by positivity)
      rw [show (n : ℝ) * ((i : ℝ) * (100 / (n : ℝ))) = (i : ℝ) * 100 by field_simp] at this
      simpa using this
    have w3 : Within 3 ((i : ℝ) * 100) (rnd ((n : ℝ) * rnd ((i : ℝ) * rnd (100 / (n : ℝ))))) :=
      hr.within w2' (by positivity) (by have := (w2'.crude (by omega) (by positivity)).1; linarith)
    have w4 := w3.div (by norm_num : (0 : ℝ) < 100)
    rw [mul_div_assoc, div_self (by norm_num), mul_one] at w4
    exact hr.within w4 (by linarith) (by have := (w4.crude (by omega) (by linarith)).1; linarith)
  have hnear : levelOf rnd (1 / 67108864) (rnd (rnd (((n : ℤ) : ℝ) * allPercentilesF rnd n i) / 100)) = (i : ℤ) := by
    apply levelOf_near hr
    rw [Int.cast_natCast]
    refine (hw.crude (by omega) (by linarith)).2.trans ?_
    rw [div_le_iff₀ (by norm_num)]
    linarith
  rw [percentile2levelF_eq, hnear, if_pos ⟨by omega, by omega⟩, if_neg (by omega)]

/-- **C51 (no assertion fails, least level).** For `0 ≤ p ≤ 100` and up to `2^31` runs no assertion fails, the level is in `1..n`, and it is at most
every level whose percentile is at least `p`: rounding never makes it too large. -/
theorem C51_percentile2level_float (hr : Nearest binary64 rnd) (p : ℝ) (n : ℤ) (hn1 : 1 ≤ n) (hn : n ≤ 2 ^ 31) (hp0 : 0 ≤ p) (hp1 : p ≤ 100) :
    ∃ k, percentile2levelF rnd (1 / 67108864) p n = some k ∧ 1 ≤ k ∧ k ≤ n ∧ ∀ m : ℤ, 1 ≤ m → p ≤ 100 * (m : ℝ) / n → k ≤ m := by
  have hn0 : (0 : ℝ) < n := by exact_mod_cast (by omega : 0 < n)
  have hx0 : 0 ≤ rnd (rnd ((n : ℝ) * p) / 100) :=
    hr.nonneg binary64_zero (div_nonneg (hr.nonneg binary64_zero (mul_nonneg hn0.le hp0)) (by norm_num))
  -- an upper bound by an integer
  have hup : ∀ m : ℤ, 1 ≤ m → m ≤ n → p ≤ 100 * (m : ℝ) / n → rnd (rnd ((n : ℝ) * p) / 100) ≤ m := by
    intro m hm hmn h
    rw [le_div_iff₀ hn0] at h
    have h1 := hr.mono (by linarith : (n : ℝ) * p ≤ (m : ℝ) * 100)
    rw [hr.fix (binary64_int_mul100 (by omega) (by omega))] at h1
    have h2 := hr.mono ((div_le_iff₀ (by norm_num : (0 : ℝ) < 100)).2 h1)
    rwa [hr.fix (binary64_int (by rw [abs_of_nonneg (by omega)]; omega))] at h2
  have hlev : ∀ m : ℤ, 1 ≤ m → m ≤ n → p ≤ 100 * (m : ℝ) / n → levelOf rnd (1 / 67108864) (rnd (rnd ((n : ℝ) * p) / 100)) ≤ m := by
    intro m hm hmn h
    exact (levelOf_le_ceil _ _).trans (Int.ceil_le.2 (hup m hm hmn h))
  have hle := hlev n hn1 le_rfl (by rw [mul_div_assoc, div_self hn0.ne', mul_one]; exact hp1)
  have hge : 0 ≤ levelOf rnd (1 / 67108864) (rnd (rnd ((n : ℝ) * p) / 100)) :=
    (Int.floor_nonneg.2 hx0).trans (floor_le_levelOf _ _)
  rw [percentile2levelF_eq, if_pos ⟨hle, hge⟩]
  refine ⟨_, rfl, by split_ifs <;> omega, by split_ifs <;> omega, fun m hm h => ?_⟩
  rcases le_or_gt m n with hmn | hmn
  · have := hlev m hm hmn h
    split_ifs <;> omega
  · split_ifs <;> omega

/-- **C51 (the level is large enough).** For up to `2^24` runs the percentile of the level returned is at least `p`, up to three tolerances. -/
theorem C51_percentile2level_float_lower (hr : Nearest binary64 rnd) (p : ℝ) (n : ℤ) (hn1 : 1 ≤ n) (hn : n ≤ 2 ^ 24) (hp0 : 0 ≤ p) (hp1 : p ≤ 100) :
    ∃ k, percentile2levelF rnd (1 / 67108864) p n = some k ∧ p ≤ 100 * ((k : ℝ) + 3 * (1 / 67108864)) / n := by
  obtain ⟨k, hk, hk1, hkn, -⟩ := C51_percentile2level_float hr p n hn1 (by omega) hp0 hp1
  refine ⟨k, hk, ?_⟩
  have hn0 : (0 : ℝ) < n := by exact_mod_cast (by omega : 0 < n)
  have hnr : (n : ℝ) ≤ 16777216 := by exact_mod_cast hn
  have hk1r : (1 : ℝ) ≤ k := by exact_mod_cast hk1
  rw [le_div_iff₀ hn0]
  rcases le_or_gt (p * n) 100 with hsmall | hbig
  · linarith
  · have w1 : Within 1 ((n : ℝ) * p) (rnd ((n : ℝ) * p)) := hr.within (Within.refl _) (by nlinarith) (by linarith)
    have w2 := w1.div (by norm_num : (0 : ℝ) < 100)
    have hy1 : 1 ≤ (n : ℝ) * p / 100 := by rw [le_div_iff₀ (by norm_num)]; linarith
    have hyn : (n : ℝ) * p / 100 ≤ n := by rw [div_le_iff₀ (by norm_num)]; nlinarith
    have w3 : Within 2 ((n : ℝ) * p / 100) (rnd (rnd ((n : ℝ) * p) / 100)) :=
      hr.within w2 (by linarith) (by have := (w2.crude (by omega) (by linarith)).1; linarith)
    have h1 := (abs_le.1 (w3.crude (by omega) (by linarith)).2).1
    have h2 : (n : ℝ) * p / 100 / 2251799813685247 ≤ 1 / 67108864 := by
      rw [div_le_iff₀ (by norm_num)]
      linarith
    have h3 : rnd (rnd ((n : ℝ) * p) / 100) ≤ k + 2 * (1 / 67108864) := by
      rw [percentile2levelF_eq] at hk
      split_ifs at hk with hc hc2
      · have hk' := Option.some.inj hk
        have h4 : rnd (rnd ((n : ℝ) * p) / 100) ≤ (levelOf rnd (1 / 67108864) (rnd (rnd ((n : ℝ) * p) / 100)) : ℝ) + 2 * (1 / 67108864) := by
          generalize rnd (rnd ((n : ℝ) * p) / 100) = x
          unfold levelOf
          split_ifs with h
          · by_contra hn
            push Not at hn
            have := hr.mono (by linarith : (1 / 33554432 : ℝ) ≤ x - ⌊x⌋)
            rw [hr.fix binary64_tol2] at this
            norm_num at this h
            linarith
          · have := Int.le_ceil x
            linarith
        have h5 : (levelOf rnd (1 / 67108864) (rnd (rnd ((n : ℝ) * p) / 100)) : ℝ) < 1 := by exact_mod_cast hc2
        linarith
      · have hk' := Option.some.inj hk
        rw [← hk']
        generalize rnd (rnd ((n : ℝ) * p) / 100) = x
        unfold levelOf
        split_ifs with h
        · by_contra hn
          push Not at hn
          have := hr.mono (by linarith : (1 / 33554432 : ℝ) ≤ x - ⌊x⌋)
          rw [hr.fix binary64_tol2] at this
          norm_num at this h
          linarith
        · have := Int.le_ceil x
          linarith
    have h4 : (n : ℝ) * p / 100 ≤ k + 3 * (1 / 67108864) := by linarith
    rw [div_le_iff₀ (by norm_num)] at h4
    linarith

/-- **C51 (monotone).** -/
theorem C51_percentile2level_float_mono (hr : Nearest binary64 rnd) (p q : ℝ) (n : ℤ) (hn1 : 1 ≤ n) (hn : n ≤ 2 ^ 31) (hp0 : 0 ≤ p) (hpq : p ≤ q)
    (hq1 : q ≤ 100) :
    ∃ k l, percentile2levelF rnd (1 / 67108864) p n = some k ∧ percentile2levelF rnd (1 / 67108864) q n = some l ∧ k ≤ l := by
  have hn0 : (0 : ℝ) < n := by exact_mod_cast (by omega : 0 < n)
  obtain ⟨k, hk, -⟩ := C51_percentile2level_float hr p n hn1 hn hp0 (hpq.trans hq1)
  obtain ⟨l, hl, -⟩ := C51_percentile2level_float hr q n hn1 hn (hp0.trans hpq) hq1
  refine ⟨k, l, hk, hl, ?_⟩
  have hx : rnd (rnd ((n : ℝ) * p) / 100) ≤ rnd (rnd ((n : ℝ) * q) / 100) :=
    hr.mono (div_le_div_of_nonneg_right (hr.mono (mul_le_mul_of_nonneg_left hpq hn0.le)) (by norm_num))
  have := levelOf_mono hr.mono (1 / 67108864) hx
  rw [percentile2levelF_eq] at hk hl
  split_ifs at hk hl <;> have hk := Option.some.inj hk <;> have hl := Option.some.inj hl <;> omega

/-- Non-vacuity: level 1 of 3 runs; the percentile 100/3 is not a double. -/
example : ∃ rnd, Nearest binary64 rnd ∧ percentile2levelF rnd (1 / 67108864) (level2percentileF rnd 1 3) 3 = some 1 ∧
    percentile2levelF rnd (1 / 67108864) 50 3 = some 2 := by
  obtain ⟨rnd, hr⟩ := exists_nearest64
  refine ⟨rnd, hr, C51_percentile_roundtrip_float hr 1 3 (by norm_num) (by norm_num) (by norm_num), ?_⟩
  obtain ⟨k, hk, h1, h2, h3⟩ := C51_percentile2level_float hr 50 3 (by norm_num) (by norm_num) (by norm_num) (by norm_num)
  obtain ⟨k', hk', h4⟩ := C51_percentile2level_float_lower hr 50 3 (by norm_num) (by norm_num) (by norm_num) (by norm_num)
  rw [hk] at hk' ⊢
  obtain rfl := Option.some.inj hk'
  have h5 := h3 2 (by norm_num) (by norm_num)
  have h6 : k ≠ 1 := by rintro rfl; norm_num at h4
  congr 1; omega

end Moo
