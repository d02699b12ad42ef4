import Verif.Model.Float
import Verif.Lemmas.FloatErr
import Verif.Props.Igd
import Verif.Props.FloatHv2d
import Verif.Lemmas.FloatEps

set_option autoImplicit false

/-!
# C53: IGD and IGD+ in double precision
-/

namespace Moo

variable {rnd : ℝ → ℝ}

/-- What is assumed of `(double) sqrtl(x)`: a double, within two roundings of the square root (one to `long double`, one to `double`). -/
structure SqrtOk (fsqrt : ℝ → ℝ) : Prop where
  mem : ∀ x ∈ binary64, 0 ≤ x → fsqrt x ∈ binary64
  lo : ∀ x ∈ binary64, 0 ≤ x → (1 - (2 : ℝ) ^ (-53 : ℤ)) ^ 2 * Real.sqrt x ≤ fsqrt x
  hi : ∀ x ∈ binary64, 0 ≤ x → fsqrt x ≤ (1 + (2 : ℝ) ^ (-53 : ℤ)) ^ 2 * Real.sqrt x

theorem minNormal_mem : minNormal ∈ binary64 := ⟨1, -1022, by norm_num, by norm_num, by unfold minNormal; simp⟩

theorem gdDiffF_eq (hr : Nearest binary64 rnd) (plus : Bool) (dir : ℤ) (a r : ℝ) : gdDiffF rnd plus dir a r = rnd (gdDiff plus dir a r) := by
  unfold gdDiffF gdDiff
  split_ifs
  · rfl
  · rw [cMax_eq, cMax_eq, hr.mono.map_max, hr.fix binary64_zero]
  · rw [cMax_eq, cMax_eq, hr.mono.map_max, hr.fix binary64_zero]

theorem gdDiff_cases (plus : Bool) (dir : ℤ) (a r : ℝ) : gdDiff plus dir a r = 0 ∨ gdDiff plus dir a r = r - a ∨ gdDiff plus dir a r = a - r := by
  unfold gdDiff
  split_ifs
  · exact Or.inr (Or.inl rfl)
  · rw [cMax_eq]
    rcases max_cases (r - a) 0 with h | h
    · exact Or.inr (Or.inl h.1)
    · exact Or.inl h.1
  · rw [cMax_eq]
    rcases max_cases (a - r) 0 with h | h
    · exact Or.inr (Or.inr h.1)
    · exact Or.inl h.1

theorem within_sq (hr : Nearest binary64 rnd) {x : ℝ} (hrel : |rnd x - x| ≤ ulpU * |x|) (hgap : x = 0 ∨ sqrtMinNormal ≤ |x|) :
    Within 3 (x * x) (rnd (rnd x * rnd x)) ∧ (x * x = 0 ∨ minNormal ≤ rnd (rnd x * rnd x)) := by
  rcases hgap with rfl | hgap
  · rw [hr.fix binary64_zero, mul_zero, hr.fix binary64_zero]
    exact ⟨(Within.refl 0).mono le_rfl (by omega), Or.inl rfl⟩
  · have hF : sqrtMinNormal ≤ |rnd x| := by
      rcases le_or_gt 0 x with h0 | h0
      · rw [abs_of_nonneg h0] at hgap
        have := hr.mono hgap
        rw [hr.fix sqrtMinNormal_mem] at this
        exact this.trans (le_abs_self _)
      · rw [abs_of_neg h0] at hgap
        have := hr.mono (by linarith : x ≤ -sqrtMinNormal)
        rw [hr.fix (binary64_neg sqrtMinNormal_mem)] at this
        exact (by linarith : sqrtMinNormal ≤ -rnd x).trans (neg_le_abs _)
    have w1 : Within 1 |x| |rnd x| := by
      have h1 := abs_sub_abs_le_abs_sub (rnd x) x
      have h2 := abs_sub_abs_le_abs_sub x (rnd x)
      rw [abs_sub_comm x] at h2
      constructor
      · rw [pow_one]; linarith
      · rw [pow_one]; linarith
    have w2 := w1.mul w1 (abs_nonneg _) (abs_nonneg _)
    rw [abs_mul_abs_self, abs_mul_abs_self] at w2
    have hm : minNormal ≤ rnd x * rnd x := by
      rw [← sqrtMinNormal_mul, ← abs_mul_abs_self (rnd x)]
      exact mul_le_mul hF hF sqrtMinNormal_pos.le (abs_nonneg _)
    refine ⟨w2.round (mul_self_nonneg x) (hr.rel (hm.trans (le_abs_self _))), Or.inr ?_⟩
    have := hr.mono hm
    rwa [hr.fix minNormal_mem] at this

/-- The coordinates of the two rows are doubles, and different values differ by at least `2 ^ -511`. -/
def GapOk (dim : ℕ) (pa pr : ℕ → ℝ) : Prop :=
  ∀ d < dim, pa d ∈ binary64 ∧ pr d ∈ binary64 ∧ (pa d = pr d ∨ (2 : ℝ) ^ (-511 : ℤ) ≤ |pa d - pr d|)

theorem gdDistF_within (hr : Nearest binary64 rnd) (dim : ℕ) (minmax : ℕ → ℤ) (plus : Bool) (pa pr : ℕ → ℝ) (hgap : GapOk dim pa pr) :
    Within (dim + 3) (gdDist dim minmax plus pa pr) (gdDistF rnd dim minmax plus pa pr) ∧ gdDistF rnd dim minmax plus pa pr ∈ binary64 ∧
    (gdDist dim minmax plus pa pr = 0 ∨ minNormal ≤ gdDistF rnd dim minmax plus pa pr) := by
  induction dim with
  | zero => exact ⟨(Within.refl 0).mono le_rfl (by omega), binary64_zero, Or.inl rfl⟩
  | succ n ih =>
    obtain ⟨w, hm, hp⟩ := ih (fun d hd => hgap d (by omega))
    have h0 := gdDist_nonneg n minmax plus pa pr
    have e1 : gdDist (n + 1) minmax plus pa pr = if minmax n = 0 then gdDist n minmax plus pa pr else
        gdDist n minmax plus pa pr + gdDiff plus (minmax n) (pa n) (pr n) * gdDiff plus (minmax n) (pa n) (pr n) := by
      unfold gdDist
      rw [List.range_succ, List.foldl_append]
      rfl
    have e2 : gdDistF rnd (n + 1) minmax plus pa pr = if minmax n = 0 then gdDistF rnd n minmax plus pa pr else
        rnd (gdDistF rnd n minmax plus pa pr +
          rnd (gdDiffF rnd plus (minmax n) (pa n) (pr n) * gdDiffF rnd plus (minmax n) (pa n) (pr n))) := by
      unfold gdDistF
      rw [List.range_succ, List.foldl_append]
      rfl
    rw [e1, e2]
    split_ifs with hz
    · exact ⟨w.mono h0 (by omega), hm, hp⟩
    · rw [gdDiffF_eq hr]
      obtain ⟨g1, g2, g3⟩ := hgap n (by omega)
      have hrel : |rnd (gdDiff plus (minmax n) (pa n) (pr n)) - gdDiff plus (minmax n) (pa n) (pr n)| ≤
          ulpU * |gdDiff plus (minmax n) (pa n) (pr n)| := by
        rcases gdDiff_cases plus (minmax n) (pa n) (pr n) with h | h | h <;> rw [h]
        · rw [hr.fix binary64_zero]; simp
        · exact hr.rel_sub g2 g1
        · exact hr.rel_sub g1 g2
      have hg : gdDiff plus (minmax n) (pa n) (pr n) = 0 ∨ sqrtMinNormal ≤ |gdDiff plus (minmax n) (pa n) (pr n)| := by
        rcases gdDiff_cases plus (minmax n) (pa n) (pr n) with h | h | h <;> rw [h]
        · exact Or.inl rfl
        · rcases g3 with g3 | g3
          · exact Or.inl (by rw [g3, sub_self])
          · exact Or.inr (by rw [abs_sub_comm]; exact g3)
        · rcases g3 with g3 | g3
          · exact Or.inl (by rw [g3, sub_self])
          · exact Or.inr g3
      obtain ⟨w3, hp3⟩ := within_sq hr hrel hg
      have hs := mul_self_nonneg (gdDiff plus (minmax n) (pa n) (pr n))
      have ht := w3.nonneg hs
      have hF0 := w.nonneg h0
      have w4 := (w.add (w3.mono hs (by omega))).round (add_nonneg h0 hs) (hr.rel_add hm (hr.mem _))
      refine ⟨by rw [show n + 1 + 3 = n + 3 + 1 by ring]; exact w4, hr.mem _, ?_⟩
      rcases hp with hp | hp
      · rcases hp3 with hp3 | hp3
        · exact Or.inl (by rw [hp, hp3, add_zero])
        · right
          have := hr.mono (by linarith : minNormal ≤ gdDistF rnd n minmax plus pa pr +
            rnd (rnd (gdDiff plus (minmax n) (pa n) (pr n)) * rnd (gdDiff plus (minmax n) (pa n) (pr n))))
          rwa [hr.fix minNormal_mem] at this
      · right
        have := hr.mono (by linarith : minNormal ≤ gdDistF rnd n minmax plus pa pr +
          rnd (rnd (gdDiff plus (minmax n) (pa n) (pr n)) * rnd (gdDiff plus (minmax n) (pa n) (pr n))))
        rwa [hr.fix minNormal_mem] at this

theorem gdMinF_within (hr : Nearest binary64 rnd) (dim : ℕ) (minmax : ℕ → ℤ) (plus : Bool) (pa : ℕ → ℝ) (R : ℕ → ℕ → ℝ) (n : ℕ)
    (hgap : ∀ r < n + 1, GapOk dim pa (R r)) :
    ∃ v vF : ℝ, gdMin dim minmax plus pa R (n + 1) = (v : WithTop ℝ) ∧ gdMinF rnd dim minmax plus pa R (n + 1) = (vF : WithTop ℝ) ∧
      0 ≤ v ∧ vF ∈ binary64 ∧ Within (dim + 3) v vF ∧ (v = 0 ∨ minNormal ≤ vF) := by
  induction n with
  | zero =>
    obtain ⟨w, hm, hp⟩ := gdDistF_within hr dim minmax plus pa (R 0) (hgap 0 (by omega))
    exact ⟨_, _, by unfold gdMin; simp, by unfold gdMinF; simp, gdDist_nonneg _ _ _ _ _, hm, w, hp⟩
  | succ n ih =>
    obtain ⟨v, vF, e, eF, h0, hm, w, hp⟩ := ih (fun r hr => hgap r (by omega))
    obtain ⟨w2, hm2, hp2⟩ := gdDistF_within hr dim minmax plus pa (R (n + 1)) (hgap (n + 1) (by omega))
    have h2 := gdDist_nonneg dim minmax plus pa (R (n + 1))
    have e2 : gdMin dim minmax plus pa R (n + 1 + 1) = ((min (gdDist dim minmax plus pa (R (n + 1))) v : ℝ) : WithTop ℝ) := by
      have : gdMin dim minmax plus pa R (n + 1 + 1) =
          if ((gdDist dim minmax plus pa (R (n + 1)) : ℝ) : WithTop ℝ) < gdMin dim minmax plus pa R (n + 1)
          then (gdDist dim minmax plus pa (R (n + 1)) : WithTop ℝ) else gdMin dim minmax plus pa R (n + 1) := by
        unfold gdMin
        rw [List.range_succ, List.foldl_append]
        rfl
      rw [this, e]
      by_cases h : gdDist dim minmax plus pa (R (n + 1)) < v
      · rw [if_pos (WithTop.coe_lt_coe.2 h), min_eq_left h.le]
      · rw [if_neg (fun h' => h (WithTop.coe_lt_coe.1 h')), min_eq_right (not_lt.1 h)]
    have e3 : gdMinF rnd dim minmax plus pa R (n + 1 + 1) = ((min (gdDistF rnd dim minmax plus pa (R (n + 1))) vF : ℝ) : WithTop ℝ) := by
      have : gdMinF rnd dim minmax plus pa R (n + 1 + 1) =
          if ((gdDistF rnd dim minmax plus pa (R (n + 1)) : ℝ) : WithTop ℝ) < gdMinF rnd dim minmax plus pa R (n + 1)
          then (gdDistF rnd dim minmax plus pa (R (n + 1)) : WithTop ℝ) else gdMinF rnd dim minmax plus pa R (n + 1) := by
        unfold gdMinF
        rw [List.range_succ, List.foldl_append]
        rfl
      rw [this, eF]
      by_cases h : gdDistF rnd dim minmax plus pa (R (n + 1)) < vF
      · rw [if_pos (WithTop.coe_lt_coe.2 h), min_eq_left h.le]
      · rw [if_neg (fun h' => h (WithTop.coe_lt_coe.1 h')), min_eq_right (not_lt.1 h)]
    refine ⟨_, _, e2, e3, le_min h2 h0, ?_, w2.min w, ?_⟩
    · rcases min_choice (gdDistF rnd dim minmax plus pa (R (n + 1))) vF with h | h <;> rw [h]
      · exact hm2
      · exact hm
    · rcases hp with hp | hp
      · left; rw [hp, min_eq_right h2]
      · rcases hp2 with hp2 | hp2
        · left; rw [hp2, min_eq_left h0]
        · right; exact le_min hp2 hp

theorem sqrt_minNormal : Real.sqrt minNormal = sqrtMinNormal := by
  rw [← sqrtMinNormal_mul]; exact Real.sqrt_mul_self sqrtMinNormal_pos.le

/-- `2 ^ -512` -/
noncomputable def tinySum : ℝ := (2 : ℝ) ^ (-512 : ℤ)

theorem tinySum_mem : tinySum ∈ binary64 := ⟨1, -512, by norm_num, by norm_num, by unfold tinySum; simp⟩
theorem tinySum_pos : 0 < tinySum := zpow_pos (by norm_num) _
theorem tinySum_eq : sqrtMinNormal = 2 * tinySum := by
  unfold sqrtMinNormal tinySum
  rw [← zpow_one_add₀ (by norm_num : (2 : ℝ) ≠ 0)]
  norm_num

theorem fsqrt_within {fsqrt : ℝ → ℝ} (hs : SqrtOk fsqrt) {k : ℕ} {v vF : ℝ} (h0 : 0 ≤ v) (hm : vF ∈ binary64) (w : Within k v vF)
    (hp : v = 0 ∨ minNormal ≤ vF) : Within (k + 2) (Real.sqrt v) (fsqrt vF) ∧ (Real.sqrt v = 0 ∨ tinySum ≤ fsqrt vF) := by
  have hF := w.nonneg h0
  have w2 : Within 2 (Real.sqrt vF) (fsqrt vF) := ⟨hs.lo vF hm hF, hs.hi vF hm hF⟩
  refine ⟨(w.sqrt h0).trans w2, ?_⟩
  rcases hp with rfl | hp
  · left; exact Real.sqrt_zero
  · right
    have h1 : sqrtMinNormal ≤ Real.sqrt vF := by rw [← sqrt_minNormal]; exact Real.sqrt_le_sqrt hp
    have h2 := w2.lo
    rw [tinySum_eq] at h1
    have h3 : (1 / 2 : ℝ) ≤ (1 - ulpU) ^ 2 := by
      rw [show ulpU = 1 / 9007199254740992 from ulpU_val]; norm_num
    have h4 : 0 ≤ Real.sqrt vF := Real.sqrt_nonneg _
    nlinarith

theorem gdSumF_within (hr : Nearest binary64 rnd) {fsqrt : ℝ → ℝ} (hs : SqrtOk fsqrt) (dim : ℕ) (minmax : ℕ → ℤ) (plus : Bool) (A : ℕ → ℕ → ℝ)
    (R : ℕ → ℕ → ℝ) (nR : ℕ) (N : ℕ) (hgap : ∀ a < N, ∀ r < nR + 1, GapOk dim (A a) (R r)) :
    ∃ s sF : ℝ, (List.range N).foldl (fun (gd : WithTop ℝ) a => gd + (gdMin dim minmax plus (A a) R (nR + 1)).map Real.sqrt) (0 : WithTop ℝ) = (s : WithTop ℝ) ∧
      (List.range N).foldl (fun (gd : WithTop ℝ) a => WithTop.map rnd (gd + (gdMinF rnd dim minmax plus (A a) R (nR + 1)).map fsqrt)) (0 : WithTop ℝ) =
        (sF : WithTop ℝ) ∧ 0 ≤ s ∧ sF ∈ binary64 ∧ Within (dim + 5 + N) s sF ∧ (s = 0 ∨ tinySum ≤ sF) := by
  induction N with
  | zero => exact ⟨0, 0, rfl, rfl, le_rfl, binary64_zero, (Within.refl 0).mono le_rfl (by omega), Or.inl rfl⟩
  | succ N ih =>
    obtain ⟨s, sF, e, eF, h0, hm, w, hp⟩ := ih (fun a ha => hgap a (by omega))
    obtain ⟨v, vF, ev, evF, hv0, hvm, wv, hvp⟩ := gdMinF_within hr dim minmax plus (A N) R nR (hgap N (by omega))
    obtain ⟨wq, hq⟩ := fsqrt_within hs hv0 hvm wv hvp
    have hsq := Real.sqrt_nonneg v
    have hF0 := w.nonneg h0
    have hqF0 := wq.nonneg hsq
    refine ⟨s + Real.sqrt v, rnd (sF + fsqrt vF), ?_, ?_, add_nonneg h0 hsq, hr.mem _, ?_, ?_⟩
    · rw [List.range_succ, List.foldl_append, e]
      simp only [List.foldl_cons, List.foldl_nil]
      rw [ev]
      rfl
    · rw [List.range_succ, List.foldl_append, eF]
      simp only [List.foldl_cons, List.foldl_nil]
      rw [evF]
      rfl
    · exact (w.add (wq.mono hsq (by omega))).round (add_nonneg h0 hsq) (hr.rel_add hm (hs.mem vF hvm (wv.nonneg hv0)))
    · rcases hp with hp | hp
      · rcases hq with hq | hq
        · left; rw [hp, hq, add_zero]
        · right
          have := hr.mono (by linarith : tinySum ≤ sF + fsqrt vF)
          rwa [hr.fix tinySum_mem] at this
      · right
        have := hr.mono (by linarith : tinySum ≤ sF + fsqrt vF)
        rwa [hr.fix tinySum_mem] at this

theorem minNormal_le_tiny (n : ℕ) (hn : n ≤ 2 ^ 53) (hn0 : 0 < n) {x : ℝ} (hx : tinySum ≤ x) : minNormal ≤ x / n := by
  have h1 : (n : ℝ) ≤ 2 ^ 53 := by exact_mod_cast hn
  have h0 : (0 : ℝ) < n := by exact_mod_cast hn0
  rw [le_div_iff₀ h0]
  refine le_trans ?_ hx
  calc minNormal * n ≤ minNormal * 2 ^ 53 := mul_le_mul_of_nonneg_left h1 minNormal_pos.le
    _ = (2 : ℝ) ^ (-969 : ℤ) := by
      unfold minNormal
      rw [← zpow_natCast, ← zpow_add₀ (by norm_num : (2 : ℝ) ≠ 0)]
      norm_num
    _ ≤ tinySum := zpow_le_zpow_right₀ (by norm_num) (by norm_num)

/-- `gd_common` in floating point against `gd_common` in exact arithmetic. -/
theorem gdCommonF_within (hr : Nearest binary64 rnd) {fsqrt : ℝ → ℝ} (hs : SqrtOk fsqrt) (dim : ℕ) (minmax : ℕ → ℤ) (plus psize : Bool) (A : ℕ → ℕ → ℝ)
    (nA : ℕ) (R : ℕ → ℕ → ℝ) (nR : ℕ) (hA : 0 < nA) (hA2 : nA ≤ 2 ^ 53) (hR : 0 < nR) (hgap : ∀ a < nA, ∀ r < nR, GapOk dim (A a) (R r)) :
    ∃ v vF : ℝ, gdCommon dim minmax A nA R nR plus psize 1 = (v : WithTop ℝ) ∧ gdCommonF rnd fsqrt dim minmax A nA R nR plus = (vF : WithTop ℝ) ∧
      0 ≤ v ∧ Within (dim + nA + 6) v vF := by
  obtain ⟨n, rfl⟩ : ∃ n, nR = n + 1 := ⟨nR - 1, by omega⟩
  obtain ⟨s, sF, e, eF, h0, hm, w, hp⟩ := gdSumF_within hr hs dim minmax plus A R n nA hgap
  have hn0 : (0 : ℝ) < nA := by exact_mod_cast hA
  refine ⟨s / nA, rnd (sF / nA), ?_, ?_, div_nonneg h0 hn0.le, ?_⟩
  · unfold gdCommon
    rw [if_neg (by omega)]
    simp only [if_true]
    rw [e]
    rfl
  · unfold gdCommonF
    rw [if_neg (by omega)]
    simp only
    rw [eF]
    rfl
  · have w2 := w.div hn0
    rw [show dim + nA + 6 = dim + 5 + nA + 1 by ring]
    rcases hp with rfl | hp
    · have h1 := w.zero
      rw [h1, zero_div, hr.fix binary64_zero]
      exact (Within.refl 0).mono le_rfl (by omega)
    · exact w2.round (div_nonneg h0 hn0.le) (hr.rel ((minNormal_le_tiny nA hA2 hA hp).trans (le_abs_self _)))

/-- **C53 (IGD).** In double precision IGD is the mean distance to the nearest point with a relative error of at most `(1 ± 2 ^ -53) ^ (nobj + nR + 6)`, for
data whose different values in an objective differ by at least `2 ^ -511`. -/
theorem C53_igd_float_error (hr : Nearest binary64 rnd) {fsqrt : ℝ → ℝ} (hs : SqrtOk fsqrt) (A R : ℕ → ℕ → ℝ) (nobj nA nR : ℕ) (mx : ℕ → Bool)
    (hA : 0 < nA) (hR : 0 < nR) (hR2 : nR ≤ 2 ^ 53) (hgap : ∀ r < nR, ∀ a < nA, GapOk nobj (R r) (A a)) :
    ∃ (m : ℕ → ℝ) (v : ℝ), (∀ r < nR, IsNearest (fun a => euclid nobj a (R r)) A nA (m r)) ∧ igdF rnd fsqrt A nobj nA R nR mx = (v : WithTop ℝ) ∧
      (1 - (2 : ℝ) ^ (-53 : ℤ)) ^ (nobj + nR + 6) * ((∑ r ∈ Finset.range nR, m r) / nR) ≤ v ∧
      v ≤ (1 + (2 : ℝ) ^ (-53 : ℤ)) ^ (nobj + nR + 6) * ((∑ r ∈ Finset.range nR, m r) / nR) := by
  obtain ⟨m, h1, h2⟩ := C20_igd_mean_nearest A R nobj nA nR mx hA hR
  obtain ⟨v, vF, e, eF, h0, w⟩ := gdCommonF_within hr hs nobj (minmaxFromBool mx) false false R nR A nA hR hR2 hA hgap
  refine ⟨m, vF, h1, eF, ?_⟩
  unfold igd igdMinmax at h2
  rw [e] at h2
  have h3 := WithTop.coe_injective h2
  rw [← h3]
  exact ⟨w.lo, w.hi⟩

/-- **C53 (IGD+).** The same for IGD+. -/
theorem C53_igd_plus_float_error (hr : Nearest binary64 rnd) {fsqrt : ℝ → ℝ} (hs : SqrtOk fsqrt) (A R : ℕ → ℕ → ℝ) (nobj nA nR : ℕ) (mx : ℕ → Bool)
    (hA : 0 < nA) (hR : 0 < nR) (hR2 : nR ≤ 2 ^ 53) (hgap : ∀ r < nR, ∀ a < nA, GapOk nobj (R r) (A a)) :
    ∃ (m : ℕ → ℝ) (v : ℝ), (∀ r < nR, IsNearest (fun a => distPlus nobj mx a (R r)) A nA (m r)) ∧ igdPlusF rnd fsqrt A nobj nA R nR mx = (v : WithTop ℝ) ∧
      (1 - (2 : ℝ) ^ (-53 : ℤ)) ^ (nobj + nR + 6) * ((∑ r ∈ Finset.range nR, m r) / nR) ≤ v ∧
      v ≤ (1 + (2 : ℝ) ^ (-53 : ℤ)) ^ (nobj + nR + 6) * ((∑ r ∈ Finset.range nR, m r) / nR) := by
  obtain ⟨m, h1, h2⟩ := C21_igd_plus_mean_nearest A R nobj nA nR mx hA hR
  obtain ⟨v, vF, e, eF, h0, w⟩ := gdCommonF_within hr hs nobj (minmaxFromBool mx) true true R nR A nA hR hR2 hA hgap
  refine ⟨m, vF, h1, eF, ?_⟩
  unfold igdPlus igdPlusMinmax at h2
  rw [e] at h2
  have h3 := WithTop.coe_injective h2
  rw [← h3]
  exact ⟨w.lo, w.hi⟩

/-! ### Pareto compliance of IGD+, rounding errors included -/

theorem gdDiffF_plus_mono (hr : Nearest binary64 rnd) (mx : Bool) {a b : ℝ} (r : ℝ) (h : AtLeastAsGood mx a b) :
    gdDiffF rnd true (if mx then AGREE_MAXIMISE else AGREE_MINIMISE) r a ≤ gdDiffF rnd true (if mx then AGREE_MAXIMISE else AGREE_MINIMISE) r b := by
  rw [gdDiffF_eq hr, gdDiffF_eq hr]
  apply hr.mono
  unfold AtLeastAsGood at h
  unfold gdDiff AGREE_MAXIMISE AGREE_MINIMISE
  rw [cMax_eq, cMax_eq]
  refine max_le_max_right _ ?_
  cases mx <;> simp at h ⊢ <;> linarith

theorem gdDiffF_plus_nonneg (hr : Nearest binary64 rnd) (dir : ℤ) (a r : ℝ) : 0 ≤ gdDiffF rnd true dir a r := by
  rw [gdDiffF_eq hr]
  apply hr.nonneg binary64_zero
  unfold gdDiff
  rw [cMax_eq]
  exact le_max_right _ _

theorem gdDistF_plus_mono (hr : Nearest binary64 rnd) (dim : ℕ) (mx : ℕ → Bool) {a b : ℕ → ℝ} (r : ℕ → ℝ) (h : WeakDom dim mx a b) :
    gdDistF rnd dim (minmaxFromBool mx) true r a ≤ gdDistF rnd dim (minmaxFromBool mx) true r b := by
  induction dim with
  | zero => exact le_rfl
  | succ n ih =>
    have ih' := ih (fun d hd => h d (by omega))
    unfold gdDistF at *
    rw [List.range_succ, List.foldl_append, List.foldl_append]
    simp only [List.foldl_cons, List.foldl_nil]
    split_ifs
    · exact ih'
    · have h1 := gdDiffF_plus_mono hr (mx n) (r n) (h n (by omega))
      have h0 := gdDiffF_plus_nonneg hr (minmaxFromBool mx n) (r n) (a n)
      have h0' := gdDiffF_plus_nonneg hr (minmaxFromBool mx n) (r n) (b n)
      exact hr.mono (add_le_add ih' (hr.mono (mul_le_mul h1 h1 h0 h0')))

theorem gdMinF_le (dim : ℕ) (minmax : ℕ → ℤ) (plus : Bool) (pa : ℕ → ℝ) (R : ℕ → ℕ → ℝ) (n : ℕ) (c : WithTop ℝ) :
    c ≤ gdMinF rnd dim minmax plus pa R n ↔ ∀ r < n, c ≤ (gdDistF rnd dim minmax plus pa (R r) : WithTop ℝ) := by
  induction n with
  | zero => unfold gdMinF; simp
  | succ n ih =>
    have : gdMinF rnd dim minmax plus pa R (n + 1) = min ((gdDistF rnd dim minmax plus pa (R n) : ℝ) : WithTop ℝ) (gdMinF rnd dim minmax plus pa R n) := by
      have h1 : gdMinF rnd dim minmax plus pa R (n + 1) =
          if ((gdDistF rnd dim minmax plus pa (R n) : ℝ) : WithTop ℝ) < gdMinF rnd dim minmax plus pa R n
          then (gdDistF rnd dim minmax plus pa (R n) : WithTop ℝ) else gdMinF rnd dim minmax plus pa R n := by
        unfold gdMinF
        rw [List.range_succ, List.foldl_append]
        rfl
      rw [h1]
      split_ifs with h
      · rw [min_eq_left h.le]
      · rw [min_eq_right (not_lt.1 h)]
    rw [this, le_min_iff, ih]
    constructor
    · rintro ⟨h1, h2⟩ r hr
      rcases Nat.lt_succ_iff_lt_or_eq.1 hr with h | rfl
      · exact h2 r h
      · exact h1
    · exact fun h => ⟨h n (by omega), fun r hr => h r (by omega)⟩

/-- **C53 (compliance).** If `A` weakly dominates `B` then the computed IGD+ of `A` is not larger than that of `B`, for all real data and reference sets:
rounding errors cannot reverse the comparison.  Only monotonicity of the square root function is used. -/
theorem C53_igd_plus_float_compliant (hr : Nearest binary64 rnd) {fsqrt : ℝ → ℝ} (hs : Monotone fsqrt) (A B R : ℕ → ℕ → ℝ) (nobj nA nB nR : ℕ)
    (mx : ℕ → Bool) (hdom : SetWeakDom nobj mx A nA B nB) :
    igdPlusF rnd fsqrt A nobj nA R nR mx ≤ igdPlusF rnd fsqrt B nobj nB R nR mx := by
  unfold igdPlusF gdCommonF
  split_ifs with h0
  · exact le_rfl
  · have key : ∀ N, (List.range N).foldl (fun (gd : WithTop ℝ) a =>
        WithTop.map rnd (gd + (gdMinF rnd nobj (minmaxFromBool mx) true (R a) A nA).map fsqrt)) (0 : WithTop ℝ) ≤
        (List.range N).foldl (fun (gd : WithTop ℝ) a =>
        WithTop.map rnd (gd + (gdMinF rnd nobj (minmaxFromBool mx) true (R a) B nB).map fsqrt)) (0 : WithTop ℝ) := by
      intro N
      induction N with
      | zero => exact le_rfl
      | succ N ih =>
        rw [List.range_succ, List.foldl_append, List.foldl_append]
        simp only [List.foldl_cons, List.foldl_nil]
        apply WithTop.monotone_map_iff.2 hr.mono
        refine add_le_add ih (WithTop.monotone_map_iff.2 hs ?_)
        rw [gdMinF_le]
        intro b hb
        obtain ⟨a, ha, h⟩ := hdom b hb
        refine le_trans ((gdMinF_le nobj (minmaxFromBool mx) true (R N) A nA _).1 le_rfl a ha) ?_
        exact WithTop.coe_le_coe.2 (gdDistF_plus_mono hr nobj mx (R N) h)
    apply WithTop.monotone_map_iff.2 _ (key nR)
    intro x y hxy
    exact hr.mono (div_le_div_of_nonneg_right hxy (Nat.cast_nonneg _))

/-- Non-vacuity: the correctly rounded square root meets the assumption, and there are sets with gaps. -/
example : ∃ rnd fsqrt, Nearest binary64 rnd ∧ SqrtOk fsqrt ∧ Monotone fsqrt ∧ GapOk 2 (fun _ => 3) (fun d => if d = 0 then 3 else 1) := by
  obtain ⟨rnd, hr⟩ := exists_nearest64
  have key : ∀ x ∈ binary64, 0 ≤ x → Within 1 (Real.sqrt x) (rnd (Real.sqrt x)) := by
    intro x hx h0
    rcases h0.lt_or_eq with h | rfl
    · refine (Within.refl _).round (Real.sqrt_nonneg _) (hr.rel ?_)
      have h1 : minSub ≤ x := by
        obtain ⟨k, rfl⟩ := binary64_grid hx
        have hk : 0 < k := by
          by_contra hn
          push Not at hn
          have : (k : ℝ) ≤ 0 := by exact_mod_cast hn
          exact absurd h (not_lt.2 (mul_nonpos_of_nonpos_of_nonneg this minSub_pos.le))
        have : (1 : ℝ) ≤ k := by exact_mod_cast hk
        exact le_mul_of_one_le_left minSub_pos.le this
      have h2 : Real.sqrt minSub = (2 : ℝ) ^ (-537 : ℤ) := by
        have : minSub = (2 : ℝ) ^ (-537 : ℤ) * (2 : ℝ) ^ (-537 : ℤ) := by
          unfold minSub
          rw [← zpow_add₀ (by norm_num : (2 : ℝ) ≠ 0)]
          norm_num
        rw [this]
        exact Real.sqrt_mul_self (zpow_pos (by norm_num) _).le
      have h3 : minNormal ≤ (2 : ℝ) ^ (-537 : ℤ) := zpow_le_zpow_right₀ (by norm_num) (by norm_num)
      rw [← h2] at h3
      exact (h3.trans (Real.sqrt_le_sqrt h1)).trans (le_abs_self _)
    · rw [Real.sqrt_zero, hr.fix binary64_zero]
      exact (Within.refl 0).mono le_rfl (by omega)
  have key2 : ∀ x ∈ binary64, 0 ≤ x → Within 2 (Real.sqrt x) (rnd (Real.sqrt x)) :=
    fun x hx h0 => (key x hx h0).mono (Real.sqrt_nonneg _) (by omega)
  refine ⟨rnd, fun x => rnd (Real.sqrt x), hr, ⟨fun x _ _ => hr.mem _, fun x hx h0 => (key2 x hx h0).lo, fun x hx h0 => (key2 x hx h0).hi⟩,
    fun x y hxy => hr.mono (Real.sqrt_le_sqrt hxy), ?_⟩
  intro d hd
  refine ⟨⟨3, 0, by norm_num, by norm_num, by simp⟩, ?_, ?_⟩
  · dsimp only
    split_ifs
    · exact ⟨3, 0, by norm_num, by norm_num, by simp⟩
    · exact ⟨1, 0, by norm_num, by norm_num, by simp⟩
  · dsimp only
    split_ifs
    · exact Or.inl rfl
    · right
      have : (2 : ℝ) ^ (-511 : ℤ) ≤ (2 : ℝ) ^ (1 : ℤ) := zpow_le_zpow_right₀ (by norm_num) (by norm_num)
      refine this.trans ?_
      norm_num

end Moo
