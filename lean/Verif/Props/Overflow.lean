import Verif.Lemmas.OverflowHv
import Verif.Lemmas.Overflow
import Verif.Props.FloatHv
import Verif.Props.FloatContrib
import Verif.Props.FloatIgd
import Verif.Props.FloatNormalise

/-!
# C99: no overflow

`f` is any arithmetic that rounds to nearest while the exact result of an operation is at most `2 ^ 1023` in absolute value, and is arbitrary beyond
(`Machine64`).  Each theorem gives a rounding without a largest exponent, the same for all inputs, for which the run has the same result.  So the theorems
about double precision (C50-C54, C89-C92) hold for `f` whenever the inputs are in the range stated here.
-/

set_option autoImplicit false
set_option linter.unusedSectionVars false

namespace Moo

variable {f g : ℝ → ℝ}

/-! ### Hypervolume -/

theorem fpliHvNF_agree (h : SameUpTo f g) {x : ℕ → ℕ → ℝ} {ref : ℕ → ℝ} {d n m ν : ℕ} (hd3 : 3 ≤ d) (ords : ℕ → List ℕ) (b0 : ℝ) (mem : HvState ℝ)
    (hord : HvOrders x d n ords) (hb : ∀ p, 1 ≤ p → p ≤ n → ∀ k < d, b0 ≤ x p k) (hp : ∀ p, 1 ≤ p → p ≤ n → ∀ k < d, |x p k| ≤ 2 ^ m)
    (href : ∀ k < d, |ref k| ≤ 2 ^ m) (hn : n ≤ 2 ^ ν) (hν : ν ≤ 52) (hcap : d * (ν + m + 1) + 1 ≤ 1023) :
    fpliHvNF f x d n ref ords b0 mem = fpliHvNF g x d n ref ords b0 mem ∧ |fpliHvNF g x d n ref ords b0 mem| ≤ 2 ^ (d * (ν + m + 1) + 1) := by
  obtain ⟨A, S, pos, f1, f2, f3, f4, f5, f6, f7, f8, f9⟩ := hvFiltered_spec ref ords b0 mem hord
  have hD : OvData f g x ref A d m ν :=
    { ag := h, pts := fun p hpA k hk => hp p ((f5 p).1 hpA).1.1 ((f5 p).1 hpA).1.2 k hk, refb := href, len := f4.trans hn, ν52 := hν, cap := hcap }
  unfold fpliHvNF
  rw [f1]
  dsimp only
  by_cases hA0 : A.length = 0
  · rw [if_pos hA0, if_pos hA0]
    exact ⟨rfl, OA.zero m ν d⟩
  rw [if_neg hA0, if_neg hA0]
  by_cases hA1 : A.length = 1
  · rw [if_pos hA1, if_pos hA1]
    obtain ⟨p, rfl⟩ := List.length_eq_one_iff.1 hA1
    rw [linkedSet_singleton (f6 0 (by omega))]
    exact ov_box hD (p := p) (by simp) d (le_refl _)
  · rw [if_neg hA1, if_neg hA1]
    have hlists : HvLists pos A.length (d - 3 + 2) A S :=
      { nodup := f2, ne := fun hh => hA0 (by rw [hh]; rfl), zero := f3, len := le_refl _, lists := fun i _ hi => f6 i (by omega) }
    have hrec := ov_rec hD f9 (d - 3) (by omega) A S hlists (fun _ h => h) ?_ ?_
    · obtain ⟨r1, r2, -⟩ := hrec
      rw [show d - 3 + 2 + 1 = d by omega] at r2
      exact ⟨by rw [r1], r2⟩
    · intro i hi
      rw [f7 i hi]
      exact OA.zero m ν i
    · intro i h3 hi q hq hlt
      exfalso
      rw [f8] at hlt
      have := ((f5 q).1 hq).1
      exact absurd hlt (not_lt.2 (hb q this.1 this.2 i (by omega)))

theorem fpliHvF_agree (h : SameUpTo f g) {pts : ℕ → ℕ → ℝ} {ref : ℕ → ℝ} {d n m ν : ℕ} (hd2 : 2 ≤ d) (env : HvEnv ℝ) (henv : HvEnvOk pts d n env)
    (hp : ∀ i < n, ∀ k < d, |pts i k| ≤ 2 ^ m) (href : ∀ k < d, |ref k| ≤ 2 ^ m) (hn : n ≤ 2 ^ ν) (hν : ν ≤ 52) (hcap : d * (ν + m + 1) + 1 ≤ 1023) :
    fpliHvF f pts d n ref env = fpliHvF g pts d n ref env ∧ |fpliHvF g pts d n ref env| ≤ 2 ^ (d * (ν + m + 1) + 1) := by
  unfold fpliHvF
  by_cases hn0 : n = 0
  · rw [if_pos hn0, if_pos hn0]; exact ⟨rfl, OA.zero m ν d⟩
  rw [if_neg hn0, if_neg hn0]
  by_cases h2 : d = 2
  · rw [if_pos h2, if_pos h2]
    subst h2
    have hlt : ∀ p ∈ env.ps, p < n := fun p h => List.mem_range.1 ((henv.1 rfl).1.mem_iff.1 h)
    have hlen : env.ps.length = n := by rw [(henv.1 rfl).1.length_eq, List.length_range]
    obtain ⟨a1, a2⟩ := hv2dLoopF_agree h pts ref m ν href (by omega) (by omega) env.ps false (ref 1) 0 0 (fun p hpp => hp p (hlt p hpp)) (href 1 (by omega))
      (by simp) (by omega)
    refine ⟨a1, a2.trans ?_⟩
    rw [hlen, Nat.zero_add]
    calc (n : ℝ) * 2 ^ (2 * (m + 1)) ≤ 2 ^ ν * 2 ^ (2 * (m + 1)) := mul_le_mul_of_nonneg_right (by exact_mod_cast hn) (by positivity)
      _ = 2 ^ (ν + 2 * (m + 1)) := by rw [pow_add]
      _ ≤ 2 ^ (2 * (ν + m + 1) + 1) := pow_le_pow_right₀ (by norm_num) (by omega)
  · rw [if_neg h2, if_neg h2]
    exact fpliHvNF_agree h (by omega) env.ords env.b0 env.mem (henv.2.1 h2) (fun p h1 hp' k hk => henv.2.2 (p - 1) (by omega) k hk)
      (fun p h1 hp' k hk => hp (p - 1) (by omega) k hk) href hn hν hcap

/-- **C99 (hypervolume).** For at most `2 ^ ν` points in `d ≥ 2` objectives, all coordinates and those of the reference point at most `2 ^ m` in absolute value
and `d (ν + m + 1) + 1 ≤ 1023`, no operation of `fpli_hv` overflows: the result is that of arithmetic without a largest exponent, for every way in which `qsort`
may order ties and whatever memory held before. -/
theorem C99_hv_no_overflow (hf : Machine64 f) : ∃ rnd, Nearest binary64 rnd ∧ ∀ (d n m ν : ℕ) (pts : ℕ → ℕ → ℝ) (ref : ℕ → ℝ) (env : HvEnv ℝ),
    2 ≤ d → HvEnvOk pts d n env → (∀ i < n, ∀ k < d, |pts i k| ≤ 2 ^ m) → (∀ k < d, |ref k| ≤ 2 ^ m) → n ≤ 2 ^ ν → ν ≤ 52 →
    d * (ν + m + 1) + 1 ≤ 1023 →
    fpliHvF f pts d n ref env = fpliHvF rnd pts d n ref env ∧ |fpliHvF f pts d n ref env| ≤ 2 ^ 1023 := by
  obtain ⟨rnd, hr, he⟩ := hf.extend
  refine ⟨rnd, hr, fun d n m ν pts ref env hd2 henv hp href hn hν hcap => ?_⟩
  obtain ⟨h1, h2⟩ := fpliHvF_agree ⟨hr, he⟩ hd2 env henv hp href hn hν hcap
  exact ⟨h1, by rw [h1]; exact h2.trans (pow_le_pow_right₀ (by norm_num) hcap)⟩

/-- **C99 (contributions).** The same for `hv_contributions`, with one more doubling: `d (ν + m + 1) + 2 ≤ 1023`. -/
theorem C99_contributions_no_overflow (hf : Machine64 f) : ∃ rnd, Nearest binary64 rnd ∧ ∀ (d n m ν : ℕ) (pts : ℕ → ℕ → ℝ) (ref : ℕ → ℝ) (env : HvEnv ℝ)
    (envs : ℕ → HvEnv ℝ), 2 ≤ d → HvEnvOk pts d n env → (∀ i < n, HvEnvOk (replaceRow pts ref i) d n (envs i)) →
    (∀ i < n, ∀ k < d, |pts i k| ≤ 2 ^ m) → (∀ k < d, |ref k| ≤ 2 ^ m) → n ≤ 2 ^ ν → ν ≤ 52 → d * (ν + m + 1) + 2 ≤ 1023 →
    hvContributionsF f pts d n ref env envs = hvContributionsF rnd pts d n ref env envs := by
  obtain ⟨rnd, hr, he⟩ := hf.extend
  refine ⟨rnd, hr, fun d n m ν pts ref env envs hd2 henv henvs hp href hn hν hcap => ?_⟩
  have key : ∀ i < n, hvContributionF f pts d n ref env envs i = hvContributionF rnd pts d n ref env envs i := by
    intro i hi
    obtain ⟨h1, h2⟩ := fpliHvF_agree ⟨hr, he⟩ hd2 env henv hp href hn hν (by omega)
    obtain ⟨h3, h4⟩ := fpliHvF_agree ⟨hr, he⟩ hd2 (envs i) (henvs i hi) (fun j hj k hk => by
      unfold replaceRow upd
      split
      · exact href k hk
      · exact hp j hj k hk) href hn hν (by omega)
    unfold hvContributionF
    rw [h1, h3, he _ ((abs_sub_le' h2 h4).trans ?_)]
    calc (2 : ℝ) ^ (d * (ν + m + 1) + 1) + 2 ^ (d * (ν + m + 1) + 1) = 2 ^ (d * (ν + m + 1) + 2) := by ring
      _ ≤ 2 ^ 1023 := pow_le_pow_right₀ (by norm_num) hcap
  unfold hvContributionsF
  have : ∀ L : List ℕ, (∀ i ∈ L, i < n) → (L.mapM fun i =>
      if hvContributionF f pts d n ref env envs i ≥ 0 then some (hvContributionF f pts d n ref env envs i) else none) =
      (L.mapM fun i => if hvContributionF rnd pts d n ref env envs i ≥ 0 then some (hvContributionF rnd pts d n ref env envs i) else none) := by
    intro L
    induction L with
    | nil => intro _; rfl
    | cons i L ih =>
      intro hL
      rw [List.mapM_cons, List.mapM_cons, key i (hL i (by simp)), ih (fun j hj => hL j (by simp [hj]))]
  exact this _ fun i hi => List.mem_range.1 hi

/-- **C99 (integers).** With overflow: C89 for integer coordinates of at most `2 ^ m` in absolute value. -/
theorem C99_hv_exact_integers (hf : Machine64 f) (d n m ν : ℕ) (hd : 2 ≤ d) (pts : ℕ → ℕ → ℝ) (ref low : ℕ → ℝ) (env : HvEnv ℝ)
    (henv : HvEnvOk pts d n env) (hstable : 3 < d → ∀ j, j + 1 < d → StableQsort (compareNode (nodeTable pts) j) (env.ords (j + 1)) (env.ords j))
    (hp : ∀ i < n, ∀ k < d, ∃ m : ℤ, pts i k = m) (href : ∀ k < d, ∃ m : ℤ, ref k = m)
    (hlow : ∀ i < n, (∀ k < d, pts i k < ref k) → ∀ k < d, low k ≤ pts i k) (hV : ∏ k ∈ Finset.range d, (ref k - low k) ≤ 2 ^ 53)
    (hpm : ∀ i < n, ∀ k < d, |pts i k| ≤ 2 ^ m) (hrm : ∀ k < d, |ref k| ≤ 2 ^ m) (hn : n ≤ 2 ^ ν) (hν : ν ≤ 52) (hcap : d * (ν + m + 1) + 1 ≤ 1023) :
    fpliHvF f pts d n ref env = vol (dominatedRegion d n pts ref) := by
  obtain ⟨rnd, hr, h⟩ := C99_hv_no_overflow hf
  rw [(h d n m ν pts ref env hd henv hpm hrm hn hν hcap).1]
  exact C89_hv_exact_integers hr d n hd pts ref low env henv hstable hp href hlow hV

/-! ### The other indicators -/

/-- **C99 (additive epsilon).** No operation overflows when all values are at most `2 ^ 1022` in absolute value, a quarter of the range. -/
theorem C99_epsilon_additive_no_overflow (hf : Machine64 f) : ∃ rnd, Nearest binary64 rnd ∧ ∀ (A R : ℕ → ℕ → ℝ) (nobj nA nR : ℕ) (mx : ℕ → Bool),
    (∀ a < nA, ∀ k < nobj, |A a k| ≤ 2 ^ 1022) → (∀ r < nR, ∀ k < nobj, |R r k| ≤ 2 ^ 1022) →
    epsilonAdditiveF f A nobj nA R nR mx = epsilonAdditiveF rnd A nobj nA R nR mx := by
  obtain ⟨rnd, hr, he⟩ := hf.extend
  exact ⟨rnd, hr, fun A R nobj nA nR mx hA hR => epsilonAdditiveMinmaxF_agree ⟨hr, he⟩ nobj _ A nA R nR hA hR⟩

/-- **C99 (multiplicative epsilon).** No operation overflows when the positive values are from `2 ^ -m` to `2 ^ m` with `2 m ≤ 1023`. -/
theorem C99_epsilon_mult_no_overflow (hf : Machine64 f) : ∃ rnd, Nearest binary64 rnd ∧ ∀ (A R : ℕ → ℕ → ℝ) (nobj nA nR m : ℕ) (mx : ℕ → Bool),
    2 * m ≤ 1023 → (∀ a < nA, ∀ k < nobj, 0 < A a k → (2 : ℝ) ^ (-(m : ℤ)) ≤ A a k ∧ A a k ≤ 2 ^ m) →
    (∀ r < nR, ∀ k < nobj, 0 < R r k → (2 : ℝ) ^ (-(m : ℤ)) ≤ R r k ∧ R r k ≤ 2 ^ m) →
    epsilonMultF f A nobj nA R nR mx = epsilonMultF rnd A nobj nA R nR mx := by
  obtain ⟨rnd, hr, he⟩ := hf.extend
  refine ⟨rnd, hr, fun A R nobj nA nR m mx hm hA hR => epsMultOuterF_agree ⟨hr, he⟩ nobj _ A nA R _ _ fun r hr' a ha k hk h1 h2 => ?_⟩
  have key : ∀ u v : ℝ, 0 < v → u ≤ 2 ^ m → (2 : ℝ) ^ (-(m : ℤ)) ≤ v → u / v ≤ 2 ^ 1023 := by
    intro u v hv hu hvm
    rw [div_le_iff₀ hv]
    calc u ≤ 2 ^ m := hu
      _ = 2 ^ (2 * m) * (2 : ℝ) ^ (-(m : ℤ)) := by rw [zpow_neg, zpow_natCast, two_mul, pow_add]; field_simp
      _ ≤ 2 ^ 1023 * v := mul_le_mul (pow_le_pow_right₀ (by norm_num) hm) hvm (zpow_nonneg (by norm_num) _) (by positivity)
  have hr'' := List.mem_range.1 hr'
  obtain ⟨a1, a2⟩ := hA a ha k hk h1
  obtain ⟨r1, r2⟩ := hR r hr'' k hk h2
  exact ⟨key _ _ h2 a2 r1, key _ _ h1 r2 a1⟩

theorem SqrtOk.bounded {fsqrt : ℝ → ℝ} (hs : SqrtOk fsqrt) : SqrtBounded fsqrt := by
  intro x hx h0
  have hsq := Real.sqrt_nonneg x
  refine ⟨le_trans (by positivity) (hs.lo x hx h0), fun e he => (hs.hi x hx h0).trans ?_⟩
  have h1 : Real.sqrt x ≤ 2 ^ e := by
    rw [Real.sqrt_le_left (by positivity), ← pow_mul, mul_comm]; exact he
  have h2 : (1 + (2 : ℝ) ^ (-53 : ℤ)) ^ 2 ≤ 2 := by norm_num
  calc _ ≤ 2 * (2 : ℝ) ^ e := mul_le_mul h2 h1 hsq (by norm_num)
    _ = 2 ^ (e + 1) := by ring

/-- **C99 (IGD and IGD+).** No operation overflows when all values are at most `2 ^ 500` in absolute value, for up to `2 ^ 20` objectives and `2 ^ 53` reference points. -/
theorem C99_igd_no_overflow (hf : Machine64 f) {fsqrt : ℝ → ℝ} (hs : SqrtOk fsqrt) : ∃ rnd, Nearest binary64 rnd ∧
    ∀ (A R : ℕ → ℕ → ℝ) (nobj nA nR : ℕ) (mx : ℕ → Bool), 0 < nA → nobj ≤ 2 ^ 20 → nR ≤ 2 ^ 53 →
    (∀ a < nA, ∀ k < nobj, |A a k| ≤ 2 ^ 500) → (∀ r < nR, ∀ k < nobj, |R r k| ≤ 2 ^ 500) →
    igdF f fsqrt A nobj nA R nR mx = igdF rnd fsqrt A nobj nA R nR mx ∧ igdPlusF f fsqrt A nobj nA R nR mx = igdPlusF rnd fsqrt A nobj nA R nR mx := by
  obtain ⟨rnd, hr, he⟩ := hf.extend
  exact ⟨rnd, hr, fun A R nobj nA nR mx hA hd hn ha hr' =>
    ⟨gdCommonF_agree ⟨hr, he⟩ hs.bounded nobj _ R nR A nA false 500 10 53 hA hr' ha hd (by norm_num) hn (by norm_num) (by norm_num) (by norm_num),
      gdCommonF_agree ⟨hr, he⟩ hs.bounded nobj _ R nR A nA true 500 10 53 hA hr' ha hd (by norm_num) hn (by norm_num) (by norm_num) (by norm_num)⟩⟩

/-- **C99 (normalisation).** No operation overflows when all values, bounds and the limits of the new range are at most `2 ^ m` in absolute value, the bounds of an
objective are equal or at least `2 ^ -s` apart, and `2 (m + 1) + s ≤ 1022`. -/
theorem C99_normalise_no_overflow (hf : Machine64 f) : ∃ rnd, Nearest binary64 rnd ∧ ∀ (data : ℕ → ℕ → ℝ) (nobj n m s : ℕ) (mx : ℕ → Bool) (lo hi : ℝ)
    (L U : ℕ → ℝ), 2 * (m + 1) + s ≤ 1022 → |lo| ≤ 2 ^ m → |hi| ≤ 2 ^ m → (∀ k < nobj, |L k| ≤ 2 ^ m ∧ |U k| ≤ 2 ^ m ∧
    (U k = L k ∨ (2 : ℝ) ^ (-(s : ℤ)) ≤ U k - L k)) → (∀ i < n, ∀ k < nobj, |data i k| ≤ 2 ^ m) →
    agreeNormaliseF f data nobj n mx lo hi L U = agreeNormaliseF rnd data nobj n mx lo hi L U := by
  obtain ⟨rnd, hr, he⟩ := hf.extend
  refine ⟨rnd, hr, fun data nobj n m s mx lo hi L U hcap hlo hhi hLU hdata => ?_⟩
  funext i k
  unfold agreeNormaliseF
  by_cases hik : i < n ∧ k < nobj
  · rw [if_pos hik, if_pos hik]
    obtain ⟨h1, h2, h3⟩ := hLU k hik.2
    refine normaliseF_agree ⟨hr, he⟩ _ m s hlo hhi h1 h2 ?_ hcap h3
    have := hdata i hik.1 k hik.2
    unfold agreeObjectives
    split
    · rw [abs_neg]; exact this
    · exact this
  · rw [if_neg hik, if_neg hik]

/-- **C99 (percentiles).** No operation overflows for levels and numbers of runs up to `2 ^ 31` and percentiles up to `2 ^ 900` in absolute value. -/
theorem C99_percentile_no_overflow (hf : Machine64 f) : ∃ rnd, Nearest binary64 rnd ∧ ∀ (tol p : ℝ) (l n : ℤ), |l| ≤ 2 ^ 31 → 1 ≤ n → n ≤ 2 ^ 31 → |p| ≤ 2 ^ 900 →
    level2percentileF f l n = level2percentileF rnd l n ∧ percentile2levelF f tol p n = percentile2levelF rnd tol p n := by
  obtain ⟨rnd, hr, he⟩ := hf.extend
  have ag : SameUpTo f rnd := ⟨hr, he⟩
  refine ⟨rnd, hr, fun tol p l n hl hn1 hn hp => ⟨?_, ?_⟩⟩
  · have hl' : |(l : ℝ)| ≤ 2 ^ 31 := by rw [← Int.cast_abs]; exact_mod_cast hl
    have hn' : (1 : ℝ) ≤ n := by exact_mod_cast hn1
    obtain ⟨a1, a2⟩ := ag.op1 (z := (l : ℝ) * 100) 38 ((abs_mul_le (B := 2 ^ 7) hl' (by norm_num)).trans (by norm_num)) (by norm_num)
    have hdiv : |rnd ((l : ℝ) * 100) / n| ≤ 2 ^ 38 := by
      rw [abs_div, abs_of_pos (by linarith : (0 : ℝ) < n)]
      exact (div_le_self (abs_nonneg _) hn').trans a2
    unfold level2percentileF
    rw [a1, (ag.op1 38 hdiv (by norm_num)).1]
  · have hn' : |(n : ℝ)| ≤ 2 ^ 31 := by rw [← Int.cast_abs]; exact_mod_cast (abs_le.2 ⟨by linarith, hn⟩)
    obtain ⟨a1, a2⟩ := ag.op1 (z := (n : ℝ) * p) 931 ((abs_mul_le hn' hp).trans (by rw [← pow_add])) (by norm_num)
    have hdiv : |rnd ((n : ℝ) * p) / 100| ≤ 2 ^ 931 := by
      rw [abs_div, abs_of_pos (by norm_num : (0 : ℝ) < 100)]
      exact (div_le_self (abs_nonneg _) (by norm_num)).trans a2
    have e1 := (ag.op1 931 hdiv (by norm_num)).1
    have e2 : ∀ x : ℝ, f (x - (⌊x⌋ : ℝ)) = rnd (x - (⌊x⌋ : ℝ)) := fun x => by
      refine he _ ?_
      rw [abs_of_nonneg (by linarith [Int.floor_le x])]
      exact (by linarith [Int.lt_floor_add_one x] : x - (⌊x⌋ : ℝ) ≤ 1).trans (one_le_pow₀ (by norm_num))
    unfold percentile2levelF
    rw [a1, e1]
    dsimp only
    rw [e2]

/-! ### The bound matters -/

/-- **C99 (overflow reached).** Beyond the range the operations do overflow: for the point `(0, 0)` and the reference point `(2 ^ 600, 2 ^ 600)` the result depends
on what the machine does with the product `2 ^ 1200`. -/
theorem C99_overflow_reached : ∃ f g : ℝ → ℝ, Machine64 f ∧ Machine64 g ∧ ∀ env : HvEnv ℝ, HvEnvOk (fun _ _ => 0) 2 1 env →
    fpliHvF f (fun _ _ => 0) 2 1 (fun _ => 2 ^ 600) env ≠ fpliHvF g (fun _ _ => 0) 2 1 (fun _ => 2 ^ 600) env := by
  obtain ⟨r0, h0⟩ := exists_nearest64
  have hmach : ∀ c : ℝ, Machine64 (fun z => if |z| ≤ 2 ^ 1023 then r0 z else c) := fun c z hz => by
    simp only [if_pos hz]; exact ⟨h0.mem z, h0.best z⟩
  have h600 : r0 (2 ^ 600) = 2 ^ 600 := h0.fix ⟨1, 600, by norm_num, by norm_num, by norm_num⟩
  have hval : ∀ c : ℝ, |c| ≤ 1 → c ∈ binary64 → ∀ env : HvEnv ℝ, HvEnvOk (fun _ _ => 0) 2 1 env →
      fpliHvF (fun z => if |z| ≤ 2 ^ 1023 then r0 z else c) (fun _ _ => 0) 2 1 (fun _ => 2 ^ 600) env = c := by
    intro c hc hcm env henv
    have hps : env.ps = [0] := List.perm_singleton.1 (henv.1 rfl).1
    have h1 : |((2 : ℝ) ^ 600 - 0)| ≤ 2 ^ 1023 := by
      rw [sub_zero, abs_of_nonneg (by positivity)]; exact pow_le_pow_right₀ (by norm_num) (by norm_num)
    have h2 : ¬ |(2 : ℝ) ^ 600 * 2 ^ 600| ≤ 2 ^ 1023 := by
      rw [abs_of_nonneg (by positivity), ← pow_add, not_le]; exact pow_lt_pow_right₀ (by norm_num) (by norm_num)
    have h3 : |0 + c| ≤ (2 : ℝ) ^ 1023 := by rw [zero_add]; exact hc.trans (one_le_pow₀ (by norm_num))
    have h4 : (0 : ℝ) < 2 ^ 600 := by positivity
    unfold fpliHvF hv2dF
    rw [if_neg (by norm_num), if_pos rfl, hps]
    have h5 : ¬ (2 : ℝ) ^ 600 ≤ 0 := not_le.2 h4
    simp only [hv2dLoopF, sub_zero, if_pos (by simpa using h1 : |(2 : ℝ) ^ 600| ≤ 2 ^ 1023), h600, if_neg h2, zero_add, h0.fix hcm]
    rw [if_neg h5, if_neg h5]
    by_cases hb : |c| ≤ 2 ^ 1023 <;> simp [hb]
  refine ⟨_, _, hmach 0, hmach 1, fun env henv => ?_⟩
  rw [hval 0 (by norm_num) binary64_zero env henv, hval 1 (by norm_num) binary64_one env henv]
  norm_num

/-! ### The hypotheses are satisfiable -/

/-- Three points in four objectives up to `2 ^ 100`. -/
example : ∃ (f : ℝ → ℝ) (env : HvEnv ℝ), Machine64 f ∧ ¬ Nearest binary64 f ∧ HvEnvOk (fun i k => if i = k then 2 ^ 100 else (i : ℝ)) 4 3 env ∧
    |fpliHvF f (fun i k => if i = k then 2 ^ 100 else (i : ℝ)) 4 3 (fun _ => 2 ^ 110) env| ≤ 2 ^ 1023 := by
  obtain ⟨r0, h0⟩ := exists_nearest64
  have hm : Machine64 (fun z => if |z| ≤ 2 ^ 1023 then r0 z else 0) := fun z hz => by
    simp only [if_pos hz]; exact ⟨h0.mem z, h0.best z⟩
  obtain ⟨env, henv, -⟩ := exists_stable_env 4 3 (fun i k => if i = k then 2 ^ 100 else (i : ℝ))
  obtain ⟨rnd, -, h⟩ := C99_hv_no_overflow hm
  refine ⟨_, env, hm, fun hn => ?_, henv, (h 4 3 110 2 _ (fun _ => 2 ^ 110) env (by norm_num) henv ?_ ?_ (by norm_num) (by norm_num) (by norm_num)).2⟩
  · have := hn.fix (x := 2 ^ 1024) ⟨1, 1024, by norm_num, by norm_num, by norm_num⟩
    rw [if_neg (by rw [abs_of_nonneg (by positivity), not_le]; exact pow_lt_pow_right₀ (by norm_num) (by norm_num))] at this
    exact absurd this (by positivity : (0 : ℝ) < 2 ^ 1024).ne
  · intro i hi k hk
    split
    · rw [abs_of_nonneg (by positivity)]; exact pow_le_pow_right₀ (by norm_num) (by norm_num)
    · rw [abs_of_nonneg (by positivity)]
      have : (i : ℝ) ≤ 3 := by exact_mod_cast hi.le
      exact this.trans (by norm_num)
  · intro k hk
    rw [abs_of_nonneg (by positivity)]

end Moo
