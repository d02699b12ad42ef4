import Verif.Lemmas.FloatEps
import Verif.Props.Epsilon
import Mathlib.RingTheory.Int.Basic

set_option autoImplicit false

/-!
# C50: the epsilon indicators in double precision

`rnd` is the rounding of the machine: every operation gives a nearest double (any rule for ties).
-/

namespace Moo

variable {rnd : ℝ → ℝ}

/-- **C50.** The additive epsilon indicator computed in double precision is the exact indicator (the least `e` such that `A` improved by `e` weakly
dominates `R`), rounded once: no error accumulates. -/
theorem C50_epsilon_additive_float (hr : Nearest binary64 rnd) (A R : ℕ → ℕ → ℝ) (nobj nA nR : ℕ) (mx : ℕ → Bool) (hd : 0 < nobj) (hA : 0 < nA)
    (hR : 0 < nR) :
    ∃ e : ℝ, epsilonAdditiveF rnd A nobj nA R nR mx = fin (rnd e) ∧ SetWeakDom nobj mx (fun i => improveAdd mx e (A i)) nA R nR ∧
      ∀ e', SetWeakDom nobj mx (fun i => improveAdd mx e' (A i)) nA R nR → e ≤ e' := by
  obtain ⟨e, he, h1, h2⟩ := C17_epsilon_additive_least A R nobj nA nR mx hd hA hR
  refine ⟨e, ?_, h1, h2⟩
  unfold epsilonAdditiveF
  rw [epsAddF_eq hr.mono (hr.fix binary64_zero)]
  unfold epsilonAdditive at he
  rw [he, extMap_fin]

theorem epsAddF_nonpos_iff (hr : Nearest binary64 rnd) (A R : ℕ → ℕ → ℝ) (dim nA nR : ℕ) (dir : ℕ → ℤ)
    (hAF : ∀ a < nA, ∀ d < dim, A a d ∈ binary64) (hRF : ∀ r < nR, ∀ d < dim, R r d ∈ binary64) :
    epsilonAdditiveMinmaxF rnd dim dir A nA R nR ≤ fin 0 ↔ SetWeakDomDir dim dir A nA R nR := by
  rw [epsAddF_le_iff]
  unfold SetWeakDomDir WeakDomDir
  refine forall_congr' fun b => forall_congr' fun hb => exists_congr fun a => and_congr_right fun ha =>
    forall_congr' fun d => forall_congr' fun hd => ?_
  unfold epsAddTempF
  rcases lt_trichotomy (dir d) 0 with h | h | h
  · simp [h, not_lt.2 h.le, hr.sub_nonpos (hAF a ha d hd) (hRF b hb d hd)]
  · simp [h]
  · simp [h, not_lt.2 h.le, hr.sub_nonpos (hRF b hb d hd) (hAF a ha d hd)]

/-- **C50 (sign).** For data in double precision the computed indicator is 0 or less exactly if `A` weakly dominates `R`. -/
theorem C50_epsilon_additive_float_nonpos_iff (hr : Nearest binary64 rnd) (A R : ℕ → ℕ → ℝ) (nobj nA nR : ℕ) (mx : ℕ → Bool)
    (hAF : ∀ a < nA, ∀ d < nobj, A a d ∈ binary64) (hRF : ∀ r < nR, ∀ d < nobj, R r d ∈ binary64) :
    epsilonAdditiveF rnd A nobj nA R nR mx ≤ fin 0 ↔ SetWeakDom nobj mx A nA R nR := by
  unfold epsilonAdditiveF
  rw [epsAddF_nonpos_iff hr A R nobj nA nR _ hAF hRF]
  unfold SetWeakDomDir SetWeakDom WeakDomDir WeakDom
  refine forall_congr' fun b => forall_congr' fun hb => exists_congr fun a => and_congr_right fun ha =>
    forall_congr' fun d => forall_congr' fun hd => ?_
  unfold minmaxFromBool AGREE_MAXIMISE AGREE_MINIMISE AtLeastAsGood
  rcases Bool.eq_false_or_eq_true (mx d) with h | h <;> simp [h]

/-- **C50 (comparison of sets).** `epsilon_additive_ind` in double precision compares the two sets exactly as specified for exact arithmetic. -/
theorem C50_epsilon_additive_ind_float (hr : Nearest binary64 rnd) (A B : ℕ → ℕ → ℝ) (dim nA nB : ℕ) (dir : ℕ → ℤ)
    (hAF : ∀ a < nA, ∀ d < dim, A a d ∈ binary64) (hBF : ∀ b < nB, ∀ d < dim, B b d ∈ binary64) :
    (epsilonAdditiveIndF rnd dim dir A nA B nB = -1 ↔ SetWeakDomDir dim dir A nA B nB ∧ ¬ SetWeakDomDir dim dir B nB A nA) ∧
    (epsilonAdditiveIndF rnd dim dir A nA B nB = 1 ↔ SetWeakDomDir dim dir B nB A nA ∧ ¬ SetWeakDomDir dim dir A nA B nB) ∧
    (epsilonAdditiveIndF rnd dim dir A nA B nB = 0 ↔ (SetWeakDomDir dim dir A nA B nB ↔ SetWeakDomDir dim dir B nB A nA)) := by
  unfold epsilonAdditiveIndF
  rw [← epsAddF_nonpos_iff hr A B dim nA nB dir hAF hBF, ← epsAddF_nonpos_iff hr B A dim nB nA dir hBF hAF]
  by_cases h1 : epsilonAdditiveMinmaxF rnd dim dir A nA B nB ≤ fin 0 <;>
    by_cases h2 : epsilonAdditiveMinmaxF rnd dim dir B nB A nA ≤ fin 0 <;>
    simp [h1, h2, ← not_le]

/-- **C50 (multiplicative).** The multiplicative indicator in double precision is the exact one rounded once. -/
theorem C50_epsilon_mult_float (hr : Nearest binary64 rnd) (A R : ℕ → ℕ → ℝ) (nobj nA nR : ℕ) (mx : ℕ → Bool) (hd : 0 < nobj) (hA : 0 < nA)
    (hR : 0 < nR) (hApos : ∀ a < nA, ∀ d < nobj, 0 < A a d) (hRpos : ∀ r < nR, ∀ d < nobj, 0 < R r d) :
    ∃ e : ℝ, epsilonMultF rnd A nobj nA R nR mx = some (fin (rnd e)) ∧ 0 < e ∧
      SetWeakDom nobj mx (fun i => improveMult mx e (A i)) nA R nR ∧
      ∀ e', 0 < e' → SetWeakDom nobj mx (fun i => improveMult mx e' (A i)) nA R nR → e ≤ e' := by
  obtain ⟨e, he, h1, h2, h3⟩ := C18_epsilon_mult_least A R nobj nA nR mx hd hA hR hApos hRpos
  refine ⟨e, ?_, h1, h2, h3⟩
  rw [epsMultF_eq hr.mono (hr.fix binary64_zero) (hr.fix binary64_one), he]
  rfl

/-- **C50 (multiplicative, errors).** The errors are those of exact arithmetic. -/
theorem C50_epsilon_mult_float_error_iff (hr : Nearest binary64 rnd) (A R : ℕ → ℕ → ℝ) (nobj nA nR : ℕ) (mx : ℕ → Bool) (hA : 0 < nA) (hR : 0 < nR) :
    epsilonMultF rnd A nobj nA R nR mx = none ↔ (∃ a < nA, ∃ d < nobj, A a d ≤ 0) ∨ (∃ r < nR, ∃ d < nobj, R r d ≤ 0) := by
  rw [epsMultF_eq hr.mono (hr.fix binary64_zero) (hr.fix binary64_one), Option.map_eq_none_iff, C18_epsilon_mult_error_iff A R nobj nA nR mx hA hR]

/-- **C50 (multiplicative, threshold).** For positive data in double precision the computed indicator is 1 or less exactly if `A` weakly dominates `R`:
two different doubles never have a quotient that rounds to 1. -/
theorem C50_epsilon_mult_float_le_one_iff (hr : Nearest binary64 rnd) (A R : ℕ → ℕ → ℝ) (nobj nA nR : ℕ) (mx : ℕ → Bool) (hd : 0 < nobj) (hA : 0 < nA)
    (hR : 0 < nR) (hApos : ∀ a < nA, ∀ d < nobj, 0 < A a d) (hRpos : ∀ r < nR, ∀ d < nobj, 0 < R r d)
    (hAF : ∀ a < nA, ∀ d < nobj, A a d ∈ binary64) (hRF : ∀ r < nR, ∀ d < nobj, R r d ∈ binary64) :
    ∃ v : ℝ, epsilonMultF rnd A nobj nA R nR mx = some (fin v) ∧ (v ≤ 1 ↔ SetWeakDom nobj mx A nA R nR) := by
  obtain ⟨e, he, hpos, h1, h2⟩ := C50_epsilon_mult_float hr A R nobj nA nR mx hd hA hR hApos hRpos
  refine ⟨rnd e, he, ?_⟩
  have hok := epsMultOuter_ok nobj (minmaxFromBool mx) A nA R (List.range nR) (fin 0)
    (fun b hb a ha d hd => ⟨hApos a ha d hd, hRpos b (List.mem_range.1 hb) d hd⟩)
  have key : ∀ c : ℝ, 0 < c → (e ≤ c ↔ ∀ b < nR, ∃ a < nA, ∀ d < nobj, epsMultTemp (minmaxFromBool mx d) (A a d) (R b d) ≤ c) := by
    intro c hc
    rw [epsMultF_eq hr.mono (hr.fix binary64_zero) (hr.fix binary64_one)] at he
    rw [← epsMult_le_iff nobj (minmaxFromBool mx) A nA R nR c hc.le]
    obtain ⟨e2, he2, q1, q2, q3⟩ := C18_epsilon_mult_least A R nobj nA nR mx hd hA hR hApos hRpos
    have hee : e = e2 := le_antisymm (h2 _ q1 q2) (q3 _ hpos h1)
    unfold epsilonMult epsilonMultMinmax at he2
    rw [hok] at he2
    rw [Option.some.inj he2, hee]
    exact fin_le_fin.symm
  constructor
  · intro hv b hb
    -- the exact value is attained by some quotient, of two doubles
    obtain ⟨a, ha, hh⟩ := (key e hpos).1 le_rfl b hb
    refine ⟨a, ha, fun d hd => ?_⟩
    have := (hr.mono (hh d hd)).trans hv
    unfold epsMultTemp minmaxFromBool AGREE_MAXIMISE AGREE_MINIMISE at this
    unfold AtLeastAsGood
    rcases Bool.eq_false_or_eq_true (mx d) with h | h <;> simp [h] at this ⊢
    · exact (hr.div_le_one (hRF b hb d hd) (hAF a ha d hd) (hApos a ha d hd)).1 this
    · exact (hr.div_le_one (hAF a ha d hd) (hRF b hb d hd) (hRpos b hb d hd)).1 this
  · intro hw
    have : e ≤ 1 := h2 1 one_pos (by
      intro b hb
      obtain ⟨a, ha, hh⟩ := hw b hb
      refine ⟨a, ha, fun d hd => ?_⟩
      have := hh d hd
      unfold AtLeastAsGood improveMult at *
      rcases Bool.eq_false_or_eq_true (mx d) with h | h <;> simpa [h] using this)
    have := hr.mono this
    rwa [hr.fix binary64_one] at this

/-! ## Non-vacuity: a rounding exists, and data in double precision whose exact indicator is not representable -/

/-- `1/10` is not a double, so the roundings matter. -/
example : ∃ rnd, Nearest binary64 rnd ∧ rnd (1 / 10) ≠ 1 / 10 := by
  obtain ⟨rnd, h⟩ := exists_nearest64
  refine ⟨rnd, h, fun h1 => ?_⟩
  obtain ⟨m, e, h2, h3, h4⟩ := h1 ▸ h.mem (1 / 10)
  -- `10 * m * 2 ^ e = 1`
  rcases le_or_gt 0 e with he | he
  · obtain ⟨j, rfl⟩ : ∃ j : ℕ, e = j := ⟨e.toNat, by omega⟩
    rw [zpow_natCast] at h4
    have : (1 : ℝ) = 10 * (m * 2 ^ j) := by rw [← h4]; norm_num
    have : (1 : ℤ) = 10 * (m * 2 ^ j) := by exact_mod_cast this
    omega
  · obtain ⟨j, rfl⟩ : ∃ j : ℕ, e = -(j : ℤ) := ⟨(-e).toNat, by omega⟩
    have hp : (0 : ℝ) < 2 ^ j := by positivity
    rw [zpow_neg, zpow_natCast] at h4
    have : (2 : ℝ) ^ j = 10 * m := by
      field_simp at h4
      linarith
    have h5 : (2 : ℤ) ^ j = 10 * m := by exact_mod_cast this
    have h6 : (5 : ℤ) ∣ 2 ^ j := ⟨2 * m, by rw [h5]; ring⟩
    have h7 : (5 : ℤ) ∣ 2 := (Int.prime_iff_natAbs_prime.2 (by norm_num; exact Nat.prime_five)).dvd_of_dvd_pow h6
    omega

/-- Two sets in double precision, one objective maximised, neither of which weakly dominates the other. -/
example : ∃ (A R : ℕ → ℕ → ℝ) (mx : ℕ → Bool), (∀ a < 1, ∀ d < 2, A a d ∈ binary64 ∧ 0 < A a d) ∧ (∀ r < 1, ∀ d < 2, R r d ∈ binary64 ∧ 0 < R r d) ∧
    ¬ SetWeakDom 2 mx A 1 R 1 ∧ ¬ SetWeakDom 2 mx R 1 A 1 := by
  refine ⟨fun _ _ => 3, fun _ d => if d = 0 then 2 else 1, fun d => d = 1, ?_, ?_, ?_, ?_⟩
  · intro a _ d _; exact ⟨⟨3, 0, by norm_num, by norm_num, by simp⟩, by norm_num⟩
  · intro a _ d _
    dsimp only
    split_ifs
    · exact ⟨⟨2, 0, by norm_num, by norm_num, by simp⟩, by norm_num⟩
    · exact ⟨binary64_one, by norm_num⟩
  · intro h
    obtain ⟨a, _, h⟩ := h 0 (by omega)
    have := h 0 (by omega)
    simp [AtLeastAsGood] at this
    norm_num at this
  · intro h
    obtain ⟨a, _, h⟩ := h 0 (by omega)
    have := h 1 (by omega)
    simp [AtLeastAsGood] at this

end Moo
