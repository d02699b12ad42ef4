import Verif.Lemmas.Mt19937
import Verif.Lemmas.Float
import Verif.Props.WhvHype
import Mathlib.Tactic.NormNum
import Mathlib.Tactic.Positivity

/-!
# C58: the random number generator
-/

set_option autoImplicit false

namespace Moo

/-- **C58.**  The words returned by successive calls of the generator after seeding are the tempered words, from the 625th on, of the Mersenne
twister sequence with this seed; the array of the state is never accessed outside of its bounds.  (`mt_exists`: the sequence exists and is
unique.) -/
theorem C58_words (seed : BitVec 32) (key0 : ℕ → BitVec 32) (x : ℕ → BitVec 32) (hi : MtInit seed x) (hr : MtRecurrence x) (n : ℕ) :
    ∃ s, mtWords n (mtSeed key0 seed) = some ((List.range n).map (fun k => mtTemper (x (624 + k))), s) := by
  obtain ⟨s, h, _⟩ := mtWords_spec hr n 624 _ (mtSeed_spec hi key0)
  exact ⟨s, h⟩

/-- **C58.**  For every seed the sequence of words is purely periodic. -/
theorem C58_periodic (seed : BitVec 32) (key0 : ℕ → BitVec 32) :
    ∃ p, 0 < p ∧ ∀ n, ∃ l s, mtWords (n + p + 1) (mtSeed key0 seed) = some (l, s) ∧ l.length = n + p + 1 ∧ l[n + p]? = l[n]? := by
  obtain ⟨x, ⟨hi, hr⟩, _⟩ := mt_exists seed
  obtain ⟨p, hp, hper⟩ := mt_periodic hr
  refine ⟨p, hp, fun n => ?_⟩
  obtain ⟨s, h⟩ := C58_words seed key0 x hi hr (n + p + 1)
  refine ⟨_, s, h, by simp, ?_⟩
  rw [List.getElem?_map, List.getElem?_map, List.getElem?_range (by omega), List.getElem?_range (by omega)]
  simp only [Option.map_some]
  rw [← add_assoc, hper (624 + n) (by omega)]

/-- **C58.**  Different seeds give different random numbers, among the first 624 words already. -/
theorem C58_different_seeds (s t : BitVec 32) (hst : s ≠ t) (key0 key1 : ℕ → BitVec 32) :
    ∃ l m s' t', mtWords 624 (mtSeed key0 s) = some (l, s') ∧ mtWords 624 (mtSeed key1 t) = some (m, t') ∧ l ≠ m := by
  obtain ⟨x, ⟨hi, hr⟩, _⟩ := mt_exists s
  obtain ⟨y, ⟨hi', hr'⟩, _⟩ := mt_exists t
  obtain ⟨s', h⟩ := C58_words s key0 x hi hr 624
  obtain ⟨t', h'⟩ := C58_words t key1 y hi' hr' 624
  refine ⟨_, _, s', t', h, h', fun heq => hst ?_⟩
  have hw : ∀ d < 624, x (624 + d) = y (624 + d) := by
    intro d hd
    have := congrArg (fun l : List (BitVec 32) => l[d]?) heq
    beta_reduce at this
    rw [List.getElem?_map, List.getElem?_map, List.getElem?_range hd] at this
    exact mtTemper_injective (by simpa using this)
  exact mt_init_inj hi hi' (by simpa using (mt_agree_of_window hr hr' hw).2 1 (by norm_num) (by norm_num))

/-- **C58.**  The generator never gets stuck at zero: among any 624 consecutive words there is one that is not 0, for every seed, 0 included. -/
theorem C58_never_stuck (seed : BitVec 32) (key0 : ℕ → BitVec 32) (n : ℕ) :
    ∃ l s, mtWords (n + 624) (mtSeed key0 seed) = some (l, s) ∧ ∃ d < 624, ∃ w, l[n + d]? = some w ∧ w ≠ 0#32 := by
  obtain ⟨x, ⟨hi, hr⟩, _⟩ := mt_exists seed
  obtain ⟨s, h⟩ := C58_words seed key0 x hi hr (n + 624)
  obtain ⟨d, hd, hne⟩ := mt_window_ne_zero hr hi (624 + n)
  refine ⟨_, s, h, d, hd, mtTemper (x (624 + (n + d))), ?_, fun h0 => hne ?_⟩
  · rw [List.getElem?_map, List.getElem?_range (by omega)]; rfl
  · rw [← add_assoc] at h0
    exact mtTemper_injective (h0.trans (by decide))

/-- **C58.**  `rng_random`: if the next two words are `w1` and `w2`, the result is the 53-bit number made of the upper 27 bits of `w1` and the
upper 26 bits of `w2`, divided by 2^53, exactly: none of the three operations is rounded, whatever the rounding mode to nearest.  It is in
`[0, 1)`. -/
theorem C58_random (rnd : ℝ → ℝ) (hrnd : Nearest binary64 rnd) (s : MtState) (w1 w2 : BitVec 32) (s' : MtState) (h : mtWords 2 s = some ([w1, w2], s')) :
    mtNextDouble rnd s = some ((((w1.toNat / 2 ^ 5) * 2 ^ 26 + w2.toNat / 2 ^ 6 : ℕ) : ℝ) / 2 ^ 53, s') ∧
    (w1.toNat / 2 ^ 5) * 2 ^ 26 + w2.toNat / 2 ^ 6 < 2 ^ 53 := by
  have h1 : w1.toNat / 2 ^ 5 < 2 ^ 27 := by have := w1.isLt; omega
  have h2 : w2.toNat / 2 ^ 6 < 2 ^ 26 := by have := w2.isLt; omega
  refine ⟨?_, by omega⟩
  rw [mtWords] at h
  cases hn : mtNext s with
  | none => rw [hn] at h; cases h
  | some r1 =>
    obtain ⟨y1, s1⟩ := r1
    rw [hn] at h
    dsimp only at h
    rw [mtWords] at h
    cases hn2 : mtNext s1 with
    | none => rw [hn2] at h; cases h
    | some r2 =>
      obtain ⟨y2, s2⟩ := r2
      rw [hn2] at h
      simp only [mtWords, Option.some.injEq, Prod.mk.injEq, List.cons.injEq, and_true] at h
      obtain ⟨⟨rfl, rfl⟩, rfl⟩ := h
      unfold mtNextDouble
      rw [hn]
      dsimp only
      rw [hn2]
      dsimp only
      rw [BitVec.toNat_ushiftRight, BitVec.toNat_ushiftRight, Nat.shiftRight_eq_div_pow, Nat.shiftRight_eq_div_pow]
      set a := y1.toNat / 2 ^ 5
      set b := y2.toNat / 2 ^ 6
      have e1 : rnd ((a : ℝ) * 67108864) = (a : ℝ) * 67108864 := by
        apply hrnd.fix
        have : ((a * 67108864 : ℕ) : ℤ) ∈ {n : ℤ | |n| ≤ 2 ^ 53} := by
          show |((a * 67108864 : ℕ) : ℤ)| ≤ 2 ^ 53
          rw [Nat.abs_cast]; norm_num; omega
        have := binary64_int this
        push_cast at this
        exact this
      have e2 : rnd ((a : ℝ) * 67108864 + (b : ℝ)) = (a : ℝ) * 67108864 + b := by
        apply hrnd.fix
        have : |((a * 67108864 + b : ℕ) : ℤ)| ≤ 2 ^ 53 := by
          rw [Nat.abs_cast]; norm_num; omega
        have := binary64_int this
        push_cast at this
        exact this
      have e3 : rnd (((a : ℝ) * 67108864 + b) / 9007199254740992) = ((a : ℝ) * 67108864 + b) / 9007199254740992 := by
        apply hrnd.fix
        refine ⟨((a * 67108864 + b : ℕ) : ℤ), -53, ?_, by norm_num, ?_⟩
        · rw [Nat.abs_cast]; norm_num; omega
        · rw [zpow_neg, div_eq_mul_inv]
          push_cast
          norm_num
      rw [e1, e2, e3]
      norm_num

/-- The generator of the code, as the generator of the sampling functions; the normal numbers are left open. -/
noncomputable def mtRng (rnd : ℝ → ℝ) (normal : MtState → ℝ × MtState) : Rng MtState ℝ where
  random s := (mtNextDouble rnd s).getD (0, s)
  normal := normal

theorem mtRng_range (rnd : ℝ → ℝ) (hrnd : Nearest binary64 rnd) (normal : MtState → ℝ × MtState) (s : MtState) :
    0 ≤ ((mtRng rnd normal).random s).1 ∧ ((mtRng rnd normal).random s).1 < 1 := by
  unfold mtRng
  dsimp only
  cases hn : mtWords 2 s with
  | none =>
    have : mtNextDouble rnd s = none := by
      unfold mtNextDouble
      rw [mtWords] at hn
      cases h1 : mtNext s with
      | none => rfl
      | some r1 =>
        rw [h1] at hn
        dsimp only at hn ⊢
        rw [mtWords] at hn
        cases h2 : mtNext r1.2 with
        | none => rfl
        | some r2 => rw [h2] at hn; simp [mtWords] at hn
    rw [this]; simp
  | some r =>
    obtain ⟨l, s'⟩ := r
    have hl : ∃ w1 w2, l = [w1, w2] := by
      rw [mtWords] at hn
      cases h1 : mtNext s with
      | none => rw [h1] at hn; cases hn
      | some r1 =>
        rw [h1] at hn
        dsimp only at hn
        rw [mtWords] at hn
        cases h2 : mtNext r1.2 with
        | none => rw [h2] at hn; cases hn
        | some r2 =>
          rw [h2] at hn
          simp only [mtWords, Option.some.injEq, Prod.mk.injEq] at hn
          exact ⟨_, _, hn.1.symm⟩
    obtain ⟨w1, w2, rfl⟩ := hl
    obtain ⟨h1, h2⟩ := C58_random rnd hrnd s w1 w2 s' hn
    rw [h1]
    simp only [Option.getD_some]
    refine ⟨by positivity, ?_⟩
    rw [div_lt_one (by positivity)]
    exact_mod_cast h2

/-- **C58.**  Consequence for `whv_hype` with the uniform distribution and the generator of the code: for every seed the samples lie in the box
and the result is the area of the box times the fraction of dominated samples. -/
theorem C58_whv_hype_uniform (rnd : ℝ → ℝ) (hrnd : Nearest binary64 rnd) (normal : MtState → ℝ × MtState) (key0 : ℕ → BitVec 32) (seed : BitVec 32)
    (pts : ℕ → ℕ → ℝ) (n : ℕ) (ideal ref : ℕ → ℝ) (h : ∀ d < 2, ideal d < ref d) (nsamples : ℕ) :
    ∃ places : List (ℝ × ℝ), places.length = nsamples ∧
      (∀ q ∈ places, (ideal 0 ≤ q.1 ∧ q.1 < ref 0) ∧ (ideal 1 ≤ q.2 ∧ q.2 < ref 1)) ∧
      whvHypeUnif (mtRng rnd normal) pts n ideal ref nsamples (mtSeed key0 seed) =
        some ((ref 0 - ideal 0) * (ref 1 - ideal 1) * ((dominatedCount pts n places : ℝ) / (nsamples : ℝ))) :=
  C35_uniform (mtRng rnd normal) (mtRng_range rnd hrnd normal) pts n ideal ref h nsamples (mtSeed key0 seed)

/-- Non-vacuity: the sequence for seed 5489, whose first word is known to be 3499211612 (the reference value of the authors of MT19937). -/
example : (mtWords 1 (mtSeed (fun _ => 0#32) 5489#32)).map Prod.fst = some [3499211612#32] := by
  decide +kernel

end Moo
