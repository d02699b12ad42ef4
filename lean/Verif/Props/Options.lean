import Verif.Model.Io
import Mathlib.Algebra.Order.Ring.Int

/-!
# Property C44: strings that give the directions of objectives, and bit vectors
-/

set_option autoImplicit false

namespace Moo

/-- The characters of the language: maximise, minimise, ignore. -/
def directionOf : Char → Option ℤ
  | '+' => some 1
  | '-' => some (-1)
  | '0' => some 0
  | 'i' => some 0
  | _ => none

theorem minmaxChar_eq (c : Char) : minmaxChar c = directionOf c := by
  unfold minmaxChar directionOf
  split_ifs with h1 h2 h3
  · subst h1; rfl
  · subst h2; rfl
  · rcases h3 with rfl | rfl <;> rfl
  · push Not at h3
    split
    · exact absurd rfl h1
    · exact absurd rfl h2
    · exact absurd rfl h3.1
    · exact absurd rfl h3.2
    · rfl

theorem minmaxLoop_none (cs : List Char) : ∀ (i : ℕ) (ai : Bool) (a : ℕ → ℤ), (∃ c ∈ cs, directionOf c = none) ↔ minmaxLoop cs i ai a = none := by
  induction cs with
  | nil => intro i ai a; simp [minmaxLoop]
  | cons c cs ih =>
    intro i ai a
    rw [minmaxLoop, minmaxChar_eq]
    cases hc : directionOf c with
    | none => simp [hc]
    | some v =>
      dsimp only
      rw [← ih]
      simp [hc]

theorem minmaxLoop_some (cs : List Char) : ∀ (i : ℕ) (ai : Bool) (a : ℕ → ℤ) (b : Bool) (a' : ℕ → ℤ), minmaxLoop cs i ai a = some (b, a') →
    (b = true ↔ ai = true ∧ ∀ c ∈ cs, directionOf c = some 0) ∧ (∀ k < i, a' k = a k) ∧ (∀ k, i + cs.length ≤ k → a' k = a k) ∧
    ∀ k (hk : k < cs.length), directionOf cs[k] = some (a' (i + k)) := by
  induction cs with
  | nil =>
    intro i ai a b a' h
    simp only [minmaxLoop, Option.some.injEq, Prod.mk.injEq] at h
    obtain ⟨rfl, rfl⟩ := h
    simp
  | cons c cs ih =>
    intro i ai a b a' h
    rw [minmaxLoop, minmaxChar_eq] at h
    cases hc : directionOf c with
    | none => rw [hc] at h; cases h
    | some v =>
      rw [hc] at h
      obtain ⟨e1, e2, e3, e4⟩ := ih _ _ _ _ _ h
      refine ⟨?_, ?_, ?_, ?_⟩
      · rw [e1]
        by_cases hv : v = 0
        · simp [hv, hc]
        · simp [hv, hc]
      · intro k hk
        rw [e2 k (by omega), upd_ne _ _ (by omega)]
      · intro k hk
        rw [List.length_cons] at hk
        rw [e3 k (by omega), upd_ne _ _ (by omega)]
      · intro k hk
        cases k with
        | zero =>
          rw [Nat.add_zero, e2 i (by omega), upd_same]
          exact hc
        | succ k =>
          rw [show i + (k + 1) = i + 1 + k by omega]
          exact e4 k (by simpa using hk)

theorem minmaxCycle_spec (len : ℕ) (hl : 0 < len) (m : ℕ) : ∀ (i : ℕ) (a : ℕ → ℤ), (∀ k, k < len + i → a k = a (k % len)) →
    (∀ k, k < len + i + m → minmaxCycle len m i a k = a (k % len)) ∧ ∀ k, len + i + m ≤ k → minmaxCycle len m i a k = a k := by
  induction m with
  | zero => intro i a h; exact ⟨fun k hk => h k (by omega), fun k _ => rfl⟩
  | succ m ih =>
    intro i a h
    rw [minmaxCycle]
    have hmod : ∀ k, k % len < len := fun k => Nat.mod_lt _ hl
    have hval : ∀ k, upd a (len + i) (a i) (k % len) = a (k % len) := fun k => upd_ne _ _ (by have := hmod k; omega)
    obtain ⟨e1, e2⟩ := ih (i + 1) (upd a (len + i) (a i)) (by
      intro k hk
      rw [hval]
      by_cases hk' : k = len + i
      · subst hk'
        rw [upd_same, h i (by omega), Nat.add_mod_left]
      · rw [upd_ne _ _ hk', h k (by omega)])
    refine ⟨fun k hk => by rw [e1 k (by omega), hval], fun k hk => ?_⟩
    rw [e2 k (by omega), upd_ne _ _ (by omega)]

/-- **C44 (invalid)**: `read_minmax` returns no array if and only if the string has a character that is not a direction. -/
theorem C44_null (junk : ℕ → ℤ) (str : List Char) (nobj : ℕ) : readMinmax junk str nobj = .null ↔ ∃ c ∈ str, directionOf c = none := by
  rw [minmaxLoop_none str 0 true junk]
  unfold readMinmax
  cases h : minmaxLoop str 0 true junk with
  | none => simp
  | some p =>
    obtain ⟨b, a⟩ := p
    dsimp only
    split_ifs <;> simp

/-- **C44 (all ignored)**: the program stops if and only if all the characters of the string, possibly none, say that the objective is ignored. -/
theorem C44_exit (junk : ℕ → ℤ) (str : List Char) (nobj : ℕ) : readMinmax junk str nobj = .exit ↔ ∀ c ∈ str, directionOf c = some 0 := by
  unfold readMinmax
  cases h : minmaxLoop str 0 true junk with
  | none =>
    obtain ⟨c, hc, h0⟩ := (minmaxLoop_none str 0 true junk).2 h
    simp only [reduceCtorEq, false_iff]
    intro hall
    rw [hall c hc] at h0
    cases h0
  | some p =>
    obtain ⟨b, a⟩ := p
    obtain ⟨e1, _⟩ := minmaxLoop_some str 0 true junk b a h
    dsimp only
    cases b with
    | true => simpa using e1
    | false => simpa using e1

/-- **C44 (directions)**: otherwise, the direction of objective `k` is given by character `k`, and the directions repeat if the string is shorter than the number of objectives. -/
theorem C44_directions (junk : ℕ → ℤ) (str : List Char) (nobj : ℕ) (hvalid : ∀ c ∈ str, directionOf c ≠ none) (hsome : ∃ c ∈ str, directionOf c ≠ some 0) :
    ∃ minmax, readMinmax junk str nobj = .ok minmax str.length ∧
      ∀ k < max str.length nobj, ∃ c, str[k % str.length]? = some c ∧ directionOf c = some (minmax k) := by
  unfold readMinmax
  have hl : 0 < str.length := by obtain ⟨c, hc, _⟩ := hsome; exact List.length_pos_of_mem hc
  cases h : minmaxLoop str 0 true junk with
  | none =>
    obtain ⟨c, hc, h0⟩ := (minmaxLoop_none str 0 true junk).2 h
    exact absurd h0 (hvalid c hc)
  | some p =>
    obtain ⟨b, a⟩ := p
    obtain ⟨e1, _, _, e4⟩ := minmaxLoop_some str 0 true junk b a h
    have hb : b = false := by
      cases b with
      | false => rfl
      | true =>
        obtain ⟨c, hc, h0⟩ := hsome
        exact absurd ((e1.1 rfl).2 c hc) h0
    subst hb
    dsimp only
    refine ⟨_, rfl, ?_⟩
    intro k hk
    have hmod := Nat.mod_lt k hl
    refine ⟨str[k % str.length], List.getElem?_eq_getElem hmod, ?_⟩
    rw [e4 _ hmod, Nat.zero_add]
    congr 1
    by_cases hlt : str.length < nobj
    · rw [if_pos hlt]
      have := (minmaxCycle_spec str.length hl (nobj - str.length) 0 a (fun k hk => by rw [Nat.mod_eq_of_lt (by omega)])).1 k (by omega)
      rw [this]
    · rw [if_neg hlt, Nat.mod_eq_of_lt (by omega)]

/-- **Defect**: the number of objectives that `read_minmax` gives back is the length of the string, even if it has just filled in more directions than that. -/
theorem C44_short_count (junk : ℕ → ℤ) : ∃ a, readMinmax junk ['+'] 3 = .ok a 1 ∧ a 0 = 1 ∧ a 1 = 1 ∧ a 2 = 1 := by
  refine ⟨_, rfl, ?_, ?_, ?_⟩ <;> simp [minmaxCycle]

/-- **C44 (bit vectors)**: `read_bitvector` accepts exactly the strings over `0` and `1`, and gives their bits. -/
theorem C44_bitvector (str : List Char) : (readBitvector str ≠ none ↔ ∀ c ∈ str, c = '0' ∨ c = '1') ∧
    ∀ bits, readBitvector str = some bits → bits.map (fun b => if b then '1' else '0') = str := by
  induction str with
  | nil =>
    refine ⟨by simp [readBitvector], ?_⟩
    intro bits h
    cases h
    rfl
  | cons c cs ih =>
    rw [readBitvector]
    by_cases h1 : c = '1'
    · subst h1
      refine ⟨?_, ?_⟩
      · simpa using ih.1
      · intro bits h
        rw [if_pos rfl] at h
        obtain ⟨b, hb, rfl⟩ := Option.map_eq_some_iff.1 h
        simpa using ih.2 b hb
    · by_cases h0 : c = '0'
      · subst h0
        refine ⟨?_, ?_⟩
        · simpa [h1] using ih.1
        · intro bits h
          rw [if_neg h1, if_pos rfl] at h
          obtain ⟨b, hb, rfl⟩ := Option.map_eq_some_iff.1 h
          simpa using ih.2 b hb
      · simp [h1, h0]

/-- Three directions for five objectives. -/
example (junk : ℕ → ℤ) : ∃ a, readMinmax junk ['+', '-', 'i'] 5 = .ok a 3 ∧ (List.range 5).map a = [1, -1, 0, 1, -1] := by
  refine ⟨_, rfl, ?_⟩
  simp [List.range_succ, minmaxCycle]

/-- The hypotheses of `C44_directions` hold for it. -/
example : (∀ c ∈ ['+', '-', 'i'], directionOf c ≠ none) ∧ ∃ c ∈ ['+', '-', 'i'], directionOf c ≠ some 0 := by decide

end Moo
