import Verif.Lemmas.MtArray
import Mathlib.Tactic.NormNum

/-!
# C119: seeding the random number generator from an array
-/

set_option autoImplicit false
set_option linter.unusedSectionVars false

namespace Moo

/-- **C119.**  Seeded from an array of any positive length the generator returns the tempered words, from the 625th on, of the Mersenne twister
sequence that starts with the 624 words of `MtArrayInit`, whatever was in the memory before and whatever follows the array; nothing outside of the
state and of the array is accessed.  (`mtArray_exists`: the sequence exists and is unique.) -/
theorem C119_words (a more : List (BitVec 32)) (ha : a ≠ []) (key0 : ℕ → BitVec 32) (x : ℕ → BitVec 32) (hx : MtArrayInit a x) (hr : MtRecurrence x) (n : ℕ) :
    ∃ s s', mtInitByArray key0 (a ++ more) a.length = some s ∧ mtWords n s = some ((List.range n).map (fun k => mtTemper (x (624 + k))), s') := by
  obtain ⟨s, e, hp, hb⟩ := mtInitByArray_block ha hx more key0
  obtain ⟨s', h, _⟩ := mtWords_spec hr n 624 s ⟨0, hb, by omega, by omega⟩
  exact ⟨s, s', e, h⟩

/-- **C119.**  An array without elements is read outside of its bounds, whatever length is given. -/
theorem C119_empty (key0 : ℕ → BitVec 32) (len : ℤ) : mtInitByArray key0 [] len = none := by
  have h : ∀ k mt, mtArrayLoop1 [] len (k + 1) mt 1 0 = none := by
    intro k mt
    rw [mtArrayLoop1, if_pos ⟨le_rfl, by norm_num⟩]
    rfl
  unfold mtInitByArray
  dsimp only
  obtain ⟨k, hk⟩ : ∃ k, (if 624 > len then 624 else len.toNat) = k + 1 := by
    split
    · exact ⟨623, rfl⟩
    · exact ⟨len.toNat - 1, by omega⟩
  rw [hk, h]

/-- **C119.**  Whatever the array, even if all of it is 0, the generator never gets stuck at zero: among any 624 consecutive words there is one that
is not 0. -/
theorem C119_never_stuck (a more : List (BitVec 32)) (ha : a ≠ []) (key0 : ℕ → BitVec 32) (n : ℕ) :
    ∃ s l s', mtInitByArray key0 (a ++ more) a.length = some s ∧ mtWords (n + 624) s = some (l, s') ∧ ∃ d < 624, ∃ w, l[n + d]? = some w ∧ w ≠ 0#32 := by
  obtain ⟨x, ⟨hx, hr⟩, _⟩ := mtArray_exists a ha
  obtain ⟨s, s', e, h⟩ := C119_words a more ha key0 x hx hr (n + 624)
  have hw : ∃ d < 624, x (624 + n + d) ≠ 0#32 := by
    by_contra hcon
    push Not at hcon
    have h0 : MtRecurrence (fun _ => 0#32) := fun k => (by decide : 0#32 = 0#32 ^^^ twistA (upperLower 0#32 0#32))
    have hag := (mt_agree_of_window hr h0 (i := 624 + n) (fun d hd => hcon d hd)).1
    obtain ⟨_, _, _, _, _, _, hx0, _⟩ := hx
    rw [hx0] at hag
    revert hag
    decide
  obtain ⟨d, hd, hne⟩ := hw
  refine ⟨s, _, s', e, h, d, hd, mtTemper (x (624 + (n + d))), ?_, fun h0 => hne ?_⟩
  · rw [List.getElem?_map, List.getElem?_range (by omega)]; rfl
  · rw [← add_assoc] at h0
    exact mtTemper_injective (h0.trans (by decide))

/-- **C119.**  Different arrays of the same length, of at most 622 words, give different random numbers, among the first 624 words already. -/
theorem C119_different_arrays (a b : List (BitVec 32)) (ha : a ≠ []) (hl : a.length = b.length) (hn : a.length ≤ 622) (hab : a ≠ b) (key0 key1 : ℕ → BitVec 32) :
    ∃ s t l m s' t', mtInitByArray key0 a a.length = some s ∧ mtInitByArray key1 b b.length = some t ∧ mtWords 624 s = some (l, s') ∧
      mtWords 624 t = some (m, t') ∧ l ≠ m := by
  have hb : b ≠ [] := fun h => ha (List.length_eq_zero_iff.1 (by rw [hl, h]; rfl))
  obtain ⟨x, ⟨hx, hr⟩, _⟩ := mtArray_exists a ha
  obtain ⟨y, ⟨hy, hr'⟩, _⟩ := mtArray_exists b hb
  obtain ⟨s, s', e, h⟩ := C119_words a [] ha key0 x hx hr 624
  obtain ⟨t, t', e', h'⟩ := C119_words b [] hb key1 y hy hr' 624
  rw [List.append_nil] at e e'
  refine ⟨s, t, _, _, s', t', e, e', h, h', fun heq => hab ?_⟩
  have hw : ∀ d < 624, x (624 + d) = y (624 + d) := by
    intro d hd
    have := congrArg (fun l : List (BitVec 32) => l[d]?) heq
    beta_reduce at this
    rw [List.getElem?_map, List.getElem?_map, List.getElem?_range hd] at this
    exact mtTemper_injective (by simpa using this)
  have hag := (mt_agree_of_window hr hr' hw).2
  exact mtArrayInit_inj ha hl hn hx hy (fun i h0 h1 => by simpa using hag i h0 h1)

/-- **C119.**  Arrays of different lengths need not give different random numbers: `w` alone and `w, w - 1` give the same ones for ever. -/
theorem C119_false_lengths (w : BitVec 32) (key0 key1 : ℕ → BitVec 32) (n : ℕ) :
    ∃ s t l s' t', mtInitByArray key0 [w] 1 = some s ∧ mtInitByArray key1 [w, w - 1] 2 = some t ∧ mtWords n s = some (l, s') ∧ mtWords n t = some (l, t') := by
  obtain ⟨x, ⟨hx, hr⟩, _⟩ := mtArray_exists [w] (by simp)
  have hx2 : MtArrayInit [w, w - 1] x := by
    obtain ⟨g, y, hg, h0, h1, h2, hx0, hxt⟩ := hx
    refine ⟨g, y, hg, h0, fun t ht ht' => ?_, h2, hx0, hxt⟩
    rw [h1 t ht ht', BitVec.add_assoc, BitVec.add_assoc]
    congr 1
    rw [show [w].length = 1 from rfl, show [w, w - 1].length = 2 from rfl, Nat.mod_one]
    rcases Nat.mod_two_eq_zero_or_one (t - 1) with h | h
    · rw [h]; rfl
    · rw [h]
      show w + BitVec.ofNat 32 0 = w - 1 + BitVec.ofNat 32 1
      exact (BitVec.add_zero w).trans (BitVec.sub_add_cancel w 1#32).symm
  obtain ⟨s, s', e, h⟩ := C119_words [w] [] (by simp) key0 x hx hr n
  obtain ⟨t, t', e', h'⟩ := C119_words [w, w - 1] [] (by simp) key1 x hx2 hr n
  exact ⟨s, t, _, s', t', e, e', h, h'⟩

/-- The hypotheses of the theorems above hold for two arrays of two words. -/
example : ∃ s t l m s' t', mtInitByArray (fun _ => 7#32) [0#32, 1#32] 2 = some s ∧ mtInitByArray (fun _ => 8#32) [0#32, 2#32] 2 = some t ∧
    mtWords 624 s = some (l, s') ∧ mtWords 624 t = some (m, t') ∧ l ≠ m :=
  C119_different_arrays [0#32, 1#32] [0#32, 2#32] (by simp) rfl (by decide) (by decide) _ _

end Moo
