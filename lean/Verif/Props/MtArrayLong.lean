import Verif.Props.MtArray
import Mathlib.Data.Fintype.Pigeonhole
import Mathlib.Data.Fintype.EquivFin
import Mathlib.SetTheory.Cardinal.Finite

/-!
# C119: arrays of 623 words and more are not all told apart
-/

set_option autoImplicit false
set_option linter.unusedSectionVars false

namespace Moo

theorem mtYs_init {g : ℕ → BitVec 32} (hg : MtInit 19650218#32 g) {a : List (BitVec 32)} {x : ℕ → BitVec 32} (h0 : x 0 = 0x80000000#32)
    (h : ∀ t, max 624 a.length < t → t ≤ max 624 a.length + 623 → x (mtPos t) = mtYs g a t) : MtArrayInit a x := by
  refine ⟨g, mtYs g a, hg, ?_, ?_, ?_, h0, h⟩
  · rw [mtYs, if_pos rfl]
  · intro t h1 h2
    rw [mtYs, if_neg (by omega)]
    dsimp only
    rw [if_pos h2]
    rfl
  · intro t h1 h2
    rw [mtYs, if_neg (by omega)]
    dsimp only
    rw [if_neg (by omega)]
    rfl

/-- With 624 words or more there are more arrays than states. -/
theorem mtArray_collision_long (n : ℕ) (hn : 624 ≤ n) :
    ∃ a b : List (BitVec 32), a.length = n ∧ b.length = n ∧ a ≠ b ∧ ∃ x, MtArrayInit a x ∧ MtArrayInit b x := by
  choose X hX using fun a : Fin n → BitVec 32 => mtArrayInit_exists (List.ofFn a)
  have hni : ¬ Function.Injective (fun (a : Fin n → BitVec 32) (i : Fin 623) => X a (i.1 + 1)) := by
    intro h
    have hc := Nat.card_le_card_of_injective _ h
    rw [Nat.card_fun, Nat.card_fun, natCard_bitVec, Nat.card_fin, Nat.card_fin] at hc
    exact absurd hc (not_le.2 (Nat.pow_lt_pow_right (Nat.one_lt_two_pow (by norm_num)) (by omega)))
  rw [Function.Injective] at hni
  push Not at hni
  obtain ⟨a, b, he, hab⟩ := hni
  refine ⟨List.ofFn a, List.ofFn b, List.length_ofFn, List.length_ofFn, fun h => hab (List.ofFn_injective h), X a, hX a, ?_⟩
  refine mtArrayInit_congr (hX b) fun i hi => ?_
  by_cases h0 : i = 0
  · obtain ⟨_, _, _, _, _, _, h1, _⟩ := hX a
    obtain ⟨_, _, _, _, _, _, h2, _⟩ := hX b
    rw [h0, h1, h2]
  · have := congrFun he ⟨i - 1, by omega⟩
    dsimp only at this
    rwa [show i - 1 + 1 = i by omega] at this

/-- With 623 words the first one is used twice, so that one bit of the state does not depend on the array. -/
theorem mtArray_collision_623 :
    ∃ a b : List (BitVec 32), a.length = 623 ∧ b.length = 623 ∧ a ≠ b ∧ ∃ x, MtArrayInit a x ∧ MtArrayInit b x := by
  obtain ⟨g, ⟨hg, _⟩, _⟩ := mt_exists 19650218#32
  set G : (Fin 623 → BitVec 32) → (Fin 623 → BitVec 32) := fun a i => mtYs g (List.ofFn a) (i.1 + 2) with hG
  have hlen : ∀ a : Fin 623 → BitVec 32, (List.ofFn a).length = 623 := fun a => List.length_ofFn
  have hns : ¬ Function.Surjective G := by
    intro hs
    set q := mtBlend 1664525#32 (g 1) (g 0) with hq
    obtain ⟨a, ha⟩ := hs (fun i => if i.1 = 621 then 0#32 else q + 1#32)
    have h623 : mtYs g (List.ofFn a) 623 = 0#32 := congrFun ha ⟨621, by norm_num⟩
    have h624 : mtYs g (List.ofFn a) 624 = q + 1#32 := congrFun ha ⟨622, by norm_num⟩
    have h1 : mtYs g (List.ofFn a) 1 = q + (List.ofFn a).getD 0 0 := by
      rw [mtYs, if_neg (by norm_num)]
      dsimp only
      rw [hlen, if_pos (by norm_num), if_pos (by norm_num), Nat.sub_self, Nat.zero_mod, mtYs, if_pos rfl]
      exact BitVec.add_zero _
    rw [mtYs, if_neg (by norm_num)] at h624
    dsimp only at h624
    rw [hlen, if_pos (show 624 ≤ max 624 623 by norm_num), if_neg (show ¬ 624 < 624 by norm_num), show 624 - 623 = 1 from rfl, show 624 - 1 = 623 from rfl, h623, h1, Nat.mod_self] at h624
    have hz : mtBlend 1664525#32 (q + (List.ofFn a).getD 0 0) 0#32 = q + (List.ofFn a).getD 0 0 := by
      unfold mtBlend
      rw [show (0#32 ^^^ (0#32 >>> 30)) * 1664525#32 = 0#32 by decide, BitVec.xor_zero]
    rw [hz, show BitVec.ofNat 32 0 = 0#32 from rfl, BitVec.add_zero, BitVec.add_assoc] at h624
    generalize (List.ofFn a).getD 0 0 = w at h624
    have h2 := (BitVec.add_right_inj q).1 h624
    have h3 := congrArg BitVec.toNat h2
    rw [BitVec.toNat_add] at h3
    have h4 : (1#32).toNat = 1 := rfl
    omega
  have hni : ¬ Function.Injective G := fun h => hns (Finite.injective_iff_surjective.1 h)
  rw [Function.Injective] at hni
  push Not at hni
  obtain ⟨a, b, he, hab⟩ := hni
  refine ⟨List.ofFn a, List.ofFn b, hlen a, hlen b, fun h => hab (List.ofFn_injective h), ?_⟩
  have hsame : ∀ t, 2 ≤ t → t ≤ 624 + 623 → mtYs g (List.ofFn a) t = mtYs g (List.ofFn b) t := by
    intro t
    induction t using Nat.strong_induction_on with
    | _ t ih =>
      intro h2 h3
      by_cases h4 : t ≤ 624
      · have := congrFun he ⟨t - 2, by omega⟩
        rw [hG] at this
        dsimp only at this
        rwa [show t - 2 + 2 = t by omega] at this
      · have step : ∀ c : Fin 623 → BitVec 32, mtYs g (List.ofFn c) t =
            mtBlend 1566083941#32 (mtYs g (List.ofFn c) (t - 623)) (mtYs g (List.ofFn c) (t - 1)) - BitVec.ofNat 32 (mtPos t) := by
          intro c
          conv_lhs => rw [mtYs]
          rw [if_neg (by omega)]
          dsimp only
          rw [hlen, if_neg (by omega), if_neg (by omega)]
        rw [step a, step b, ih (t - 623) (by omega) (by omega) (by omega), ih (t - 1) (by omega) (by omega) (by omega)]
  obtain ⟨x, h0, hx⟩ : ∃ x : ℕ → BitVec 32, x 0 = 0x80000000#32 ∧ ∀ t, 624 < t → t ≤ 624 + 623 → x (mtPos t) = mtYs g (List.ofFn a) t := by
    refine ⟨fun i => if i = 0 then 0x80000000#32 else mtYs g (List.ofFn a) (624 + 1 + (i + 621) % 623), rfl, fun t h1 h2 => ?_⟩
    dsimp only
    rw [if_neg (by unfold mtPos; omega)]
    have e : 624 + 1 + (mtPos t + 621) % 623 = t := by unfold mtPos; omega
    rw [e]
  refine ⟨x, mtYs_init hg h0 ?_, mtYs_init hg h0 ?_⟩
  · rw [hlen]
    exact hx
  · rw [hlen]
    intro t h1 h2
    rw [hx t h1 h2]
    exact hsame t (le_trans (by norm_num) h1.le) h2

/-- **C119.**  The bound of `C119_different_arrays` is sharp: for every length of 623 words or more there are two different arrays of that length that
give the same random numbers for ever. -/
theorem C119_false_long (n : ℕ) (hn : 623 ≤ n) :
    ∃ a b : List (BitVec 32), a.length = n ∧ b.length = n ∧ a ≠ b ∧ ∀ (key0 key1 : ℕ → BitVec 32) (k : ℕ), ∃ s t l s' t',
      mtInitByArray key0 a n = some s ∧ mtInitByArray key1 b n = some t ∧ mtWords k s = some (l, s') ∧ mtWords k t = some (l, t') := by
  obtain ⟨a, b, ha, hb, hab, x, hx, hy⟩ : ∃ a b : List (BitVec 32), a.length = n ∧ b.length = n ∧ a ≠ b ∧ ∃ x, MtArrayInit a x ∧ MtArrayInit b x := by
    rcases Nat.lt_or_ge n 624 with h | h
    · have : n = 623 := by omega
      subst this
      exact mtArray_collision_623
    · exact mtArray_collision_long n h
  refine ⟨a, b, ha, hb, hab, fun key0 key1 k => ?_⟩
  have ha0 : a ≠ [] := fun h => by rw [h] at ha; simp at ha; omega
  have hb0 : b ≠ [] := fun h => by rw [h] at hb; simp at hb; omega
  have hx' := mtArrayInit_congr hx (fun i hi => mtSeq_init x i hi)
  have hy' := mtArrayInit_congr hy (fun i hi => mtSeq_init x i hi)
  obtain ⟨s, s', e, h⟩ := C119_words a [] ha0 key0 _ hx' (mtSeq_rec x) k
  obtain ⟨t, t', e', h'⟩ := C119_words b [] hb0 key1 _ hy' (mtSeq_rec x) k
  rw [List.append_nil, ha] at e
  rw [List.append_nil, hb] at e'
  exact ⟨s, t, _, s', t', e, e', h, h'⟩

end Moo
