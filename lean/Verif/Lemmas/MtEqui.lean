import Verif.Lemmas.Mt19937
import Verif.Model.MtDoubles
import Mathlib.Data.Fin.Tuple.Basic
import Mathlib.Logic.Equiv.Fin.Basic
import Mathlib.SetTheory.Cardinal.Finite
import Mathlib.Algebra.BigOperators.Fin

/-!
# The map from the contents of the array to a window of the sequence is a bijection (with 31 bits that play no role)
-/

set_option autoImplicit false
set_option linter.unusedSectionVars false

namespace Moo

/-- The sequence with the given first 624 words. -/
def mtSeq (key : ℕ → BitVec 32) (n : ℕ) : BitVec 32 :=
  if n < 624 then key n else mtSeq key (n - 227) ^^^ twistA (upperLower (mtSeq key (n - 624)) (mtSeq key (n - 623)))
  termination_by n
  decreasing_by all_goals omega

theorem mtSeq_init (key : ℕ → BitVec 32) (n : ℕ) (h : n < 624) : mtSeq key n = key n := by
  rw [mtSeq, if_pos h]

theorem mtSeq_rec (key : ℕ → BitVec 32) : MtRecurrence (mtSeq key) := by
  intro k
  rw [mtSeq, if_neg (by omega), show k + 624 - 227 = k + 397 by omega, show k + 624 - 624 = k by omega, show k + 624 - 623 = k + 1 by omega]

/-- The contents of the array. -/
abbrev MtKey := Fin 624 → BitVec 32

/-- The array as a function on all indices. -/
def MtKey.ext (key : MtKey) (i : ℕ) : BitVec 32 := if h : i < 624 then key ⟨i, h⟩ else 0

/-- One step of the recurrence on windows of 624 words; the lower bits of the first word, which play no role, are kept. -/
def mtShift (v : MtKey) : MtKey := fun i =>
  if i.1 = 0 then upperLower (v 1) (v 0)
  else if h : i.1 < 623 then v ⟨i.1 + 1, by omega⟩
  else v 397 ^^^ twistA (upperLower (v 0) (v 1))

theorem bv_eq_of_bits {a b : BitVec 32} (h31 : a.getLsbD 31 = b.getLsbD 31) (h : ∀ i < 31, a.getLsbD i = b.getLsbD i) : a = b := by
  apply BitVec.eq_of_getLsbD_eq
  intro i hi
  by_cases h' : i = 31
  · rw [h', h31]
  · exact h i (by omega)

theorem mtShift_injective : Function.Injective mtShift := by
  intro v v' h
  have h2 : ∀ i : Fin 624, 2 ≤ i.1 → v i = v' i := by
    intro i hi
    have := congrFun h ⟨i.1 - 1, by omega⟩
    simp only [mtShift] at this
    rw [if_neg (by omega), if_neg (by omega), dif_pos (by omega), dif_pos (by omega)] at this
    have e : (⟨i.1 - 1 + 1, by omega⟩ : Fin 624) = i := Fin.ext (by simp; omega)
    rwa [e] at this
  have hlast := congrFun h 623
  simp only [mtShift] at hlast
  rw [if_neg (by decide), if_neg (by decide), dif_neg (by decide), dif_neg (by decide), h2 397 (by decide)] at hlast
  have h1 : twistA (upperLower (v 0) (v 1)) = twistA (upperLower (v' 0) (v' 1)) := by
    have := congrArg (v' 397 ^^^ ·) hlast
    simpa [← BitVec.xor_assoc] using this
  obtain ⟨a, b⟩ := upperLower_inj (twistA_injective h1)
  have hfirst := congrFun h 0
  simp only [mtShift] at hfirst
  obtain ⟨c, d⟩ := upperLower_inj hfirst
  have e0 : v 0 = v' 0 := bv_eq_of_bits a d
  have e1 : v 1 = v' 1 := bv_eq_of_bits c b
  funext i
  by_cases hi : 2 ≤ i.1
  · exact h2 i hi
  · have : i = 0 ∨ i = 1 := by
      rcases (show i.1 = 0 ∨ i.1 = 1 by omega) with h' | h'
      · exact .inl (Fin.ext h')
      · exact .inr (Fin.ext h')
    rcases this with rfl | rfl
    · exact e0
    · exact e1

instance : Finite (BitVec 32) := Finite.of_equiv (Fin (2 ^ 32)) ⟨BitVec.ofFin, BitVec.toFin, fun _ => rfl, fun _ => rfl⟩

theorem natCard_bitVec : Nat.card (BitVec 32) = 2 ^ 32 := by
  rw [Nat.card_congr (⟨BitVec.toFin, BitVec.ofFin, fun _ => rfl, fun _ => rfl⟩ : BitVec 32 ≃ Fin (2 ^ 32)), Nat.card_eq_fintype_card, Fintype.card_fin]

theorem mtShift_bijective : Function.Bijective mtShift := Finite.injective_iff_bijective.1 mtShift_injective

/-- The window that begins at `m`, with the lower bits of the first word of the array in place of those of `x m`. -/
def mtWindow (x : ℕ → BitVec 32) (m : ℕ) : MtKey := fun i => if i.1 = 0 then upperLower (x m) (x 0) else x (m + i.1)

theorem mtWindow_succ {x : ℕ → BitVec 32} (hx : MtRecurrence x) (m : ℕ) : mtShift (mtWindow x m) = mtWindow x (m + 1) := by
  have hu : ∀ a b c : BitVec 32, upperLower a (upperLower b c) = upperLower a c := by
    intro a b c
    apply BitVec.eq_of_getLsbD_eq
    intro i hi
    simp only [upperLower_getLsbD _ _ hi]
    split <;> rfl
  have hu' : ∀ a b c : BitVec 32, upperLower (upperLower a b) c = upperLower a c := by
    intro a b c
    apply BitVec.eq_of_getLsbD_eq
    intro i hi
    simp only [upperLower_getLsbD _ _ hi, upperLower_getLsbD _ _ (show 31 < 32 by norm_num), if_true]
  have w0 : mtWindow x m 0 = upperLower (x m) (x 0) := rfl
  have w1 : mtWindow x m 1 = x (m + 1) := rfl
  have w397 : mtWindow x m 397 = x (m + 397) := rfl
  funext i
  simp only [mtShift, w0, w1, w397, hu, hu']
  unfold mtWindow
  by_cases hi : i.1 = 0
  · rw [if_pos hi, if_pos hi]
  · rw [if_neg hi, if_neg hi]
    by_cases h : i.1 < 623
    · rw [dif_pos h]
      dsimp only
      rw [if_neg (by omega)]
      congr 1
      omega
    · rw [dif_neg h, ← hx m]
      congr 1
      omega

theorem mtWindow_iter (key : MtKey) (m : ℕ) : mtShift^[m] key = mtWindow (mtSeq key.ext) m := by
  induction m with
  | zero =>
    funext i
    show key i = _
    unfold mtWindow
    have h : ∀ i : Fin 624, mtSeq key.ext i.1 = key i := by
      intro i
      rw [mtSeq_init _ _ i.2, MtKey.ext, dif_pos i.2]
    by_cases hi : i.1 = 0
    · rw [if_pos hi]
      have : i = 0 := Fin.ext hi
      subst this
      rw [show mtSeq key.ext 0 = key 0 from h 0]
      apply BitVec.eq_of_getLsbD_eq
      intro b hb
      rw [upperLower_getLsbD _ _ hb]
      split
      · next h' => rw [h']
      · rfl
    · rw [if_neg hi, zero_add, h]
  | succ m ih => rw [Function.iterate_succ_apply', ih, mtWindow_succ (mtSeq_rec _)]

/-- The number of contents of the array for which the 623 words after word `m` of the sequence form a window in `S`. -/
theorem mt_window_card (m : ℕ) (S : Set (Fin 623 → BitVec 32)) :
    Nat.card {key : MtKey // (fun d : Fin 623 => mtSeq key.ext (m + 1 + d)) ∈ S} = 2 ^ 32 * Nat.card S := by
  have hbij : Function.Bijective mtShift^[m] := mtShift_bijective.iterate m
  let e : MtKey ≃ MtKey := Equiv.ofBijective _ hbij
  have h1 : {key : MtKey // (fun d : Fin 623 => mtSeq key.ext (m + 1 + d)) ∈ S} ≃ {v : MtKey // (fun d : Fin 623 => v d.succ) ∈ S} := by
    refine e.subtypeEquiv fun key => ?_
    have : (fun d : Fin 623 => mtSeq key.ext (m + 1 + d)) = fun d : Fin 623 => e key d.succ := by
      funext d
      show _ = mtShift^[m] key d.succ
      rw [mtWindow_iter]
      unfold mtWindow
      rw [if_neg (by simp), Fin.val_succ]
      congr 1
      omega
    rw [this]
  have h2 : {v : MtKey // (fun d : Fin 623 => v d.succ) ∈ S} ≃ BitVec 32 × S :=
    { toFun := fun v => (v.1 0, ⟨fun d => v.1 d.succ, v.2⟩)
      invFun := fun p => ⟨Fin.cons p.1 p.2.1, by simp⟩
      left_inv := fun v => Subtype.ext (by
        funext i
        refine Fin.cases ?_ (fun j => ?_) i <;> simp)
      right_inv := fun p => by simp }
  rw [Nat.card_congr (h1.trans h2), Nat.card_prod, natCard_bitVec]

theorem natCard_high (c m a : ℕ) (hc : 0 < c) (hm : m * c = 2 ^ 32) (ha : a < m) : Nat.card {v : BitVec 32 // v.toNat / c = a} = c := by
  have hlt : ∀ k < c, a * c + k < 2 ^ 32 := by
    intro k hk
    have : (a + 1) * c ≤ m * c := Nat.mul_le_mul_right c ha
    rw [hm, Nat.add_mul] at this
    omega
  have e : {v : BitVec 32 // v.toNat / c = a} ≃ Fin c :=
    { toFun := fun v => ⟨v.1.toNat % c, Nat.mod_lt _ hc⟩
      invFun := fun k => ⟨BitVec.ofNat 32 (a * c + k), by
        rw [BitVec.toNat_ofNat, Nat.mod_eq_of_lt (hlt k k.2), Nat.mul_comm, Nat.mul_add_div hc, Nat.div_eq_of_lt k.2, Nat.add_zero]⟩
      left_inv := fun v => Subtype.ext (by
        apply BitVec.eq_of_toNat_eq
        have h := v.2
        have hv := Nat.div_add_mod v.1.toNat c
        rw [h, Nat.mul_comm] at hv
        rw [BitVec.toNat_ofNat, hv]
        exact Nat.mod_eq_of_lt v.1.isLt)
      right_inv := fun k => Fin.ext (by
        show (BitVec.ofNat 32 (a * c + k)).toNat % c = k
        rw [BitVec.toNat_ofNat, Nat.mod_eq_of_lt (hlt k k.2), Nat.mul_comm, Nat.mul_add_mod, Nat.mod_eq_of_lt k.2]) }
  rw [Nat.card_congr e, Nat.card_eq_fintype_card, Fintype.card_fin]

/-- The contents of the array as a state of the generator. -/
def MtKey.state (key : MtKey) (pos : ℕ) : MtState := ⟨key.ext, pos⟩

theorem mtKey_rep (key : MtKey) (pos : ℕ) (h : pos ≤ 624) : MtRep (mtSeq key.ext) pos (key.state pos) :=
  ⟨0, fun i hi => by rw [zero_add, mtSeq_init _ _ hi]; rfl, h, by simp [MtKey.state]⟩

end Moo
