import Verif.Spec.Random
import Mathlib.Order.Basic
import Mathlib.Algebra.Order.Group.Nat

/-!
# Specification: seeding the Mersenne twister from an array

After `init_by_array` of M. Matsumoto and T. Nishimura (2002).  The words that are written one after the other, around positions 1, ..., 623 of the
state, are a sequence `y`; nothing is said about where they are kept meanwhile.
-/

set_option autoImplicit false
set_option linter.unusedSectionVars false

namespace Moo

/-- The position of the word number `t ≥ 1`: 1, 2, ..., 623, 1, 2, ... -/
def mtPos (t : ℕ) : ℕ := (t - 1) % 623 + 1

/-- The word that number `t` replaces: `g` is what was there at first. -/
def mtOld (g y : ℕ → BitVec 32) (t : ℕ) : BitVec 32 := if t < 624 then g t else y (t - 623)

/-- The mixing of two words. -/
def mtBlend (c old prev : BitVec 32) : BitVec 32 := old ^^^ ((prev ^^^ (prev >>> 30)) * c)

/-- The words of a state that is seeded from the array `a`: `x 0`, ..., `x 623`. -/
def MtArrayInit (a : List (BitVec 32)) (x : ℕ → BitVec 32) : Prop :=
  ∃ g y : ℕ → BitVec 32, MtInit 19650218#32 g ∧ y 0 = g 0 ∧
    (∀ t, 1 ≤ t → t ≤ max 624 a.length →
      y t = mtBlend 1664525#32 (mtOld g y t) (y (t - 1)) + a.getD ((t - 1) % a.length) 0 + BitVec.ofNat 32 ((t - 1) % a.length)) ∧
    (∀ t, max 624 a.length < t → t ≤ max 624 a.length + 623 →
      y t = mtBlend 1566083941#32 (mtOld g y t) (y (t - 1)) - BitVec.ofNat 32 (mtPos t)) ∧
    x 0 = 0x80000000#32 ∧ ∀ t, max 624 a.length < t → t ≤ max 624 a.length + 623 → x (mtPos t) = y t

end Moo
