import Mathlib.Data.Nat.Notation
import Mathlib.Logic.Function.Basic

/-!
# Specification: the Mersenne twister MT19937

After M. Matsumoto and T. Nishimura, "Mersenne Twister: a 623-dimensionally equidistributed uniform pseudo-random number generator" (1998), with
the initialisation of 2002.  Words are bit vectors of 32 bits; `x` is the whole infinite sequence of words, whose first 624 come from the seed.
-/

set_option autoImplicit false

namespace Moo

/-- Multiplication by the matrix `A` of the paper: shift right; if the bit that is shifted out is 1, add the last row of `A`. -/
def twistA (y : BitVec 32) : BitVec 32 :=
  if y.getLsbD 0 then (y >>> 1) ^^^ 0x9908b0df#32 else y >>> 1

/-- The uppermost bit of `u`, followed by the 31 lower bits of `l`. -/
def upperLower (u l : BitVec 32) : BitVec 32 := u.extractLsb' 31 1 ++ l.extractLsb' 0 31

/-- The linear recurrence of the paper: `x(k+624) = x(k+397) + (upper bit of x(k) | lower bits of x(k+1)) A`. -/
def MtRecurrence (x : ℕ → BitVec 32) : Prop :=
  ∀ k, x (k + 624) = x (k + 397) ^^^ twistA (upperLower (x k) (x (k + 1)))

/-- The first 624 words for a given seed. -/
def MtInit (seed : BitVec 32) (x : ℕ → BitVec 32) : Prop :=
  x 0 = seed ∧ ∀ k, k + 1 < 624 → x (k + 1) = 1812433253#32 * (x k ^^^ (x k >>> 30)) + BitVec.ofNat 32 (k + 1)

/-- The tempering of the paper. -/
def mtTemper (y : BitVec 32) : BitVec 32 :=
  let y1 := y ^^^ (y >>> 11)
  let y2 := y1 ^^^ ((y1 <<< 7) &&& 0x9d2c5680#32)
  let y3 := y2 ^^^ ((y2 <<< 15) &&& 0xefc60000#32)
  y3 ^^^ (y3 >>> 18)

end Moo
