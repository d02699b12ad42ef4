import Mathlib.Data.Real.Basic
import Mathlib.Algebra.Order.Group.Abs

/-!
# Specification: floating-point numbers

`binary64` is the set of the finite double-precision numbers of IEEE 754, but without a largest exponent: overflow is not modelled, underflow is.
Every arithmetic operation gives a representable number that is nearest to the exact result, with any rule for ties.
-/

set_option autoImplicit false

namespace Moo

/-- The numbers `m · 2^e` with `|m| ≤ 2^53` and `e ≥ -1074`. -/
def binary64 : Set ℝ := {x | ∃ m e : ℤ, |m| ≤ 2 ^ 53 ∧ -1074 ≤ e ∧ x = m * (2 : ℝ) ^ e}

/-- The unit roundoff. -/
noncomputable def ulpU : ℝ := (2 : ℝ) ^ (-53 : ℤ)
/-- The least normal number. -/
noncomputable def minNormal : ℝ := (2 : ℝ) ^ (-1022 : ℤ)
/-- The least positive number. -/
noncomputable def minSub : ℝ := (2 : ℝ) ^ (-1074 : ℤ)

/-- `rnd` maps every real number to a number of `F` that is nearest to it. -/
structure Nearest (F : Set ℝ) (rnd : ℝ → ℝ) : Prop where
  mem : ∀ x, rnd x ∈ F
  best : ∀ x, ∀ f ∈ F, |rnd x - x| ≤ |f - x|

end Moo
