import Verif.Spec.Float

/-!
# Specification: arithmetic that overflows

The machine rounds to nearest as long as the exact result of an operation is at most `2 ^ 1023` in absolute value (the largest double is almost
`2 ^ 1024`).  Of larger results nothing is assumed: `f` is an arbitrary function there, so a theorem that holds for every such `f` is about a computation
in which no operation overflows.
-/

set_option autoImplicit false

namespace Moo

/-- `f` gives a nearest number of `F` for every real number of absolute value at most `Ω`, and anything for the others. -/
def NearestUpTo (Ω : ℝ) (F : Set ℝ) (f : ℝ → ℝ) : Prop := ∀ x, |x| ≤ Ω → f x ∈ F ∧ ∀ y ∈ F, |f x - x| ≤ |y - x|

/-- Double-precision arithmetic with a largest exponent. -/
def Machine64 (f : ℝ → ℝ) : Prop := NearestUpTo (2 ^ 1023) binary64 f

end Moo
