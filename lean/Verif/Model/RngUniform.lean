import Verif.Model.Mt19937

/-!
# Model of `rng_uniform` (c/rng.h)
-/

set_option autoImplicit false
set_option linter.unusedSectionVars false

namespace Moo

/-- c/rng.h:28-35 `rng_uniform`, with a rounding after each of the operations; the assertion `rng != NULL` holds for every state.  Infinite and NaN
arguments and overflow are not modelled. -/
noncomputable def rngUniform (rnd : ℝ → ℝ) (s : MtState) (low high : ℝ) : Option (ℝ × MtState) :=
  if low ≥ high then some (low, s)
  else match mtNextDouble rnd s with
    | none => none
    | some (u, s') => some (rnd (low + rnd (rnd (high - low) * u)), s')

end Moo
