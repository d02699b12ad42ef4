import Verif.Model.Ziggurat
import Verif.Model.WhvHype
import Mathlib.Data.Real.Basic

/-!
# The generator of c/whv_hype.c with the ziggurat method

`Rng` of WhvHype.lean with the `rng_standard_normal` of Ziggurat.lean.
-/

set_option autoImplicit false

namespace Moo

open Classical in
/-- The generator whose state is the stream of the random numbers that are still to be used.  `normal` is `rng_standard_normal`, c/rng.c:71-99: its value and the random numbers that it leaves, where it returns (where it
does not, the model has the value 0; this has probability 0).  `random` is `rng_random` (c/rng.h), which `whv_hype_gaus` does not call: any function. -/
noncomputable def zigRng (T : ZigTable) {N : ℕ} (random : (ℕ → ZigDraw N) → ℝ × (ℕ → ZigDraw N)) : Rng (ℕ → ZigDraw N) ℝ where
  random := random
  normal D := if h : ∃ p : ℝ × (ℕ → ZigDraw N), ∃ tailFuel fuel, zigNormal T tailFuel fuel D = some p then h.choose else (0, D)

end Moo
