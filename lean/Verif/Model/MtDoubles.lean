import Verif.Model.Mt19937

/-!
# Successive calls of `mt19937_next_double`
-/

set_option autoImplicit false

namespace Moo

/-- `n` successive calls of `mt19937_next_double`, c/mt19937/mt19937.h:59-62 (`rng_random`, c/rng.h:22-26): the results and the final state. -/
noncomputable def mtDoubles (rnd : ℝ → ℝ) : ℕ → MtState → Option (List ℝ × MtState)
  | 0, s => some ([], s)
  | n + 1, s => match mtNextDouble rnd s with
    | none => none
    | some (u, s1) => match mtDoubles rnd n s1 with
      | none => none
      | some (l, s2) => some (u :: l, s2)

end Moo
