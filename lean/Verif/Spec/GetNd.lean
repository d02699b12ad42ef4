import Mathlib.Data.List.Range

set_option autoImplicit false
set_option linter.unusedSectionVars false

/-! # Specification of `get_nondominated_set` -/

namespace Moo

section
variable {F : Type}

/-- The number of rows with the flag. -/
def nKept (nd : ℕ → Bool) (size : ℕ) : ℕ := ((List.range size).filter (fun i => nd i)).length

/-- The rows with the flag, one after the other. -/
def keptFlat (x : ℕ → ℕ → F) (dim size : ℕ) (nd : ℕ → Bool) : List F :=
  ((List.range size).filter (fun i => nd i)).flatMap (fun i => (List.range dim).map (x i))

end

end Moo
