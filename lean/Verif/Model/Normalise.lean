import Verif.Model.Nondominated
import Mathlib.Algebra.Order.Field.Basic

/-!
# Model of the normalisation functions of `c/nondominated.h`

Exact arithmetic in an ordered field.  The loops update every entry `points[k * dim + d]` exactly once and independently
of the others, so they are modelled as pointwise functions restricted to `k < size`, `d < dim`.
-/

set_option autoImplicit false

namespace Moo

variable {K : Type*} [Field K] [LinearOrder K]

/-- the test of c/nondominated.h:333-334 and 359-360 -/
def flipObjective (agree dir : ℤ) : Bool := (agree > 0 && dir < 0) || (agree < 0 && dir > 0)

/-- `agree_objectives`, c/nondominated.h:328-337. -/
def agreeObjectives (pts : ℕ → ℕ → K) (dim size : ℕ) (minmax : ℕ → ℤ) (agree : ℤ) : ℕ → ℕ → K :=
  fun k d => if k < size ∧ d < dim ∧ flipObjective agree (minmax d) = true then -(pts k d) else pts k d

/-- `diff[d]`, c/nondominated.h:350-354. -/
def normDiff (lbound ubound : ℕ → K) (d : ℕ) : K :=
  if ubound d - lbound d = 0 then 1 else ubound d - lbound d

/-- `normalise`, c/nondominated.h:340-367. -/
def normalise (pts : ℕ → ℕ → K) (dim size : ℕ) (minmax : ℕ → ℤ) (agree : ℤ)
    (lowerRange upperRange : K) (lbound ubound : ℕ → K) : ℕ → ℕ → K :=
  fun k d =>
    if k < size ∧ d < dim then
      if flipObjective agree (minmax d) then
        lowerRange + (upperRange - lowerRange) * (ubound d + pts k d) / normDiff lbound ubound d
      else lowerRange + (upperRange - lowerRange) * (pts k d - lbound d) / normDiff lbound ubound d
    else pts k d

/-- `agree_normalise`, c/nondominated.h:369-382. -/
def agreeNormalise (data : ℕ → ℕ → K) (nobj npoint : ℕ) (maximise : ℕ → Bool)
    (lowerRange upperRange : K) (lbound ubound : ℕ → K) : ℕ → ℕ → K :=
  let minmax := minmaxFromBool maximise
  normalise (agreeObjectives data nobj npoint minmax AGREE_MINIMISE) nobj npoint minmax AGREE_MINIMISE
    lowerRange upperRange lbound ubound

end Moo
