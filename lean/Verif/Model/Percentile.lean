import Verif.Model.BitArray
import Mathlib.Algebra.Order.Floor.Ring
import Mathlib.Algebra.Order.Field.Basic

/-!
# Model of the percentile and EAF-difference functions of `c/eaf.h`

Exact arithmetic in an ordered field with a floor function.
-/

set_option autoImplicit false

namespace Moo

variable {K : Type*} [Field K] [LinearOrder K]

/-- `level2percentile`, c/eaf.h:147-152. -/
def level2percentile (level n : ℤ) : K := if level = n then 100 else (level : K) * 100 / (n : K)

/-- `percentile2level`, c/eaf.h:154-166; `tol` is `sqrt(DBL_EPSILON)`.  `none` = one of the assertions fails. -/
def percentile2level [IsStrictOrderedRing K] [FloorRing K] (tol p : K) (n : ℤ) : Option ℤ :=
  let x := (n : K) * p / 100
  let level : ℤ := if x - (⌊x⌋ : K) ≤ tol then ⌊x⌋ else ⌈x⌉
  if level ≤ n ∧ level ≥ 0 then some (if level < 1 then 1 else level) else none

/-- `levels_from_percentiles`, c/eaf.h:168-183, with percentiles given (`some`) or not; `none` = failed assertion. -/
def levelsFromPercentiles [IsStrictOrderedRing K] [FloorRing K] (tol : K) (percentile : Option (List K)) (nlevels nruns : ℕ) :
    Option (List ℤ) :=
  match percentile with
  | some ps => ps.mapM (fun p => percentile2level tol p nruns)
  | none => if nlevels = nruns then some ((List.range nruns).map (fun k : ℕ => (k : ℤ) + 1)) else none

/-- `all_percentiles`, c/eaf.h:185-191. -/
def allPercentiles (n : ℕ) : List K := (List.range n).map (fun i : ℕ => ((i : K) + 1) * (100 / (n : K)))

/-- `eafdiff_percentile`, c/eaf.h:203-211, on the packed attainment matrix. -/
def eafdiffPercentile (m : List (BitVec 64)) (i division nruns nIntervals : ℕ) : Option K :=
  match attainedLeftRight m (bitArrayOffset 0 i nruns) division nruns with
  | some (l, r) => some ((nIntervals : K) * ((l : K) / (division : K) - (r : K) / ((nruns - division : ℕ) : K)))
  | none => none

/-- `eaf_diff_color`, c/eaf.c:456-463. -/
def eafDiffColor (m : List (BitVec 64)) (k nruns : ℕ) : Option ℤ :=
  match attainedLeftRight m (bitArrayOffset 0 k nruns) (nruns / 2) nruns with
  | some (l, r) => some ((l : ℤ) - (r : ℤ))
  | none => none

/-- The value in the last column of `eafdiff_compute_matrix`, c/eafdiff.c:44, 61. -/
def eafdiffMatrixValue (m : List (BitVec 64)) (i nruns intervals : ℕ) : Option K :=
  eafdiffPercentile m i (nruns / 2) nruns intervals

/-- The value in the last column of `eafdiff_compute_rectangles`, c/eafdiff.c:17, 26-28, for a rectangle coloured by point `i`. -/
def eafdiffRectValue (m : List (BitVec 64)) (i nruns intervals : ℕ) : Option K :=
  (eafDiffColor m i nruns).map (fun color : ℤ => (intervals : K) * (color : K) / ((nruns / 2 : ℕ) : K))

end Moo
