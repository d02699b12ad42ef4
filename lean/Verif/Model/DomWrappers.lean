import Verif.Model.IndWrappers
import Verif.Model.ParetoRank
import Verif.Model.Normalise

/-!
# Model of the dominance filters, ranks and normalisation of the Python and R packages

`is_nondominated`, `filter_dominated`, `pareto_rank` and `normalise` of `_moocore.py`, and of `nondominated.R` and `normalise.R`.
-/

set_option autoImplicit false

namespace Moo

/-- What `qsort` does in the C library, and the contents of memory that has not been set. -/
structure DomLib (K : Type*) where
  sortNd : (ℕ → ℕ → K) → ℕ → List ℕ
  garbageNd : ℕ → Bool
  sortRank : (ℕ → ℕ → K) → ℕ → List ℕ
  garbageRank : ℕ → ℕ

section
variable {K : Type*} [Field K] [LinearOrder K] (lib : DomLib K)

/-- The call of `lib.is_nondominated`: one flag per row. -/
def callIsNondominated (data : ℕ → ℕ → K) (nobj npoints : ℕ) (maximise : ℕ → Bool) (keepWeakly : Bool) : IndOut (List Bool) :=
  match isNondominated lib.sortNd lib.garbageNd data nobj npoints maximise keepWeakly with
  | none => .undefined
  | some nd => .value ((List.range npoints).map nd)

/-- Python `is_nondominated`, python/src/moocore/_moocore.py:648-706 (at least one row). -/
def pyIsNondominated (data : ArrArg K) (maximise : List Bool) (keepWeakly : Bool) : IndOut (List Bool) :=
  match data with
  | .vec _ => .error                                                          -- l. 697: ValueError
  | .mat nrows nobj x => match atleast1dOfLengthN maximise nobj with          -- l. 698
    | none => .error
    | some m => callIsNondominated lib x nobj nrows (fun k => m.getD k false) keepWeakly

/-- `data[mask]` of an array (`isArray`) with a mask of booleans: the rows with `True`.  A list cannot be indexed by an array (TypeError). -/
def npRows (isArray : Bool) (data : ArrArg K) (mask : List Bool) : IndOut (List (ℕ → K)) :=
  match data, isArray with
  | .mat nrows _ x, true => .value (((List.range nrows).filter (fun i => mask.getD i false)).map x)
  | _, _ => .error

/-- Python `filter_dominated`, python/src/moocore/_moocore.py:806-818; `isArray` says whether `data` is an array (and not a list). -/
def pyFilterDominated (isArray : Bool) (data : ArrArg K) (maximise : List Bool) (keepWeakly : Bool) : IndOut (List (ℕ → K)) :=
  match pyIsNondominated lib data maximise keepWeakly with
  | .value mask => npRows isArray data mask
  | .error => .error
  | .exit => .exit
  | .undefined => .undefined

/-- The call of `lib.pareto_rank`; with two objectives and no rows it writes outside of its blocks (see C09). -/
def callParetoRank (data : ℕ → ℕ → K) (nobj npoints : ℕ) : IndOut (List ℕ) :=
  match paretoRank lib.sortRank lib.garbageRank (npoints + 1) data nobj npoints with
  | .done rank => .value ((List.range npoints).map rank)
  | _ => .undefined

/-- Python `pareto_rank`, python/src/moocore/_moocore.py:901-972. -/
def pyParetoRank (data : ArrArg K) (maximise : List Bool) : IndOut (List ℕ) :=
  match data with
  | .vec _ => .error
  | .mat nrows nobj x => match atleast1dOfLengthN maximise nobj with          -- l. 960
    | none => .error
    | some m => callParetoRank lib (if m.any id then npNegateColumns x m else x) nobj nrows     -- l. 961-968

/-- The least value of column `k`: `data.min(axis=0)` (l. 1077) and `colRanges` (r/R/normalise.R:40). -/
def colMin (x : ℕ → ℕ → K) (n k : ℕ) : K := ((List.range n).map (fun i => x i k)).foldl min (x 0 k)

/-- The greatest value of column `k`. -/
def colMax (x : ℕ → ℕ → K) (n k : ℕ) : K := ((List.range n).map (fun i => x i k)).foldl max (x 0 k)

/-- Python `normalise`, python/src/moocore/_moocore.py:1017-1098; `none` is `NaN`.  The result is the table. -/
def pyNormalise (data : ArrArg K) (toRange : List K) (lower upper : List (Option K)) (maximise : List Bool) : IndOut (ℕ → ℕ → K) :=
  match data with
  | .vec _ => .error
  | .mat n nobj x =>
    if nobj = 1 then .error                                                   -- l. 1069-1070
    else if toRange.length ≠ 2 then .error                                    -- l. 1072-1073
    else match atleast1dOfLengthN lower nobj, atleast1dOfLengthN upper nobj with       -- l. 1074-1075
      | some l, some u =>
        if (l.any Option.isNone || u.any Option.isNone) ∧ n = 0 then .error   -- l. 1076-1079: the minimum of no rows
        else match atleast1dOfLengthN maximise nobj with                      -- l. 1081
          | none => .error
          | some m => .value (agreeNormalise x nobj n (fun k => m.getD k false) (toRange.getD 0 0) (toRange.getD 1 0)
              (fun k => (l.getD k none).getD (colMin x n k)) (fun k => (u.getD k none).getD (colMax x n k)))
      | _, _ => .error

/-- R `is_nondominated`, r/R/nondominated.R:47-55, with `is_nondominated_C`, r/src/Rmoocore.c:313-330. -/
def rIsNondominated (data : ArrArg K) (maximise : List Bool) (keepWeakly : Bool) : IndOut (List Bool) :=
  match asDoubleMatrix data with
  | none => .error
  | some (n, nobj, x) =>
    if maximise.length = 0 then .undefined
    else callIsNondominated lib x nobj n (fun k => maximise.getD (k % maximise.length) false) keepWeakly

/-- R `filter_dominated`, r/R/nondominated.R:61-62. -/
def rFilterDominated (data : ArrArg K) (maximise : List Bool) (keepWeakly : Bool) : IndOut (List (ℕ → K)) :=
  match rIsNondominated lib data maximise keepWeakly with
  | .value mask => npRows true data mask
  | .error => .error
  | .exit => .exit
  | .undefined => .undefined

/-- `transform_maximise`, r/R/utils.R:37-47; `none` is the error. -/
def transformMaximise (x : ℕ → ℕ → K) (ncol : ℕ) (maximise : List Bool) : Option (ℕ → ℕ → K) :=
  if maximise.any id then
    if maximise.all id then some (fun i k => -x i k)
    else if maximise.length ≠ ncol then none
    else some (npNegateColumns x maximise)
  else some x

/-- R `pareto_rank`, r/R/nondominated.R:90-95, with `pareto_ranking_C`, r/src/Rmoocore.c:333-349. -/
def rParetoRank (data : ArrArg K) (maximise : List Bool) : IndOut (List ℕ) :=
  match asDoubleMatrix data with
  | none => .error
  | some (n, nobj, x) => match transformMaximise x nobj maximise with
    | none => .error
    | some y => callParetoRank lib y nobj n

/-- R `normalise`, r/R/normalise.R:31-56, with `normalise_C`, r/src/Rmoocore.c:290-311; `none` is `NA`.  An empty vector of bounds is recycled to `NA`s. -/
def rNormalise (data : ArrArg K) (toRange : List K) (lower upper : List (Option K)) (maximise : List Bool) : IndOut (ℕ → ℕ → K) :=
  match asDoubleMatrix data with
  | none => .error
  | some (n, nobj, x) =>
    if toRange.length ≠ 2 then .error
    else if maximise.length = 0 then .undefined
    else .value (agreeNormalise x nobj n (fun k => maximise.getD (k % maximise.length) false) (toRange.getD 0 0) (toRange.getD 1 0)
      (fun k => (lower.getD (k % lower.length) none).getD (colMin x n k)) (fun k => (upper.getD (k % upper.length) none).getD (colMax x n k)))

end

end Moo
