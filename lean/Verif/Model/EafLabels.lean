import Verif.Model.EafStore
import Verif.Model.Eaf3d
import Verif.Model.Percentile
import Verif.Model.WithinSets

/-!
# Model of `eaf` in R and in Python, for a labelled data set

The rows of the data have a label each (the set they belong to); `data` is the table of the points and `labels` the column of the labels.
-/

set_option autoImplicit false

namespace Moo

variable {L : Type*} [LinearOrder L]

/-- `np.cumsum` of the counts of `np.unique(labels, return_counts=True)`, python/src/moocore/_moocore.py:1222-1224; `cumsum(unique_counts(sets))`, r/R/eaf.R:132 and
r/R/utils.R:19 (the counts of `table` are in the order of the sorted distinct values).  Only the entries `0 .. nSets - 1` exist.  Simplification: R's `table` compares the labels
as printed with 15 digits; here they are compared exactly. -/
def cumSizes (labels : List L) (r : ℕ) : ℕ := (((npUnique labels).map (fun u => labels.count u)).take (r + 1)).sum

/-- The number of sets, python/src/moocore/_moocore.py:1223; r/R/eaf.R:127. -/
def nSets (labels : List L) : ℕ := (npUnique labels).length

/-- What `order(labels)` (r/R/eaf.R:123; a stable sort) and `labels.argsort()` (python/src/moocore/_moocore.py:1478-1479; not a stable sort) have in common: a permutation of
the row numbers that puts the labels in nondecreasing order. -/
def IsOrder [Inhabited L] (labels : List L) (ord : List ℕ) : Prop :=
  ord.Perm (List.range labels.length) ∧ (ord.map (fun k => labels.getD k default)).Pairwise (fun a b => a ≤ b)

/-- `sets[order_sets]`, r/R/eaf.R:124. -/
def orderLabels [Inhabited L] (labels : List L) (ord : List ℕ) : List L := ord.map (fun k => labels.getD k default)

/-- `x[order_sets, , drop=FALSE]`, r/R/eaf.R:126. -/
def orderRows {R : Type*} (data : ℕ → R) (ord : List ℕ) (i : ℕ) : R := data (ord.getD i 0)

variable {K : Type*} [Field K] [LinearOrder K] [IsStrictOrderedRing K]

/-- `transform_maximise`, r/R/utils.R:37-47, on the rows of the data (`maximise` has one entry for each objective; R recycles a single value). -/
def transformMax (maximise : ℕ → Bool) (data : ℕ → ℕ → K) (i d : ℕ) : K := if maximise d then -data i d else data i d

/-- `x[,-ncol(x)] <- transform_maximise(x[, -ncol(x)], maximise)`, r/R/eaf.R:134-135, on one row of the result: all the columns but the last one. -/
def untransformRow (maximise : ℕ → Bool) (nobj : ℕ) (row : List K) : List K :=
  row.mapIdx (fun d v => if d < nobj ∧ maximise d then -v else v)

/-- `percentiles` in Python's `eaf`, python/src/moocore/_moocore.py:1226-1230. -/
def pyPercentiles (given : List K) (nsets : ℕ) : List K :=
  if given.length = 0 then allPercentiles nsets else npUnique given

/-- Python's `eaf` for two objectives, python/src/moocore/_moocore.py:1222-1249, on top of `eaf_compute_matrix`.  The rows are passed as they are. -/
def pyEaf2d [FloorRing K] (V : EafEnv K) (tol : K) (data : ℕ → ℕ → K) (labels : List L) (given : List K) (sx sy : List ℕ) (fuel : ℕ) :
    Option (List (List K)) :=
  let ps := pyPercentiles given (nSets labels)
  match levelsFromPercentiles tol (some ps) ps.length (nSets labels) with
  | none => none
  | some level => eafComputeMatrix2d V data (cumSizes labels) (nSets labels) level (fun i => ps.getD i 0) sx sy fuel

/-- Python's `eaf` for three objectives. -/
def pyEaf3d [FloorRing K] (V : EafEnv K) (tol mn mx junk : K) (data : ℕ → ℕ → K) (labels : List L) (given : List K) (sz : List ℕ) (fuel fuelP : ℕ) :
    Option (List (List K)) :=
  let ps := pyPercentiles given (nSets labels)
  match levelsFromPercentiles tol (some ps) ps.length (nSets labels) with
  | none => none
  | some level => eafComputeMatrix3d V mn mx junk data (cumSizes labels) (nSets labels) level (fun i => ps.getD i 0) sz fuel fuelP

/-- The last column of `eaf2matrix_R`, c/eaf.c:221-237: the given percentile, or the percentile of the level. -/
def rPerc (percentiles : Option (List K)) (nlevels : ℕ) (k : ℕ) : K :=
  match percentiles with
  | some ps => ps.getD k 0
  | none => level2percentile ((k : ℤ) + 1) nlevels

/-- The number of levels, r/src/Rmoocore.c:48-49. -/
def rNLevels (percentiles : Option (List K)) (nsets : ℕ) : ℕ :=
  match percentiles with
  | some ps => ps.length
  | none => nsets

/-- R's `eaf` for two objectives without groups, r/R/eaf.R:66-76 and 119-137, r/src/Rmoocore.c:8-60. -/
def rEaf2d [FloorRing K] [Inhabited L] (V : EafEnv K) (tol : K) (maximise : ℕ → Bool) (data : ℕ → ℕ → K) (labels : List L) (percentiles : Option (List K))
    (ord sx sy : List ℕ) (fuel : ℕ) : Option (List (List K)) :=
  let ps := percentiles.map npUnique
  let sets := orderLabels labels ord
  let nlevels := rNLevels ps (nSets sets)
  match levelsFromPercentiles tol ps nlevels (nSets sets) with
  | none => none
  | some level =>
    (eafComputeMatrix2d V (orderRows (transformMax maximise data) ord) (cumSizes sets) (nSets sets) level (rPerc ps nlevels) sx sy fuel).map
      (fun rows => rows.map (untransformRow maximise 2))

/-- R's `eaf` for three objectives without groups. -/
def rEaf3d [FloorRing K] [Inhabited L] (V : EafEnv K) (tol mn mx junk : K) (maximise : ℕ → Bool) (data : ℕ → ℕ → K) (labels : List L)
    (percentiles : Option (List K)) (ord sz : List ℕ) (fuel fuelP : ℕ) : Option (List (List K)) :=
  let ps := percentiles.map npUnique
  let sets := orderLabels labels ord
  let nlevels := rNLevels ps (nSets sets)
  match levelsFromPercentiles tol ps nlevels (nSets sets) with
  | none => none
  | some level =>
    (eafComputeMatrix3d V mn mx junk (orderRows (transformMax maximise data) ord) (cumSizes sets) (nSets sets) level (rPerc ps nlevels) sz fuel fuelP).map
      (fun rows => rows.map (untransformRow maximise 3))

end Moo
