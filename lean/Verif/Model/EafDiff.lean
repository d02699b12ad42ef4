import Verif.Model.EafLabels
import Verif.Model.EafRect
import Mathlib.Data.List.Lex

/-!
# Model of `eafdiff` in R and in Python, for two labelled data sets with two objectives

In the C code the coordinate at infinity is `INFINITY`; here it is an element `mx` of the field, in the theorems larger than all the data.
-/

set_option autoImplicit false

namespace Moo

variable {L : Type*} [LinearOrder L] {K : Type*} [Field K] [LinearOrder K] [IsStrictOrderedRing K]

/-- The rows of one level in `eafdiff_compute_matrix`, c/eafdiff.c:53-64, and in `compute_eafdiff_C`, r/src/Rmoocore.c:74-98 (R stores the same rows by column). -/
def eafdiffRows (nobj : ℕ) (e : EafT K) (nruns intervals : ℕ) : Option (List (List K)) :=
  (List.range e.size).mapM (fun i =>
    match (List.range nobj).mapM (fun j => e.data[i * nobj + j]?), (eafdiffPercentile e.bits i (nruns / 2) nruns intervals : Option K) with
    | some c, some v => some (c ++ [v])
    | _, _ => none)

/-- `eafdiff_compute_matrix`, c/eafdiff.c:38-68, for two objectives. -/
def eafdiffComputeMatrix2d (V : EafEnv K) (pts : ℕ → ℕ → K) (cumsize : ℕ → ℕ) (nruns intervals : ℕ) (sx sy : List ℕ) (fuel : ℕ) : Option (List (List K)) :=
  match eaf2d pts cumsize nruns ((List.range nruns).map (fun k : ℕ => (k : ℤ) + 1)) sx sy fuel with
  | none => none
  | some outs =>
    match outs.mapM (fun out => eafSurface2d V nruns (cumsize (nruns - 1)) out) with
    | none => none
    | some es => (es.mapM (fun e => eafdiffRows 2 e nruns intervals)).map List.flatten

/-- `np.vstack((x, y))`, python/src/moocore/_moocore.py:1487; `cbind(t(x), t(y))`, r/R/eafdiff.R:146. -/
def stackRows {R : Type*} (nx : ℕ) (x y : ℕ → R) (k : ℕ) : R := if k < nx then x k else y (k - nx)

/-- `np.concatenate((cumsizes_x, cumsizes_x[-1] + cumsizes_y))`, python/src/moocore/_moocore.py:1484; r/R/eafdiff.R:147. -/
def catCum (cx cy : ℕ → ℕ) (sx r : ℕ) : ℕ := if r < sx then cx r else cx (sx - 1) + cy (r - sx)

/-- The number of intervals: python/src/moocore/_moocore.py:1491-1495; r/R/eafdiff.R:101-108 and 148 (for integers). -/
def diffIntervals (given : Option ℕ) (nsets : ℕ) : ℕ :=
  match given with
  | none => nsets / 2
  | some k => min k (nsets / 2)

/-- `unique_nosort(array, axis=0)`, python/src/moocore/_utils.py:16-23: the distinct rows in lexicographic order, rearranged by the index of their first occurrence. -/
def uniqueNosort (rows : List (List K)) : List (List K) := (npArgsort (npUniqueIndex rows)).map (fun i => (npUnique rows).getD i [])

/-- `rows[!duplicated(rows), ]`, r/R/eafdiff.R:121, as far as the rows are concerned. -/
def notDuplicated : List (List K) → List (List K) → List (List K)
  | _, [] => []
  | seen, r :: rs => if r ∈ seen then notDuplicated seen rs else r :: notDuplicated (r :: seen) rs

/-- The combined data of both sides, ordered by label and transformed. -/
def diffData [Inhabited L] (maximise : ℕ → Bool) (dx dy : ℕ → ℕ → K) (lx : List L) (ox oy : List ℕ) : ℕ → ℕ → K :=
  stackRows lx.length (orderRows (transformMax maximise dx) ox) (orderRows (transformMax maximise dy) oy)

/-- The combined cumulative sizes. -/
def diffCum (lx ly : List L) : ℕ → ℕ := catCum (cumSizes lx) (cumSizes ly) (nSets lx)

/-- Python's `eafdiff(x, y, intervals, maximise, rectangles=False)`, python/src/moocore/_moocore.py:1469-1531. -/
def pyEafdiffPoints [Inhabited L] (V : EafEnv K) (maximise : ℕ → Bool) (dx dy : ℕ → ℕ → K) (lx ly : List L) (given : Option ℕ)
    (ox oy sx sy : List ℕ) (fuel : ℕ) : Option (List (List K)) :=
  let nsets := nSets lx + nSets ly
  (eafdiffComputeMatrix2d V (diffData maximise dx dy lx ox oy) (diffCum lx ly) nsets (diffIntervals given nsets) sx sy fuel).map
    (fun rows => (uniqueNosort rows).map (untransformRow maximise 2))

/-- A row of the table of rectangles, c/eafdiff.c:19-30. -/
def rectRow (r : DRect K × K) : List K := [r.1.lx, r.1.ly, r.1.ux, r.1.uy, r.2]

/-- Python's `eafdiff(x, y, intervals, maximise, rectangles=True)`; `np.concatenate((maximise, maximise))` at line 1524 gives the signs of the four columns. -/
def pyEafdiffRects [Inhabited L] (V : EafEnv K) (mx : K) (maximise : ℕ → Bool) (dx dy : ℕ → ℕ → K) (lx ly : List L) (given : Option ℕ)
    (ox oy sx sy : List ℕ) (fuel : ℕ) : Option (List (List K)) :=
  let nsets := nSets lx + nSets ly
  (eafdiffComputeRectangles (K := K) V mx (diffData maximise dx dy lx ox oy) (diffCum lx ly) nsets (diffIntervals given nsets) sx sy fuel).map
    (fun rows => (uniqueNosort (rows.map rectRow)).map (untransformRow (fun d => maximise (d % 2)) 4))

/-- A matrix of R, or a vector. -/
inductive RValue (K : Type*) where
  /-- a matrix with these rows -/
  | matrix (rows : List (List K))
  /-- a vector -/
  | vector (v : List K)
  deriving DecidableEq

/-- `DIFF[!duplicated(DIFF),]`, r/R/eafdiff.R:121: without `drop=FALSE` a single row becomes a vector. -/
def rDropRows (rows : List (List K)) : RValue K :=
  match notDuplicated [] rows with
  | [r] => RValue.vector r
  | rs => RValue.matrix rs

/-- r/R/eafdiff.R:122-126: undoing the transformation; on a vector the matrix subscripts are an error (`none`). -/
def rUndo (anyMax : Bool) (signs : ℕ → Bool) (ncoord : ℕ) (v : RValue K) : Option (RValue K) :=
  if anyMax then
    match v with
    | RValue.matrix rows => some (RValue.matrix (rows.map (untransformRow signs ncoord)))
    | RValue.vector _ => none
  else some v

/-- R's `eafdiff(x, y, intervals, maximise, rectangles = FALSE)`, r/R/eafdiff.R:85-132. -/
def rEafdiffPoints [Inhabited L] (V : EafEnv K) (maximise : ℕ → Bool) (dx dy : ℕ → ℕ → K) (lx ly : List L) (given : Option ℕ)
    (ox oy sx sy : List ℕ) (fuel : ℕ) : Option (RValue K) :=
  let nsets := nSets lx + nSets ly
  match eafdiffComputeMatrix2d V (diffData maximise dx dy lx ox oy) (diffCum lx ly) nsets (diffIntervals given nsets) sx sy fuel with
  | none => none
  | some rows => rUndo (maximise 0 || maximise 1) maximise 2 (rDropRows rows)

/-- R's `eafdiff(x, y, intervals, maximise, rectangles = TRUE)`. -/
def rEafdiffRects [Inhabited L] (V : EafEnv K) (mx : K) (maximise : ℕ → Bool) (dx dy : ℕ → ℕ → K) (lx ly : List L) (given : Option ℕ)
    (ox oy sx sy : List ℕ) (fuel : ℕ) : Option (RValue K) :=
  let nsets := nSets lx + nSets ly
  match eafdiffComputeRectangles (K := K) V mx (diffData maximise dx dy lx ox oy) (diffCum lx ly) nsets (diffIntervals given nsets) sx sy fuel with
  | none => none
  | some rows => rUndo (maximise 0 || maximise 1) (fun d => maximise (d % 2)) 4 (rDropRows (rows.map rectRow))

end Moo
