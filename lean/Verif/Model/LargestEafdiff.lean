import Verif.Model.EafDiff
import Verif.Model.Whv
import Verif.Spec.LargestEafdiff

/-!
# Model of `largest_eafdiff` (r/R/largest_eafdiff.R)

The data sets are numbered from 0 (from 1 in R).  `none` is an error.
-/

set_option autoImplicit false

namespace Moo

variable {L : Type*} [LinearOrder L] {K : Type*} [Field K] [LinearOrder K] [IsStrictOrderedRing K]

/-- What the sorting functions return in the computation for one pair: `order()` of the labels, the two orders used by `eaf2d`, and the two sorted tables of rectangles. -/
structure PairSorts (K : Type*) where
  /-- `order(sets_x)` -/
  ox : List ℕ
  /-- `order(sets_y)` -/
  oy : List ℕ
  /-- the order by the first objective -/
  sx : List ℕ
  /-- the order by the second objective -/
  sy : List ℕ
  /-- the rectangles where the first data set is better, as sorted by `rect_weighted_hv2d` -/
  ra : List (WRect K)
  /-- the rectangles where the second data set is better, as sorted by `rect_weighted_hv2d` -/
  rb : List (WRect K)

/-- A row of the table, with its colour set to 1; r/R/largest_eafdiff.R:58 and 63. -/
def unitRect (row : List K) : WRect K := ⟨row.getD 0 0, row.getD 1 0, row.getD 2 0, row.getD 3 0, 1⟩

/-- `DIFF[ DIFF[, 5] >= 1L, , drop = FALSE]`, r/R/largest_eafdiff.R:57. -/
def leftRects (rows : List (List K)) : List (WRect K) := (rows.filter (fun r => decide (1 ≤ r.getD 4 0))).map unitRect

/-- `DIFF[ DIFF[, 5] <= -1L, , drop = FALSE]`, r/R/largest_eafdiff.R:62. -/
def rightRects (rows : List (List K)) : List (WRect K) := (rows.filter (fun r => decide (r.getD 4 0 ≤ -1))).map unitRect

/-- The value of one pair, r/R/largest_eafdiff.R:54-65; if `eafdiff` returns a vector, `DIFF[, 5]` is an error. -/
def rPairValue [Inhabited L] (V : EafEnv K) (mx : K) (intervals : ℕ) (ideal ref : ℕ → K) (x y : Labelled L K) (S : PairSorts K) (fuel : ℕ) : Option K :=
  match rEafdiffRects V mx (fun _ => false) x.pts y.pts x.labels y.labels (some intervals) S.ox S.oy S.sx S.sy fuel with
  | some (RValue.matrix rows) =>
    match rectWeightedHv2d (fun _ => ideal) 1 (leftRects rows) ref [0] S.ra, rectWeightedHv2d (fun _ => ideal) 1 (rightRects rows) ref [0] S.rb with
    | some a, some b => some (min a b)
    | _, _ => none
  | _ => none

/-- The pairs in the order of the two loops, r/R/largest_eafdiff.R:52-53. -/
def dataPairs (n : ℕ) : List (ℕ × ℕ) := (List.range (n - 1)).flatMap (fun a => (List.range' (a + 1) (n - (a + 1))).map (fun b => (a, b)))

/-- r/R/largest_eafdiff.R:66-69. -/
def largestLoop (value : ℕ → ℕ → Option K) : List (ℕ × ℕ) → Option (ℕ × ℕ) → K → Option (Option (ℕ × ℕ) × K)
  | [], best, v => some (best, v)
  | (a, b) :: ps, best, v =>
    match value a b with
    | none => none
    | some w => if w > v then largestLoop value ps (some (a, b)) w else largestLoop value ps best v

/-- The least value of column `d` in all the data sets: `range_df_list(x, d)[1L]`, r/R/utils.R:1-5. -/
def lowestOf (xs : List (Labelled L K)) (d : ℕ) : K :=
  match xs.flatMap (fun x => (List.range x.labels.length).map (fun k => x.pts k d)) with
  | [] => 0
  | v :: vs => vs.foldl min v

/-- `largest_eafdiff(x, maximise, intervals, reference, ideal)`, r/R/largest_eafdiff.R:30-73; `anyMax` says that an objective is maximised: then `whv_rect` stops. -/
def rLargestEafdiff [Inhabited L] (V : EafEnv K) (mx : K) (anyMax : Bool) (intervals : ℕ) (ideal : Option (ℕ → K)) (ref : ℕ → K) (xs : List (Labelled L K))
    (S : ℕ → ℕ → PairSorts K) (fuel : ℕ) : Option (Option (ℕ × ℕ) × K) :=
  if xs.length ≤ 1 then none
  else if anyMax then none
  else
    let low := match ideal with
      | some i => i
      | none => lowestOf xs
    largestLoop (fun a b => rPairValue V mx intervals low ref (xs.getD a ⟨[], fun _ _ => 0⟩) (xs.getD b ⟨[], fun _ _ => 0⟩) (S a b) fuel) (dataPairs xs.length) none 0

end Moo
