import Mathlib.Order.Basic
import Mathlib.Order.Lattice
import Mathlib.Order.Defs.LinearOrder
import Mathlib.Data.Nat.Notation

/-!
# Model of the check of the polygons (c/eaf.c, compiled if `DEBUG >= 1`)

The vector of coordinates is a list of points; a polygon ends with a point whose coordinates are `objective_MIN`, here `mn`.  `none` is an access
behind the end of the vector or an assertion that fails.
-/

set_option autoImplicit false
set_option linter.unusedSectionVars false

namespace Moo

variable {α : Type*} [LinearOrder α]

/-- c/eaf.c:487-497: the coordinate `k`, here `k = 1` if `k` is true. -/
def polyCoord (k : Bool) (v : α × α) : α := if k then v.2 else v.1

/-- c/eaf.c:493-497: the loop of `min_max_in_objective`. -/
def minMaxLoop (mn : α) (k : Bool) : List (α × α) → α → α → Option (α × α)
  | [], _, _ => none
  | v :: vs, lo, hi =>
    if polyCoord k v = mn then some (lo, hi)
    else minMaxLoop mn k vs (if lo > polyCoord k v then polyCoord k v else lo) (if hi < polyCoord k v then polyCoord k v else hi)

/-- c/eaf.c:482-500 `min_max_in_objective`. -/
def minMaxInObjective (mn : α) (k : Bool) : List (α × α) → Option (α × α)
  | [] => none
  | v :: vs => if polyCoord k v = mn then none else minMaxLoop mn k vs (polyCoord k v) (polyCoord k v)

/-- c/eaf.c:502-517 `polygon_dominates_point`, without the assertion on `x`, which its only caller has checked. -/
def polygonDominatesPoint (mn : α) (x : α × α) : List (α × α) → Option Bool
  | [] => none
  | p :: ps => if p.1 = mn then some false else if p.1 < x.1 ∧ p.2 < x.2 then some true else polygonDominatesPoint mn x ps

/-- c/eaf.c:519-527 `polygon_dominates_any_point`. -/
def polygonDominatesAnyPoint (mn : α) (a : List (α × α)) : List (α × α) → Option Bool
  | [] => none
  | x :: b =>
    if x.1 = mn then some false
    else match polygonDominatesPoint mn x a with
      | none => none
      | some true => some true
      | some false => polygonDominatesAnyPoint mn a b

/-- c/eaf.c:532-539: one iteration of the loop of `polygons_intersect`: is there a line between the two? -/
def polygonsApart (mn : α) (k : Bool) (a b : List (α × α)) : Option Bool :=
  match minMaxInObjective mn k a, minMaxInObjective mn k b with
  | some (minA, maxA), some (minB, maxB) => some (decide (maxA ≤ minB ∨ maxB ≤ minA))
  | _, _ => none

/-- c/eaf.c:529-544 `polygons_intersect` with two objectives. -/
def polygonsIntersect (mn : α) (a b : List (α × α)) : Option Bool :=
  match polygonsApart mn false a b with
  | none => none
  | some true => some false
  | some false =>
    match polygonsApart mn true a b with
    | none => none
    | some true => some false
    | some false =>
      match polygonDominatesAnyPoint mn a b with
      | none => none
      | some false => some false
      | some true => polygonDominatesAnyPoint mn b a

/-- c/eaf.c:473-480 `next_polygon`; behind the end of the vector is the empty list. -/
def nextPolygon (mn : α) : List (α × α) → List (α × α)
  | [] => []
  | v :: vs => if v.1 = mn then vs else nextPolygon mn vs

/-- c/eaf.c:573-583: the inner loop of `eaf_check_polygons`; `some false` is the assertion that fails.  `fuel` bounds the number of iterations. -/
def checkPolygonsInner (mn : α) (pi : List (α × α)) : ℕ → List (α × α) → Option Bool
  | 0, _ => none
  | fuel + 1, pj =>
    match pj with
    | [] => some true
    | v :: vs =>
      match polygonsIntersect mn pi (v :: vs) with
      | none => none
      | some true => some false
      | some false => checkPolygonsInner mn pi fuel (nextPolygon mn (v :: vs))

/-- c/eaf.c:570-585: the outer loop of `eaf_check_polygons`. -/
def checkPolygonsOuter (mn : α) : ℕ → List (α × α) → Option Bool
  | 0, _ => none
  | fuel + 1, pi =>
    match pi with
    | [] => some true
    | v :: vs =>
      match checkPolygonsInner mn (v :: vs) (fuel + 1) (nextPolygon mn (v :: vs)) with
      | none => none
      | some false => some false
      | some true => checkPolygonsOuter mn fuel (nextPolygon mn (v :: vs))

/-- c/eaf.c:559-592 `eaf_check_polygons` with two objectives. -/
def eafCheckPolygons (mn : α) (xy : List (α × α)) : Option Bool := checkPolygonsOuter mn (xy.length + 1) xy

end Moo
