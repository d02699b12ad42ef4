import Mathlib.Order.Defs.LinearOrder
import Mathlib.Algebra.Ring.Parity
import Mathlib.Data.List.Rotate
import Mathlib.Algebra.Order.Ring.Int

/-!
# Specification: closed polygons with horizontal and vertical sides
-/

set_option autoImplicit false

namespace Moo

variable {α : Type*} [LinearOrder α]

/-- The sides of the closed polygon with the given corners: each corner with the next one, and the last with the first. -/
def polySides (P : List (α × α)) : List ((α × α) × (α × α)) := P.zip (P.rotate 1)

/-- Every side is horizontal or vertical. -/
def Rectilinear (P : List (α × α)) : Prop := ∀ e ∈ polySides P, e.1.1 = e.2.1 ∨ e.1.2 = e.2.2

/-- The side has one end at or below the height `y` and the other one above it, and is to the right of `x`: the ray from `(x, y)` to the right crosses it
(the side is vertical when the polygon is rectilinear). -/
def Crosses (x y : α) (e : (α × α) × (α × α)) : Bool := (decide (e.1.2 ≤ y) != decide (e.2.2 ≤ y)) && decide (x < e.1.1)

/-- The even-odd rule: `(x, y)` is inside when the ray to the right crosses an odd number of sides.  The left and the lower sides belong to the inside. -/
def InPolygon (P : List (α × α)) (x y : α) : Prop := Odd ((polySides P).countP (Crosses x y))

instance (P : List (α × α)) (x y : α) : Decidable (InPolygon P x y) := by unfold InPolygon; infer_instance

/-- A unit square and an L-shaped hexagon. -/
example : InPolygon [((0 : ℤ), (2 : ℤ)), (0, 0), (2, 0), (2, 2)] 1 1 ∧ ¬ InPolygon [((0 : ℤ), (2 : ℤ)), (0, 0), (2, 0), (2, 2)] 3 1 := by decide
example : InPolygon [((0 : ℤ), (4 : ℤ)), (0, 0), (4, 0), (4, 2), (2, 2), (2, 4)] 3 1 ∧
  ¬ InPolygon [((0 : ℤ), (4 : ℤ)), (0, 0), (4, 0), (4, 2), (2, 2), (2, 4)] 3 3 := by decide

/-- The polygons in a matrix with a row of `NA` after each of them. -/
def naPolygons {β : Type*} : List (Option β) → List (List β)
  | [] => []
  | none :: r => [] :: naPolygons r
  | some v :: r => match naPolygons r with
    | [] => [[v]]
    | p :: ps => (v :: p) :: ps

example : naPolygons [some 1, some 2, none, some 3, none] = [[1, 2], [3]] := rfl

end Moo
