import Mathlib.Order.Defs.LinearOrder
import Mathlib.Data.List.Defs

/-!
# Specification: polygons in a vector of coordinates
-/

set_option autoImplicit false
set_option linter.unusedSectionVars false

namespace Moo

variable {α : Type*} [LinearOrder α]

/-- The corners of a polygon as they are stored: none of their coordinates is the mark, which follows them. -/
def Stored (mn : α) (P : List (α × α)) (raw : List (α × α)) : Prop :=
  P ≠ [] ∧ (∀ p ∈ P, p.1 ≠ mn ∧ p.2 ≠ mn) ∧ ∃ tail, raw = P ++ (mn, mn) :: tail

/-- There is a vertical (`k` false) or horizontal line with one polygon on each side. -/
def LineBetween (k : Bool) (P Q : List (α × α)) : Prop :=
  (∀ p ∈ P, ∀ q ∈ Q, (if k then p.2 else p.1) ≤ (if k then q.2 else q.1)) ∨ (∀ p ∈ P, ∀ q ∈ Q, (if k then q.2 else q.1) ≤ (if k then p.2 else p.1))

/-- A corner of `P` is less than a corner of `Q` in both coordinates. -/
def CornerBelow (P Q : List (α × α)) : Prop := ∃ p ∈ P, ∃ q ∈ Q, p.1 < q.1 ∧ p.2 < q.2

/-- The corners of a rectangle, in any order. -/
def RectCorners (P : List (α × α)) (x0 x1 y0 y1 : α) : Prop := x0 < x1 ∧ y0 < y1 ∧ ∀ p, p ∈ P ↔ (p.1 = x0 ∨ p.1 = x1) ∧ (p.2 = y0 ∨ p.2 = y1)

/-- The vector with the given polygons. -/
def polyVector (mn : α) (Ps : List (List (α × α))) : List (α × α) := Ps.flatMap (fun P => P ++ [(mn, mn)])

/-- The corners are stored as they should be. -/
def PolysStored (mn : α) (Ps : List (List (α × α))) : Prop := ∀ P ∈ Ps, P ≠ [] ∧ ∀ p ∈ P, p.1 ≠ mn ∧ p.2 ≠ mn

end Moo
