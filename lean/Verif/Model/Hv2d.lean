import Verif.Model.Basic
import Mathlib.Algebra.Ring.Defs
import Mathlib.Order.Defs.LinearOrder

/-!
# Model of `hv2d` (c/hv.c)

Doubles are elements of any type `K` with the operations that are used: a linearly ordered ring for exact arithmetic, or a type with NaN (`Verif/Props/HvNan.lean`).
-/

set_option autoImplicit false

namespace Moo

/-- c/hv.c:843-851 `compare_x_asc_y_asc`, applied to the rows `a` and `b` of the table. -/
def compareXAscYAsc {K : Type*} [LT K] [DecidableLT K] (pts : ℕ → ℕ → K) (a b : ℕ) : ℤ :=
  if pts a 0 < pts b 0 then -1 else if pts a 0 > pts b 0 then 1
  else if pts a 1 < pts b 1 then -1 else if pts a 1 > pts b 1 then 1 else 0

/-- c/hv.c:862-876, the `do … while` loop of `hv2d`.  The list is the part `p[j..n)` of the sorted pointer array, `prevJ` is
`prev_j`, `hv` is `hyperv`; `atCond` says that control is at the loop condition of line 876 rather than inside the loop body. -/
def hv2dLoop {K : Type*} [Add K] [Sub K] [Mul K] [LT K] [DecidableLT K] [LE K] [DecidableLE K] (pts : ℕ → ℕ → K) (ref : ℕ → K) : Bool → List ℕ → K → K → K
  | _, [], _, hv => hv
  | atCond, p :: ps, prevJ, hv =>
    if atCond = true ∧ ¬ pts p 0 < ref 0 then hv
    else if pts p 1 ≥ prevJ then hv2dLoop pts ref false ps prevJ hv
    else if pts p 0 ≥ ref 0 then hv
    else hv2dLoop pts ref true ps (pts p 1) (hv + (ref 0 - pts p 0) * (prevJ - pts p 1))

/-- c/hv.c:853-879 `hv2d`, after the `qsort` of line 860 has produced the order `ps`. -/
def hv2d {K : Type*} [Zero K] [Add K] [Sub K] [Mul K] [LT K] [DecidableLT K] [LE K] [DecidableLE K] (pts : ℕ → ℕ → K) (ps : List ℕ) (ref : ℕ → K) : K :=
  hv2dLoop pts ref false ps (ref 1) 0

end Moo
