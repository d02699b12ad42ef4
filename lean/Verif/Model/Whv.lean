import Verif.Model.Basic
import Mathlib.Algebra.Ring.Defs
import Mathlib.Order.Defs.LinearOrder

/-!
# Model of `rect_weighted_hv2d` (c/whv.c)

Doubles are elements of a linearly ordered ring `K`; arithmetic is exact.  `none` is a failed assertion.
-/

set_option autoImplicit false

namespace Moo

variable {K : Type*} [Ring K] [LinearOrder K]

/-- One row of the table of rectangles: lower corner, upper corner and weight; c/whv.c:89-97. -/
structure WRect (K : Type*) where
  /-- `rect[0]` -/
  l0 : K
  /-- `rect[1]` -/
  l1 : K
  /-- `rect[2]` -/
  u0 : K
  /-- `rect[3]` -/
  u1 : K
  /-- `rect[4]` -/
  color : K

/-- c/whv.c:7-15 `cmp_data_y_desc` on rows `a` and `b`. -/
def cmpDataYDesc (pts : ℕ → ℕ → K) (a b : ℕ) : ℤ :=
  if pts a 1 > pts b 1 then -1 else if pts a 1 < pts b 1 then 1
  else if pts a 0 < pts b 0 then -1 else if pts a 0 > pts b 0 then 1 else 0

/-- c/whv.c:17-26 `cmp_rectangles_y_desc`. -/
def cmpRectYDesc (a b : WRect K) : ℤ :=
  if a.u1 > b.u1 then -1 else if a.u1 < b.u1 then 1
  else if a.u0 < b.u0 then -1 else if a.u0 > b.u0 then 1 else 0

/-- c/whv.c:33-38: the corners are clipped to the reference point. -/
def WRect.clip (ref : ℕ → K) (r : WRect K) : WRect K :=
  ⟨min r.l0 (ref 0), min r.l1 (ref 1), min r.u0 (ref 0), min r.u1 (ref 1), r.color⟩

/-- c/whv.c:42-43: the test of empty rectangles. -/
def WRect.isEmpty (r : WRect K) : Bool := decide (r.l0 = r.u0 ∨ r.l1 = r.u1)

/-- c/whv.c:39-45: the array `skip`. -/
def rectSkip (rs : List (WRect K)) : ℕ → List ℕ
  | i => (rs.zipIdx i).filterMap (fun q => if q.1.isEmpty then some q.2 else none)

/-- c/whv.c:59-68: for every entry `s` of `skip` the rows `k..s-1` are copied (the inner `while` loop in one step) and `k` becomes `s + 1`. -/
def rectCopy (rs : List (WRect K)) : ℕ → List ℕ → List (WRect K)
  | _, [] => []
  | k, s :: ss => (rs.drop k).take (s - k) ++ rectCopy rs (s + 1) ss

/-- c/whv.c:28-72 `whv_preprocess_rectangles`. -/
def whvPreprocess (rects : List (WRect K)) (ref : ℕ → K) : List (WRect K) :=
  let rs := rects.map (WRect.clip ref)
  let skip := rectSkip rs 0
  if skip.length = 0 then rs
  else if rs.length - skip.length = 0 then []
  else rectCopy rs 0 (skip ++ [rs.length])

/-- c/whv.c:94-96: the assertions of `get_rectangle`. -/
def WRect.Ok (r : WRect K) : Prop := r.l0 < r.u0 ∧ r.l1 < r.u1 ∧ 0 ≤ r.color

instance (r : WRect K) : Decidable r.Ok := by unfold WRect.Ok; infer_instance

/-- c/whv.c:149-164: the loop over the rectangles for the point `(p0, p1)`; `first` says that control enters the `do` loop at its body. -/
def whvInner (p0 p1 top : K) : Bool → List (WRect K) → K → Option K
  | _, [], acc => some acc
  | first, r :: rs, acc =>
    if ¬ r.Ok then none
    else if first = false ∧ ¬ p1 < r.u1 then some acc
    else if p0 < r.u0 ∧ r.l1 < top then
      if ¬ (p0 < r.u0 ∧ p1 < r.u1) ∨ ¬ top > r.l1 ∨ ¬ top > p1 then none
      else whvInner p0 p1 top false rs (acc + (r.u0 - max p0 r.l0) * (min top r.u1 - max p1 r.l1) * r.color)
    else whvInner p0 p1 top false rs acc

/-- c/whv.c:147-173: the main loop. The list is the rest of the sorted points, its head is `p`; `again` says that control is at the
condition of the `do` loop of line 172; `u1` is the upper side of the first rectangle. -/
def whvGo (pts : ℕ → ℕ → K) (rs : List (WRect K)) (u1 lastTop lastRight : K) : Bool → K → List ℕ → K → Option K
  | _, _, [], acc => some acc
  | again, top, p :: rest, acc =>
    if again = true ∧ top = pts p 1 ∧ pts p 1 ≥ u1 then
      if pts p 1 = lastTop ∨ pts p 0 ≥ lastRight then some acc
      else whvGo pts rs u1 lastTop lastRight true (pts p 1) rest acc
    else if ¬ pts p 1 < u1 then none
    else match whvInner (pts p 0) (pts p 1) top true rs acc with
      | none => none
      | some acc' =>
        if pts p 1 = lastTop ∨ pts p 0 ≥ lastRight then some acc'
        else whvGo pts rs u1 lastTop lastRight true (pts p 1) rest acc'

/-- c/whv.c:138-143: the loop that finds the first useful point. -/
def whvFirst (pts : ℕ → ℕ → K) (rs : List (WRect K)) (u1 lastTop lastRight : K) : K → List ℕ → Option K
  | _, [] => some 0
  | top, p :: rest =>
    if pts p 1 ≥ u1 then
      if pts p 1 = lastTop ∨ pts p 0 ≥ lastRight then some 0
      else whvFirst pts rs u1 lastTop lastRight (pts p 1) rest
    else whvGo pts rs u1 lastTop lastRight false top (p :: rest) 0

/-- c/whv.c:74-181 `rect_weighted_hv2d`, when the two calls of `qsort` produce the orders `ps` (of the rows of `data`) and `rs` (of the preprocessed rectangles).
The largest `upper0` is computed starting from the first rectangle instead of `-DBL_MAX`. -/
def rectWeightedHv2d (pts : ℕ → ℕ → K) (n : ℕ) (rects : List (WRect K)) (ref : ℕ → K) (ps : List ℕ) (rs : List (WRect K)) : Option K :=
  if rects.length = 0 ∨ n = 0 then some 0
  else if (whvPreprocess rects ref).length = 0 then some 0
  else match rs with
    | [] => none
    | r :: rs' =>
      if ¬ r.Ok then none
      else
        let lastTop := ((r :: rs').getLastD r).u1
        let lastRight := rs'.foldl (fun m q => max m q.u0) r.u0
        whvFirst pts (r :: rs') r.u1 lastTop lastRight r.u1 ps

end Moo
