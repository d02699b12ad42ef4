import Verif.Model.Whv
import Mathlib.Data.Real.Basic

/-!
# `rect_weighted_hv2d` (c/whv.c) in floating-point arithmetic

The functions of Verif/Model/Whv.lean with a rounding `rnd` after every arithmetic operation.
-/

set_option autoImplicit false

namespace Moo

noncomputable section

variable (rnd : ℝ → ℝ)

/-- c/whv.c:149-164, as `whvInner`. -/
def whvInnerF (p0 p1 top : ℝ) : Bool → List (WRect ℝ) → ℝ → Option ℝ
  | _, [], acc => some acc
  | first, r :: rs, acc =>
    if ¬ r.Ok then none
    else if first = false ∧ ¬ p1 < r.u1 then some acc
    else if p0 < r.u0 ∧ r.l1 < top then
      if ¬ (p0 < r.u0 ∧ p1 < r.u1) ∨ ¬ top > r.l1 ∨ ¬ top > p1 then none
      else whvInnerF p0 p1 top false rs (rnd (acc + rnd (rnd (rnd (r.u0 - max p0 r.l0) * rnd (min top r.u1 - max p1 r.l1)) * r.color)))
    else whvInnerF p0 p1 top false rs acc

/-- c/whv.c:147-173, as `whvGo`. -/
def whvGoF (pts : ℕ → ℕ → ℝ) (rs : List (WRect ℝ)) (u1 lastTop lastRight : ℝ) : Bool → ℝ → List ℕ → ℝ → Option ℝ
  | _, _, [], acc => some acc
  | again, top, p :: rest, acc =>
    if again = true ∧ top = pts p 1 ∧ pts p 1 ≥ u1 then
      if pts p 1 = lastTop ∨ pts p 0 ≥ lastRight then some acc
      else whvGoF pts rs u1 lastTop lastRight true (pts p 1) rest acc
    else if ¬ pts p 1 < u1 then none
    else match whvInnerF rnd (pts p 0) (pts p 1) top true rs acc with
      | none => none
      | some acc' =>
        if pts p 1 = lastTop ∨ pts p 0 ≥ lastRight then some acc'
        else whvGoF pts rs u1 lastTop lastRight true (pts p 1) rest acc'

/-- c/whv.c:138-143, as `whvFirst`. -/
def whvFirstF (pts : ℕ → ℕ → ℝ) (rs : List (WRect ℝ)) (u1 lastTop lastRight : ℝ) : ℝ → List ℕ → Option ℝ
  | _, [] => some 0
  | top, p :: rest =>
    if pts p 1 ≥ u1 then
      if pts p 1 = lastTop ∨ pts p 0 ≥ lastRight then some 0
      else whvFirstF pts rs u1 lastTop lastRight (pts p 1) rest
    else whvGoF rnd pts rs u1 lastTop lastRight false top (p :: rest) 0

/-- c/whv.c:74-181 `rect_weighted_hv2d`, as `rectWeightedHv2d`. -/
def rectWeightedHv2dF (pts : ℕ → ℕ → ℝ) (n : ℕ) (rects : List (WRect ℝ)) (ref : ℕ → ℝ) (ps : List ℕ) (rs : List (WRect ℝ)) : Option ℝ :=
  if rects.length = 0 ∨ n = 0 then some 0
  else if (whvPreprocess rects ref).length = 0 then some 0
  else match rs with
    | [] => none
    | r :: rs' =>
      if ¬ r.Ok then none
      else
        let lastTop := ((r :: rs').getLastD r).u1
        let lastRight := rs'.foldl (fun m q => max m q.u0) r.u0
        whvFirstF rnd pts (r :: rs') r.u1 lastTop lastRight r.u1 ps

end

end Moo
