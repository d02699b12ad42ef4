import Verif.Model.EafStore
import Verif.Model.Eaf2d
import Verif.Model.Percentile

/-!
# Model of `eaf_compute_rectangles` (c/eaf.c) and `eafdiff_compute_rectangles` (c/eafdiff.c)

Objective values are elements of a linear order; `mx` is `objective_MAX` (infinity).  `none` is a failed assertion or an access outside of a block.
-/

set_option autoImplicit false

namespace Moo

/-- One rectangle: two corners and a colour. -/
structure DRect (α : Type*) where
  lx : α
  ly : α
  ux : α
  uy : α
  color : ℤ
deriving DecidableEq

variable {α : Type*} [LinearOrder α]

/-- `eaf_point(A, K)`, c/eaf.c:986, for all points of a surface (two objectives): coordinates `data[2 * k]` and `data[2 * k + 1]`. All the points are read at once. -/
def eafCoords (e : EafT α) : Option (List (α × α)) :=
  (List.range e.size).mapM (fun k => match e.data[2 * k]?, e.data[2 * k + 1]? with
    | some x, some y => some (x, y)
    | _, _ => none)

/-- `init_colors`, c/eaf.c:465-471. -/
def initColors (e : EafT α) (nruns : ℕ) : Option (List ℤ) := (List.range e.size).mapM (fun k => eafDiffColor e.bits k nruns)

/-- `rectangle_add`, c/eaf.c:961-981. -/
def rectangleAdd (out : List (DRect α)) (lx ly ux uy : α) (color : ℤ) : Option (List (DRect α)) :=
  if ¬ lx < ux ∨ ¬ ly < uy then none else some (out ++ [⟨lx, ly, ux, uy, color⟩])

/-- c/eaf.c:1050-1060, `close_eaf`: the surface `b` is finished; the list is the rest of surface `a` with its colours. -/
def rectClose (mx : α) (pkb : α × α) : List ((α × α) × ℤ) → α → List (DRect α) → Option (List (DRect α))
  | [], _, out => some out
  | pka :: as, top, out =>
    if ¬ pka.1.2 < pkb.2 then none
    else match rectangleAdd out pka.1.1 pka.1.2 mx top pka.2 with
      | none => none
      | some out => rectClose mx pkb as pka.1.2 out

/-- c/eaf.c:1018-1049: the loops; the lists are the rest of the surfaces `a` (with colours) and `b`, `pka` and `pkb` are their heads. -/
def rectSweep (mx : α) : ℕ → List ((α × α) × ℤ) → List (α × α) → α → List (DRect α) → Option (List (DRect α))
  | fuel + 1, pka :: as, pkb :: bs, top, out =>
    if pka.1.2 < pkb.2 then
      match (if pka.1.1 < pkb.1 then rectangleAdd out pka.1.1 pkb.2 pkb.1 top pka.2 else some out) with
      | none => none
      | some out =>
        match bs with
        | [] => rectClose mx pkb (pka :: as) pkb.2 out
        | _ :: _ => rectSweep mx fuel (pka :: as) bs pkb.2 out
    else
      match (if pka.1.1 < pkb.1 then rectangleAdd out pka.1.1 pka.1.2 pkb.1 top pka.2
          else if pka.1.1 = pkb.1 ∧ pka.1.2 = pkb.2 then some out else none) with
      | none => none
      | some out =>
        match as with
        | [] => some out
        | _ :: _ =>
          if pkb.2 = pka.1.2 then
            match bs with
            | [] => rectClose mx pkb as pka.1.2 out
            | _ :: _ => rectSweep mx fuel as bs pka.1.2 out
          else rectSweep mx fuel as (pkb :: bs) pka.1.2 out
  | _, _, _, _, _ => none

/-- c/eaf.c:1004-1064, one iteration of the loop over the pairs of successive surfaces. -/
def rectPair (mx : α) (nruns : ℕ) (ea eb : EafT α) (out : List (DRect α)) : Option (List (DRect α)) :=
  if ea.size = 0 ∨ eb.size = 0 then some out
  else match initColors ea nruns, eafCoords ea, eafCoords eb with
    | some col, some A, some B => rectSweep mx (A.length + B.length) (A.zip col) B mx out
    | _, _, _ => none

/-- c/eaf.c:1004-1064, the loop over the pairs of successive surfaces. -/
def rectPairs (mx : α) (nruns : ℕ) : List (EafT α) → List (DRect α) → Option (List (DRect α))
  | ea :: eb :: es, out => match rectPair mx nruns ea eb out with
    | none => none
    | some out => rectPairs mx nruns (eb :: es) out
  | _, out => some out

/-- `eaf_compute_rectangles`, c/eaf.c:983-1067. -/
def eafComputeRectangles (mx : α) (eaf : List (EafT α)) : Option (List (DRect α)) :=
  match eaf with
  | [] => none
  | e :: _ => if ¬ e.nruns % 2 = 0 then none else rectPairs mx e.nruns eaf []

/-- `eafdiff_compute_rectangles`, c/eafdiff.c:5-37, for two objectives: the rows of the result, each with the value `intervals * color / (nruns / 2)`. -/
def eafdiffComputeRectangles {K : Type*} [Field K] (V : EafEnv α) (mx : α) (pts : ℕ → ℕ → α) (cumsize : ℕ → ℕ) (nruns intervals : ℕ) (sx sy : List ℕ) (fuel : ℕ) :
    Option (List (DRect α × K)) :=
  match eaf2d pts cumsize nruns ((List.range nruns).map (fun k : ℕ => (k : ℤ) + 1)) sx sy fuel with
  | none => none
  | some outs =>
    match outs.mapM (fun out => eafSurface2d V nruns (cumsize (nruns - 1)) out) with
    | none => none
    | some es => match eafComputeRectangles mx es with
      | none => none
      | some rs => some (rs.map (fun r => (r, (intervals : K) * (r.color : K) / ((nruns / 2 : ℕ) : K))))

end Moo
