import Verif.Model.EafRect
import Mathlib.Algebra.Order.Archimedean.Real.Basic

/-!
# Model of `eaf_compute_polygon` (c/eaf.c) and `compute_eafdiff_polygon_C` (r/src/Rmoocore.c)

Objective values are elements of a linear order; `mx` is `objective_MAX` and `mn` is `objective_MIN` (the infinities).  `none` is a failed assertion, an
access outside of a block or a signed overflow.  The positions `ka` and `kb` are given by the rests of the surfaces: `as` starts with point `ka`, `bs` with point `kb`;
the points of `b` between `last_b` and `kb`, the latest first, are the list `seen`.  The vector `xy` is the list of the pairs pushed.
-/

set_option autoImplicit false

namespace Moo

variable {α : Type*} [LinearOrder α]

/-- The vectors of `eaf_polygon_t`, c/eaf.h: corners with a pair `(objective_MIN, objective_MIN)` after each polygon, and colours. -/
structure EafPoly (α : Type*) where
  xy : List (α × α)
  col : List ℤ
deriving DecidableEq

/-- c/eaf.c:651-671: skip the points of `a` and `b` that overlap; the new `as`, `bs` (behind `last_b`) and `topleft_y`. -/
def polyOverlap : List ((α × α) × ℤ) → List (α × α) → α → Option (List ((α × α) × ℤ) × List (α × α) × α)
  | a :: as, b :: bs, top =>
    if b.1 ≠ a.1.1 then some (a :: as, b :: bs, top)
    else if b.2 = a.1.2 then polyOverlap as bs b.2
    else if a.1.2 < b.2 then some (a :: as, bs, b.2)
    else none
  | as, bs, top => some (as, bs, top)

/-- c/eaf.c:682-689: the point in `b` not above the current point `pka`. -/
def polyAdvance (pka : α × α) : List (α × α) → List (α × α) → Option (List (α × α) × List (α × α))
  | [], seen => some ([], seen)
  | b :: bs, seen =>
    if ¬ pka.1 < b.1 then none
    else if b.2 ≤ pka.2 then some (b :: bs, seen)
    else polyAdvance pka bs (b :: seen)

/-- What the loop c/eaf.c:680-708 leaves: `pka`, the rest of `a`, the rest of `b`, the points of `b` passed and the pushed corners. -/
structure PolyDown (α : Type*) where
  pka : α × α
  as : List ((α × α) × ℤ)
  bs : List (α × α)
  seen : List (α × α)
  pts : List (α × α)

/-- c/eaf.c:696-706: `B` intersects with `A` between `pka` and the next point of `a`. `none` is a failed assertion. -/
def polyHit (pka : α × α) (as : List ((α × α) × ℤ)) (bs : List (α × α)) : Option Bool :=
  match bs, as with
  | pkb :: _, next :: _ =>
    if ¬ pka.1 < pkb.1 ∨ ¬ pkb.2 ≤ pka.2 then none
    else if pkb.1 ≤ next.1.1 then
      (if ¬ (pkb.2 = pka.2 ∨ pkb.1 = next.1.1) ∨ ¬ pkb.2 ≤ pka.2 then none else some true)
    else some false
  | _, _ => some false

/-- c/eaf.c:708, the loop goes on: `ka < eaf_a_size && color_0 == color[ka]`. -/
def polySame (color0 : ℤ) : List ((α × α) × ℤ) → Bool
  | [] => false
  | a :: _ => color0 = a.2

/-- c/eaf.c:677-708, `do ... while`: down along `a`. -/
def polyDown (color0 : ℤ) : List ((α × α) × ℤ) → List (α × α) → List (α × α) → α → List (α × α) → Option (PolyDown α)
  | [], _, _, _, _ => none
  | a :: as, bs, seen, prevY, pts =>
    match polyAdvance a.1 bs seen with
    | none => none
    | some (bs', seen') =>
      if ¬ a.1.2 < prevY then none
      else match polyHit a.1 as bs' with
        | none => none
        | some hit =>
          if hit = false ∧ polySame color0 as = true then
            polyDown color0 as bs' seen' a.1.2 (pts ++ [(a.1.1, prevY), (a.1.1, a.1.2)])
          else some ⟨a.1, as, bs', seen', pts ++ [(a.1.1, prevY), (a.1.1, a.1.2)]⟩

/-- c/eaf.c:740-753 and 777-792: up along `b`, from `pkb`, in reverse. -/
def polyUp (pka : α × α) (top : α) : List (α × α) → α × α → List (α × α) → Option (List (α × α))
  | [], pkb, pts => if ¬ pkb.2 < top then none else some (pts ++ [(pkb.1, top)])
  | b :: bs, pkb, pts =>
    if ¬ pka.2 < b.2 then none
    else polyUp pka top bs b (pts ++ [(pkb.1, b.2), (b.1, b.2)])

/-- `polygon_close`, c/eaf.c:618-622, with `POLY_SIZE_CHECK`, c/eaf.c:600-602. -/
def polyClose (mn : α) (out : EafPoly α) (pts : List (α × α)) (color : ℤ) : Option (EafPoly α) :=
  if ¬ 4 ≤ pts.length ∨ ¬ pts.length % 2 = 0 then none
  else some ⟨out.xy ++ pts ++ [(mn, mn)], out.col ++ [color]⟩

/-- c/eaf.c:712-754: the end of `a` is reached; `bs0` is the rest of `b` behind `last_b`. -/
def polyEnd (mx top : α) (d : PolyDown α) (bs0 : List (α × α)) : Option (List (α × α)) :=
  match bs0.reverse with
  | [] => if ¬ d.pka.2 < top then none else some (d.pts ++ [(mx, d.pka.2), (mx, top)])
  | pkb :: rest =>
    if ¬ d.pka.2 ≤ pkb.2 then none
    else if d.pka.2 < pkb.2 then
      if ¬ pkb.2 ≤ top then none
      else polyUp d.pka top rest pkb (d.pts ++ [(mx, d.pka.2), (mx, pkb.2)] ++ [pkb])
    else if ¬ d.pka.1 < pkb.1 then none
    else polyUp d.pka top rest pkb (d.pts ++ [pkb])

/-- c/eaf.c:759-794: the end of a polygon before the end of `a`: the corners and the rest of `b` behind the new `last_b`. -/
def polyMiddle (mx top : α) (d : PolyDown α) : Option (List (α × α) × List (α × α)) :=
  match d.bs with
  | [] => if ¬ d.pka.2 < top then none else some (d.pts ++ [(mx, d.pka.2), (mx, top)], [])
  | pkb :: bs =>
    if ¬ pkb.2 ≤ d.pka.2 ∨ pkb.1 = d.pka.1 then none
    else (polyUp d.pka top d.seen pkb (d.pts ++ [(pkb.1, d.pka.2)])).map (fun pts => (pts, if pkb.2 = d.pka.2 then bs else pkb :: bs))

/-- c/eaf.c:647-799, `while (true)`: the polygons between two successive surfaces. -/
def polyLoop (mx mn : α) : ℕ → List ((α × α) × ℤ) → List (α × α) → α → EafPoly α → Option (EafPoly α)
  | 0, _, _, _, _ => none
  | fuel + 1, as, bs, top, out =>
    match polyOverlap as bs top with
    | none => none
    | some ([], _, _) => some out
    | some (a :: as, bs, top) =>
      match polyDown a.2 (a :: as) bs [] top [] with
      | none => none
      | some d =>
        match d.as with
        | [] => (polyEnd mx top d bs).bind (fun pts => polyClose mn out pts a.2)
        | _ :: _ => (polyMiddle mx top d).bind (fun r => (polyClose mn out r.1 a.2).bind (fun out =>
            if ¬ d.pka.2 ≤ top then none else polyLoop mx mn fuel d.as r.2 d.pka.2 out))

/-- c/eaf.c:637-800, one iteration of the loop over the pairs of successive surfaces. -/
def polyPair (mx mn : α) (nruns : ℕ) (ea eb : EafT α) (out : EafPoly α) : Option (EafPoly α) :=
  match initColors ea nruns, eafCoords ea, eafCoords eb with
  | some col, some A, some B => polyLoop mx mn (A.length + 1) (A.zip col) B mx out
  | _, _, _ => none

/-- c/eaf.c:637-800, the loop over the pairs of successive surfaces. -/
def polyPairs (mx mn : α) (nruns : ℕ) : List (EafT α) → EafPoly α → Option (EafPoly α)
  | ea :: eb :: es, out => match polyPair mx mn nruns ea eb out with
    | none => none
    | some out => polyPairs mx mn nruns (eb :: es) out
  | _, out => some out

/-- `eaf_compute_polygon`, c/eaf.c:594-806, two objectives. -/
def eafComputePolygon (mx mn : α) (eaf : List (EafT α)) : Option (EafPoly α) :=
  match eaf with
  | [] => none
  | e :: _ => if ¬ e.nruns % 2 = 0 then none else polyPairs mx mn e.nruns eaf ⟨[], []⟩

/-! ## The R function -/

/-- `polygon_len`, r/src/Rmoocore.c:103-110: the number of rows up to and including the next end mark. `none`: the vector has no further end mark. -/
def polygonLen (mn : α) : List (α × α) → Option ℕ
  | [] => none
  | p :: ps => if p.1 ≠ mn then (polygonLen mn ps).map (· + 1) else some 1

/-- An element assignment to a row of a matrix of R; a row is not yet assigned (`none`), `NA` (`some none`) or a pair. `none`: outside of the matrix. -/
def rowSet (m : List (Option (Option (α × α)))) (k : ℕ) (v : Option (α × α)) : Option (List (Option (Option (α × α)))) :=
  if k < m.length then some (m.set k (some v)) else none

/-- `polygon_copy`, r/src/Rmoocore.c:112-125: the matrix after the call and the position `len`. -/
def polygonCopy (mn : α) : List (Option (Option (α × α))) → ℕ → List (α × α) → Option (List (Option (Option (α × α))) × ℕ)
  | _, _, [] => none
  | dest, len, p :: ps =>
    if p.1 ≠ mn then (rowSet dest len (some p)).bind (fun dest => polygonCopy mn dest (len + 1) ps)
    else (rowSet dest len none).map (fun dest => (dest, len + 1))

/-- Conversion of a double to an integer type (towards zero). -/
noncomputable def cTrunc (x : ℝ) : ℤ := if 0 ≤ x then ⌊x⌋ else ⌈x⌉

/-- r/src/Rmoocore.c:192, the colour of a polygon; `none` if the product of two integers overflows. -/
noncomputable def polyColor (rnd : ℝ → ℝ) (intervals : ℤ) (division : ℕ) (col : ℤ) : Option ℤ :=
  if |col * intervals| ≤ 2147483647 then some (cTrunc (rnd (((col * intervals : ℤ) : ℝ) / (division : ℝ)))) else none

/-- The numbers of rows and of polygons on the two sides. -/
structure SideLens where
  leftLen : ℕ
  rightLen : ℕ
  leftN : ℕ
  rightN : ℕ

/-- r/src/Rmoocore.c:187-205, the first loop: the truncated colours and how much space each side needs. -/
noncomputable def polyLens (rnd : ℝ → ℝ) (mn : α) (intervals : ℤ) (division : ℕ) : List ℤ → List (α × α) → SideLens → Option (List ℤ × SideLens)
  | [], _, s => some ([], s)
  | c :: cs, xy, s =>
    match polyColor rnd intervals division c, polygonLen mn xy with
    | some color, some len =>
      (polyLens rnd mn intervals division cs (xy.drop len)
        (if 1 ≤ color then { s with leftLen := s.leftLen + len, leftN := s.leftN + 1 }
         else if color ≤ 1 then { s with rightLen := s.rightLen + len, rightN := s.rightN + 1 } else s)).map (fun r => (color :: r.1, r.2))
    | _, _ => none

/-- The two matrices with their attributes `col`, and the positions reached. -/
structure SideMats (α : Type*) where
  left : List (Option (Option (α × α)))
  right : List (Option (Option (α × α)))
  leftCol : List ℤ
  rightCol : List ℤ
  leftLen : ℕ
  rightLen : ℕ

/-- r/src/Rmoocore.c:220-238, the second loop: the polygons are copied to their sides. The vectors `left_col` and `right_col` are lists that grow (that they have room is part of the theorem). -/
def polyCopies (mn : α) : List ℤ → List (α × α) → SideMats α → Option (SideMats α)
  | [], _, s => some s
  | color :: cs, xy, s =>
    if 1 ≤ color then
      match polygonCopy mn s.left s.leftLen xy with
      | none => none
      | some (m, pos) => polyCopies mn cs (xy.drop (pos - s.leftLen)) { s with left := m, leftLen := pos, leftCol := s.leftCol ++ [color + 1] }
    else if color ≤ 1 then
      match polygonCopy mn s.right s.rightLen xy with
      | none => none
      | some (m, pos) => polyCopies mn cs (xy.drop (pos - s.rightLen)) { s with right := m, rightLen := pos, rightCol := s.rightCol ++ [1 - color] }
    else
      match polygonLen mn xy with
      | none => none
      | some len => polyCopies mn cs (xy.drop len) s

/-- `compute_eafdiff_polygon_C`, r/src/Rmoocore.c:167-257, from the vectors of `eaf_compute_area` on: the matrices `left` and `right` with the colours.
`none`: overflow, or an access outside of a block, or the room for the colours does not suffice, or a row is not assigned. -/
noncomputable def rEafdiffPolygon (rnd : ℝ → ℝ) (mn : α) (intervals : ℤ) (division : ℕ) (p : EafPoly α) :
    Option ((List (Option (α × α)) × List ℤ) × (List (Option (α × α)) × List ℤ)) :=
  match polyLens rnd mn intervals division p.col p.xy ⟨0, 0, 0, 0⟩ with
  | none => none
  | some (cols, n) =>
    match polyCopies mn cols p.xy ⟨List.replicate n.leftLen none, List.replicate n.rightLen none, [], [], 0, 0⟩ with
    | none => none
    | some s =>
      if s.leftCol.length ≠ n.leftN ∨ s.rightCol.length ≠ n.rightN then none
      else match s.left.mapM id, s.right.mapM id with
        | some l, some r => some ((l, s.leftCol), (r, s.rightCol))
        | _, _ => none

/-- R `compute_eafdiff_call(..., ret = "polygons")`, r/R/eafdiff.R:144-153, on the joined data, two objectives: the surfaces of all levels, the polygons, and the two sides. -/
noncomputable def rComputeEafdiffPolygons (rnd : ℝ → ℝ) (V : EafEnv α) (mx mn : α) (pts : ℕ → ℕ → α) (cumsize : ℕ → ℕ) (nruns : ℕ) (intervals : ℤ) (sx sy : List ℕ) (fuel : ℕ) :
    Option ((List (Option (α × α)) × List ℤ) × (List (Option (α × α)) × List ℤ)) :=
  match eaf2d pts cumsize nruns ((List.range nruns).map (fun k : ℕ => (k : ℤ) + 1)) sx sy fuel with
  | none => none
  | some outs =>
    match outs.mapM (fun out => eafSurface2d V nruns (cumsize (nruns - 1)) out) with
    | none => none
    | some es => match eafComputePolygon mx mn es with
      | none => none
      | some p => rEafdiffPolygon rnd mn intervals (nruns / 2) p

end Moo
