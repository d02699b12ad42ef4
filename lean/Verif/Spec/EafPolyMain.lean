import Verif.Spec.EafMain
import Verif.Spec.Polygon
import Verif.Model.EafPolyMain

/-!
# Specification of `eaf --polygons`

A polygon is the list of its corners, in order, and a colour.
-/

set_option autoImplicit false

namespace Moo

/-- The lines for these polygons: the corners, one on a line, with a line of two `-inf` after each polygon, and at the end the colours of all of them. -/
def polygonLines {K : Type*} (ninf : K) (ps : List (List (K × K) × ℤ)) : List (PolyTok K) :=
  ps.flatMap (fun p => p.1.map (fun v => .corner v.1 v.2) ++ [.corner ninf ninf]) ++ [.colors (ps.map Prod.snd)]

/-- The polygons between the surfaces of the levels `k, k + 1, ..., k + n`: they have horizontal and vertical sides, at least four corners, none of them at `-inf`, and an inside.  A point (below infinity) is
in exactly one of them if it is attained by at least `k` and fewer than `k + n` runs, otherwise in none.  Everywhere in a polygon the number of attaining runs is the same, and the colour is the number of the
attaining runs of the first half minus that of the second half. -/
structure PolygonsBetween {K : Type*} [LinearOrder K] [Zero K] (inf ninf : K) (runs : List (List (List K))) (k n : ℕ) (ps : List (List (K × K) × ℤ)) : Prop where
  shape : ∀ p ∈ ps, Rectilinear p.1 ∧ 4 ≤ p.1.length ∧ (∀ v ∈ p.1, ninf < v.1 ∧ ninf < v.2) ∧ ∃ x y, InPolygon p.1 x y
  cover : ∀ x y, (ps.filter fun p => InPolygon p.1 x y).length =
    if x < inf ∧ y < inf ∧ k ≤ runsAttaining 2 runs [x, y] ∧ runsAttaining 2 runs [x, y] < k + n then 1 else 0
  level : ∀ p ∈ ps, ∃ l, ∀ x y, InPolygon p.1 x y → runsAttaining 2 runs [x, y] = l
  color : ∀ p ∈ ps, ∀ x y, InPolygon p.1 x y →
    p.2 = (runsAttaining 2 (runs.take (runs.length / 2)) [x, y] : ℤ) - runsAttaining 2 (runs.drop (runs.length / 2)) [x, y]

end Moo
