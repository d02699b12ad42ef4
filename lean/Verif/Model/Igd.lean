import Verif.Model.Epsilon
import Mathlib.Analysis.SpecialFunctions.Pow.Real

/-!
# Model of `c/igd.h`

Exact real arithmetic; `sqrtl` and `powl` are the real functions. `INFINITY` is `⊤` in `WithTop ℝ`.
-/

set_option autoImplicit false

namespace Moo

noncomputable section

/-- `diff`, c/igd.h:75-77. -/
def gdDiff (plus : Bool) (dir : ℤ) (a r : ℝ) : ℝ :=
  if !plus then r - a else cMax (if dir < 0 then r - a else a - r) 0

/-- `dist`, the loop over `d`, c/igd.h:70-80. -/
def gdDist (dim : ℕ) (minmax : ℕ → ℤ) (plus : Bool) (pa pr : ℕ → ℝ) : ℝ :=
  (List.range dim).foldl (fun dist d =>
    if minmax d = 0 then dist
    else dist + gdDiff plus (minmax d) (pa d) (pr d) * gdDiff plus (minmax d) (pa d) (pr d)) 0

/-- `min_dist` after the loop over `r`, c/igd.h:68-85. -/
def gdMin (dim : ℕ) (minmax : ℕ → ℤ) (plus : Bool) (pa : ℕ → ℝ) (R : ℕ → ℕ → ℝ) (sizeR : ℕ) : WithTop ℝ :=
  (List.range sizeR).foldl (fun m r =>
    if ((gdDist dim minmax plus pa (R r) : ℝ) : WithTop ℝ) < m then (gdDist dim minmax plus pa (R r) : WithTop ℝ) else m) ⊤

/-- `gd_common`, c/igd.h:57-98, for `p ≥ 1`.
A function applied to `INFINITY` gives `INFINITY` here (`WithTop.map`), as `sqrtl` and `powl` with a positive exponent do. -/
def gdCommon (dim : ℕ) (minmax : ℕ → ℤ) (A : ℕ → ℕ → ℝ) (sizeA : ℕ) (R : ℕ → ℕ → ℝ) (sizeR : ℕ)
    (plus psize : Bool) (p : ℕ) : WithTop ℝ :=
  if sizeA = 0 then ⊤                                                          -- l. 63
  else
    let gd := (List.range sizeA).foldl (fun gd a =>
      let md := (gdMin dim minmax plus (A a) R sizeR).map Real.sqrt             -- l. 87
      gd + (if p = 1 then md else md.map (fun x => x ^ p))) (0 : WithTop ℝ)     -- l. 89
    if p = 1 then gd.map (fun x => x / sizeA)                                   -- l. 93
    else if psize then gd.map (fun x => (x / sizeA) ^ ((1 : ℝ) / p))            -- l. 95
    else gd.map (fun x => x ^ ((1 : ℝ) / p) / sizeA)                            -- l. 97

/-- `GD_minmax`, c/igd.h:100-110. -/
def gdMinmax (dim : ℕ) (minmax : ℕ → ℤ) (A : ℕ → ℕ → ℝ) (sizeA : ℕ) (R : ℕ → ℕ → ℝ) (sizeR : ℕ) : WithTop ℝ :=
  gdCommon dim minmax A sizeA R sizeR false false 1

/-- `IGD_minmax`, c/igd.h:112-122. -/
def igdMinmax (dim : ℕ) (minmax : ℕ → ℤ) (A : ℕ → ℕ → ℝ) (sizeA : ℕ) (R : ℕ → ℕ → ℝ) (sizeR : ℕ) : WithTop ℝ :=
  gdCommon dim minmax R sizeR A sizeA false false 1

/-- `IGD`, c/igd.h:124-132. -/
def igd (data : ℕ → ℕ → ℝ) (nobj npoints : ℕ) (ref : ℕ → ℕ → ℝ) (refSize : ℕ) (maximise : ℕ → Bool) : WithTop ℝ :=
  igdMinmax nobj (minmaxFromBool maximise) data npoints ref refSize

/-- `IGD_plus_minmax`, c/igd.h:158-169. -/
def igdPlusMinmax (dim : ℕ) (minmax : ℕ → ℤ) (A : ℕ → ℕ → ℝ) (sizeA : ℕ) (R : ℕ → ℕ → ℝ) (sizeR : ℕ) : WithTop ℝ :=
  gdCommon dim minmax R sizeR A sizeA true true 1

/-- `IGD_plus`, c/igd.h:171-179. -/
def igdPlus (data : ℕ → ℕ → ℝ) (nobj npoints : ℕ) (ref : ℕ → ℕ → ℝ) (refSize : ℕ) (maximise : ℕ → Bool) : WithTop ℝ :=
  igdPlusMinmax nobj (minmaxFromBool maximise) data npoints ref refSize

/-- `GD_p`, c/igd.h:134-144. -/
def gdP (dim : ℕ) (minmax : ℕ → ℤ) (A : ℕ → ℕ → ℝ) (sizeA : ℕ) (R : ℕ → ℕ → ℝ) (sizeR p : ℕ) : WithTop ℝ :=
  gdCommon dim minmax A sizeA R sizeR false true p

/-- `IGD_p`, c/igd.h:146-156. -/
def igdP (dim : ℕ) (minmax : ℕ → ℤ) (A : ℕ → ℕ → ℝ) (sizeA : ℕ) (R : ℕ → ℕ → ℝ) (sizeR p : ℕ) : WithTop ℝ :=
  gdCommon dim minmax R sizeR A sizeA false true p

/-- `avg_Hausdorff_dist_minmax`, c/igd.h:181-198. -/
def avgHausdorffMinmax (dim : ℕ) (minmax : ℕ → ℤ) (A : ℕ → ℕ → ℝ) (sizeA : ℕ) (R : ℕ → ℕ → ℝ) (sizeR p : ℕ) :
    WithTop ℝ :=
  cMax (gdCommon dim minmax A sizeA R sizeR false true p) (gdCommon dim minmax R sizeR A sizeA false true p)

/-- `avg_Hausdorff_dist`, c/igd.h:201-209. -/
def avgHausdorffDist (data : ℕ → ℕ → ℝ) (nobj npoints : ℕ) (ref : ℕ → ℕ → ℝ) (refSize : ℕ) (maximise : ℕ → Bool)
    (p : ℕ) : WithTop ℝ :=
  avgHausdorffMinmax nobj (minmaxFromBool maximise) data npoints ref refSize p

end

end Moo
