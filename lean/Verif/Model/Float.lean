import Verif.Model.Epsilon
import Verif.Model.Hv2d
import Verif.Model.Igd
import Verif.Model.Percentile
import Verif.Model.Normalise

/-!
# The indicators in floating-point arithmetic

The same functions as in Verif/Model/Epsilon.lean, Hv2d.lean, Igd.lean, Percentile.lean and Normalise.lean, with a rounding `rnd` after every
arithmetic operation of the code (`FLT_EVAL_METHOD` 0, no fused multiply-add).  Comparisons, `floor`, `ceil` and conversions of `int` to `double`
are exact.
-/

set_option autoImplicit false

namespace Moo

noncomputable section

variable (rnd : ℝ → ℝ)

/-! ## c/epsilon.h -/

/-- `epsilon_temp` of `epsilon_additive_minmax`, c/epsilon.h:83-88. -/
def epsAddTempF (dir : ℤ) (a b : ℝ) : ℝ :=
  if dir < 0 then rnd (a - b) else if dir > 0 then rnd (b - a) else 0

/-- The loop over `d`, c/epsilon.h:80-90. -/
def epsAddMaxF (dim : ℕ) (minmax : ℕ → ℤ) (pa pb : ℕ → ℝ) : Ext ℝ :=
  (List.range dim).foldl (fun m d => cMax m (fin (epsAddTempF rnd (minmax d) (pa d) (pb d)))) ⊥

/-- The loop over `a`, c/epsilon.h:78-92. -/
def epsAddMinF (dim : ℕ) (minmax : ℕ → ℤ) (A : ℕ → ℕ → ℝ) (sizeA : ℕ) (pb : ℕ → ℝ) : Ext ℝ :=
  (List.range sizeA).foldl (fun m a => cMin m (epsAddMaxF rnd dim minmax (A a) pb)) ⊤

/-- `epsilon_additive_minmax`, c/epsilon.h:69-96. -/
def epsilonAdditiveMinmaxF (dim : ℕ) (minmax : ℕ → ℤ) (A : ℕ → ℕ → ℝ) (sizeA : ℕ) (B : ℕ → ℕ → ℝ) (sizeB : ℕ) : Ext ℝ :=
  (List.range sizeB).foldl (fun m b => cMax m (epsAddMinF rnd dim minmax A sizeA (B b))) ⊥

/-- `epsilon_additive`, c/epsilon.h:98-106. -/
def epsilonAdditiveF (data : ℕ → ℕ → ℝ) (nobj npoints : ℕ) (ref : ℕ → ℕ → ℝ) (refSize : ℕ) (maximise : ℕ → Bool) : Ext ℝ :=
  epsilonAdditiveMinmaxF rnd nobj (minmaxFromBool maximise) data npoints ref refSize

/-- `epsilon_additive_ind`, c/epsilon.h:119-137. -/
def epsilonAdditiveIndF (dim : ℕ) (minmax : ℕ → ℤ) (A : ℕ → ℕ → ℝ) (sizeA : ℕ) (B : ℕ → ℕ → ℝ) (sizeB : ℕ) : ℤ :=
  let ab := epsilonAdditiveMinmaxF rnd dim minmax A sizeA B sizeB
  let ba := epsilonAdditiveMinmaxF rnd dim minmax B sizeB A sizeA
  if ab ≤ fin 0 ∧ ba > fin 0 then -1
  else if ab > fin 0 ∧ ba ≤ fin 0 then 1
  else 0

/-- `epsilon_temp` of `epsilon_mult_minmax`, c/epsilon.h:50-55. -/
def epsMultTempF (dir : ℤ) (a b : ℝ) : ℝ :=
  if dir < 0 then rnd (a / b) else if dir > 0 then rnd (b / a) else 1

/-- The loop over `d`, c/epsilon.h:45-61; `none` is `fatal_error` (l. 48 or 58). -/
def epsMultMaxF (minmax : ℕ → ℤ) (pa pb : ℕ → ℝ) : List ℕ → Ext ℝ → Option (Ext ℝ)
  | [], m => some m
  | d :: ds, m =>
    if pa d ≤ 0 ∨ pb d ≤ 0 then none
    else
      let t := epsMultTempF rnd (minmax d) (pa d) (pb d)
      if t < 0 then none
      else epsMultMaxF minmax pa pb ds (cMax m (fin t))

/-- The loop over `a`, c/epsilon.h:42-63; the list holds the remaining values of `a`. -/
def epsMultMinF (dim : ℕ) (minmax : ℕ → ℤ) (A : ℕ → ℕ → ℝ) (pb : ℕ → ℝ) : List ℕ → Ext ℝ → Option (Ext ℝ)
  | [], m => some m
  | a :: as, m => match epsMultMaxF rnd minmax (A a) pb (List.range dim) (fin 0) with
    | none => none
    | some mx => epsMultMinF dim minmax A pb as (cMin m mx)

/-- The loop over `b`, c/epsilon.h:41-65. -/
def epsMultOuterF (dim : ℕ) (minmax : ℕ → ℤ) (A : ℕ → ℕ → ℝ) (sizeA : ℕ) (B : ℕ → ℕ → ℝ) : List ℕ → Ext ℝ → Option (Ext ℝ)
  | [], m => some m
  | b :: bs, m => match epsMultMinF rnd dim minmax A (B b) (List.range sizeA) ⊤ with
    | none => none
    | some mn => epsMultOuterF dim minmax A sizeA B bs (cMax m mn)

/-- `epsilon_mult`, c/epsilon.h:33-67 and 107-115; `none` is `fatal_error`. -/
def epsilonMultF (data : ℕ → ℕ → ℝ) (nobj npoints : ℕ) (ref : ℕ → ℕ → ℝ) (refSize : ℕ) (maximise : ℕ → Bool) : Option (Ext ℝ) :=
  epsMultOuterF rnd nobj (minmaxFromBool maximise) data npoints ref (List.range refSize) (fin 0)

/-! ## c/hv.c, `hv2d` -/

/-- c/hv.c:862-876, as `hv2dLoop`. -/
def hv2dLoopF (pts : ℕ → ℕ → ℝ) (ref : ℕ → ℝ) : Bool → List ℕ → ℝ → ℝ → ℝ
  | _, [], _, hv => hv
  | atCond, p :: ps, prevJ, hv =>
    if atCond = true ∧ ¬ pts p 0 < ref 0 then hv
    else if pts p 1 ≥ prevJ then hv2dLoopF pts ref false ps prevJ hv
    else if pts p 0 ≥ ref 0 then hv
    else hv2dLoopF pts ref true ps (pts p 1) (rnd (hv + rnd (rnd (ref 0 - pts p 0) * rnd (prevJ - pts p 1))))

/-- c/hv.c:853-879 `hv2d`, after the `qsort` of line 860 has produced the order `ps`. -/
def hv2dF (pts : ℕ → ℕ → ℝ) (ps : List ℕ) (ref : ℕ → ℝ) : ℝ := hv2dLoopF rnd pts ref false ps (ref 1) 0

/-! ## c/igd.h, for `p = 1` -/

/-- `diff`, c/igd.h:75-77. -/
def gdDiffF (plus : Bool) (dir : ℤ) (a r : ℝ) : ℝ :=
  if !plus then rnd (r - a) else cMax (if dir < 0 then rnd (r - a) else rnd (a - r)) 0

/-- `dist`, the loop over `d`, c/igd.h:70-80. -/
def gdDistF (dim : ℕ) (minmax : ℕ → ℤ) (plus : Bool) (pa pr : ℕ → ℝ) : ℝ :=
  (List.range dim).foldl (fun dist d =>
    if minmax d = 0 then dist
    else rnd (dist + rnd (gdDiffF rnd plus (minmax d) (pa d) (pr d) * gdDiffF rnd plus (minmax d) (pa d) (pr d)))) 0

/-- `min_dist` after the loop over `r`, c/igd.h:68-85. -/
def gdMinF (dim : ℕ) (minmax : ℕ → ℤ) (plus : Bool) (pa : ℕ → ℝ) (R : ℕ → ℕ → ℝ) (sizeR : ℕ) : WithTop ℝ :=
  (List.range sizeR).foldl (fun m r =>
    if ((gdDistF rnd dim minmax plus pa (R r) : ℝ) : WithTop ℝ) < m then (gdDistF rnd dim minmax plus pa (R r) : WithTop ℝ) else m) ⊤

/-- `gd_common`, c/igd.h:57-98, for `p = 1`; `fsqrt` is `(double) sqrtl(...)`. -/
def gdCommonF (fsqrt : ℝ → ℝ) (dim : ℕ) (minmax : ℕ → ℤ) (A : ℕ → ℕ → ℝ) (sizeA : ℕ) (R : ℕ → ℕ → ℝ) (sizeR : ℕ) (plus : Bool) : WithTop ℝ :=
  if sizeA = 0 then ⊤
  else
    let gd := (List.range sizeA).foldl (fun (gd : WithTop ℝ) a =>
      WithTop.map rnd (gd + (gdMinF rnd dim minmax plus (A a) R sizeR).map fsqrt)) (0 : WithTop ℝ)
    gd.map (fun x => rnd (x / sizeA))

/-- `IGD`, c/igd.h:112-132. -/
def igdF (fsqrt : ℝ → ℝ) (data : ℕ → ℕ → ℝ) (nobj npoints : ℕ) (ref : ℕ → ℕ → ℝ) (refSize : ℕ) (maximise : ℕ → Bool) : WithTop ℝ :=
  gdCommonF rnd fsqrt nobj (minmaxFromBool maximise) ref refSize data npoints false

/-- `IGD_plus`, c/igd.h:158-179. -/
def igdPlusF (fsqrt : ℝ → ℝ) (data : ℕ → ℕ → ℝ) (nobj npoints : ℕ) (ref : ℕ → ℕ → ℝ) (refSize : ℕ) (maximise : ℕ → Bool) : WithTop ℝ :=
  gdCommonF rnd fsqrt nobj (minmaxFromBool maximise) ref refSize data npoints true

/-! ## c/eaf.h: percentiles -/

/-- `level2percentile`, c/eaf.h:147-152. -/
def level2percentileF (level n : ℤ) : ℝ := if level = n then 100 else rnd (rnd ((level : ℝ) * 100) / (n : ℝ))

/-- `percentile2level`, c/eaf.h:154-166; `tol` is `sqrt(DBL_EPSILON)`.  `none` = one of the assertions fails. -/
def percentile2levelF (tol p : ℝ) (n : ℤ) : Option ℤ :=
  let x := rnd (rnd ((n : ℝ) * p) / 100)
  let level : ℤ := if rnd (x - (⌊x⌋ : ℝ)) ≤ tol then ⌊x⌋ else ⌈x⌉
  if level ≤ n ∧ level ≥ 0 then some (if level < 1 then 1 else level) else none

/-- Entry `i - 1` of `all_percentiles`, c/eaf.h:185-191. -/
def allPercentilesF (n i : ℕ) : ℝ := rnd ((i : ℝ) * rnd (100 / (n : ℝ)))

/-! ## c/nondominated.h: `normalise` -/

/-- `diff[d]`, c/nondominated.h:350-354. -/
def normDiffF (lbound ubound : ℝ) : ℝ := if rnd (ubound - lbound) = 0 then 1 else rnd (ubound - lbound)

/-- One value of `normalise`, c/nondominated.h:347 and 358-363; `flip` is the test of lines 359-360. -/
def normaliseF (flip : Bool) (lowerRange upperRange lbound ubound x : ℝ) : ℝ :=
  let range := rnd (upperRange - lowerRange)
  if flip then rnd (lowerRange + rnd (rnd (range * rnd (ubound + x)) / normDiffF rnd lbound ubound))
  else rnd (lowerRange + rnd (rnd (range * rnd (x - lbound)) / normDiffF rnd lbound ubound))

/-- `agree_normalise`, c/nondominated.h:369-382, in floating point: `agree_objectives` (l. 328-337) changes signs exactly, then `normalise`. -/
def agreeNormaliseF (data : ℕ → ℕ → ℝ) (nobj npoint : ℕ) (maximise : ℕ → Bool) (lowerRange upperRange : ℝ)
    (lbound ubound : ℕ → ℝ) : ℕ → ℕ → ℝ :=
  let minmax := minmaxFromBool maximise
  let agreed := agreeObjectives data nobj npoint minmax AGREE_MINIMISE
  fun k d => if k < npoint ∧ d < nobj then
      normaliseF rnd (flipObjective AGREE_MINIMISE (minmax d)) lowerRange upperRange (lbound d) (ubound d) (agreed k d)
    else agreed k d

end

end Moo
