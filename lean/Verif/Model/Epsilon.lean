import Verif.Model.Nondominated
import Mathlib.Algebra.Order.Field.Basic
import Mathlib.Order.WithBot

/-!
# Model of `c/epsilon.h`

Objective values are elements of an ordered field `K` (exact arithmetic).  The variables that may hold
`INFINITY` or `-INFINITY` are elements of `WithBot (WithTop K)`, i.e. `K` with both infinities.
-/

set_option autoImplicit false

namespace Moo

/-- `MAX`, c/common.h:64-83. -/
def cMax {β : Type*} [LinearOrder β] (x y : β) : β := if x > y then x else y

/-- `MIN`, c/common.h:64-84. -/
def cMin {β : Type*} [LinearOrder β] (x y : β) : β := if x < y then x else y

/-- finite values and the two infinities -/
abbrev Ext (K : Type*) := WithBot (WithTop K)

/-- a finite value -/
def fin {K : Type*} (x : K) : Ext K := ((x : WithTop K) : WithBot (WithTop K))

section
variable {K : Type*} [Field K] [LinearOrder K] [IsStrictOrderedRing K]

/-- `epsilon_temp` of `epsilon_additive_minmax`, c/epsilon.h:83-88. -/
def epsAddTemp (dir : ℤ) (a b : K) : K :=
  if dir < 0 then a - b else if dir > 0 then b - a else 0

/-- The loop over `d`, c/epsilon.h:80-90. -/
def epsAddMax (dim : ℕ) (minmax : ℕ → ℤ) (pa pb : ℕ → K) : Ext K :=
  (List.range dim).foldl (fun m d => cMax m (fin (epsAddTemp (minmax d) (pa d) (pb d)))) ⊥

/-- The loop over `a`, c/epsilon.h:78-92. -/
def epsAddMin (dim : ℕ) (minmax : ℕ → ℤ) (A : ℕ → ℕ → K) (sizeA : ℕ) (pb : ℕ → K) : Ext K :=
  (List.range sizeA).foldl (fun m a => cMin m (epsAddMax dim minmax (A a) pb)) ⊤

/-- `epsilon_additive_minmax`, c/epsilon.h:69-96. -/
def epsilonAdditiveMinmax (dim : ℕ) (minmax : ℕ → ℤ) (A : ℕ → ℕ → K) (sizeA : ℕ)
    (B : ℕ → ℕ → K) (sizeB : ℕ) : Ext K :=
  (List.range sizeB).foldl (fun m b => cMax m (epsAddMin dim minmax A sizeA (B b))) ⊥

/-- `epsilon_additive`, c/epsilon.h:98-106. -/
def epsilonAdditive (data : ℕ → ℕ → K) (nobj npoints : ℕ) (ref : ℕ → ℕ → K) (refSize : ℕ)
    (maximise : ℕ → Bool) : Ext K :=
  epsilonAdditiveMinmax nobj (minmaxFromBool maximise) data npoints ref refSize

/-- `epsilon_additive_ind`, c/epsilon.h:119-137. -/
def epsilonAdditiveInd (dim : ℕ) (minmax : ℕ → ℤ) (A : ℕ → ℕ → K) (sizeA : ℕ)
    (B : ℕ → ℕ → K) (sizeB : ℕ) : ℤ :=
  let ab := epsilonAdditiveMinmax dim minmax A sizeA B sizeB
  let ba := epsilonAdditiveMinmax dim minmax B sizeB A sizeA
  if ab ≤ fin 0 ∧ ba > fin 0 then -1
  else if ab > fin 0 ∧ ba ≤ fin 0 then 1
  else 0

/-- `epsilon_temp` of `epsilon_mult_minmax`, c/epsilon.h:50-55. -/
def epsMultTemp (dir : ℤ) (a b : K) : K :=
  if dir < 0 then a / b else if dir > 0 then b / a else 1

/-- The loop over `d`, c/epsilon.h:45-61; `none` is `fatal_error` (l. 48 or 58). -/
def epsMultMax (minmax : ℕ → ℤ) (pa pb : ℕ → K) : List ℕ → Ext K → Option (Ext K)
  | [], m => some m
  | d :: ds, m =>
    if pa d ≤ 0 ∨ pb d ≤ 0 then none
    else
      let t := epsMultTemp (minmax d) (pa d) (pb d)
      if t < 0 then none
      else epsMultMax minmax pa pb ds (cMax m (fin t))

/-- The loop over `a`, c/epsilon.h:42-63; the list holds the remaining values of `a`. -/
def epsMultMin (dim : ℕ) (minmax : ℕ → ℤ) (A : ℕ → ℕ → K) (pb : ℕ → K) :
    List ℕ → Ext K → Option (Ext K)
  | [], m => some m
  | a :: as, m => match epsMultMax minmax (A a) pb (List.range dim) (fin 0) with
    | none => none
    | some mx => epsMultMin dim minmax A pb as (cMin m mx)

/-- The loop over `b`, c/epsilon.h:41-65. -/
def epsMultOuter (dim : ℕ) (minmax : ℕ → ℤ) (A : ℕ → ℕ → K) (sizeA : ℕ) (B : ℕ → ℕ → K) :
    List ℕ → Ext K → Option (Ext K)
  | [], m => some m
  | b :: bs, m => match epsMultMin dim minmax A (B b) (List.range sizeA) ⊤ with
    | none => none
    | some mn => epsMultOuter dim minmax A sizeA B bs (cMax m mn)

/-- `epsilon_mult_minmax`, c/epsilon.h:33-67; `none` is `fatal_error`. -/
def epsilonMultMinmax (dim : ℕ) (minmax : ℕ → ℤ) (A : ℕ → ℕ → K) (sizeA : ℕ)
    (B : ℕ → ℕ → K) (sizeB : ℕ) : Option (Ext K) :=
  epsMultOuter dim minmax A sizeA B (List.range sizeB) (fin 0)

/-- `epsilon_mult`, c/epsilon.h:107-115. -/
def epsilonMult (data : ℕ → ℕ → K) (nobj npoints : ℕ) (ref : ℕ → ℕ → K) (refSize : ℕ)
    (maximise : ℕ → Bool) : Option (Ext K) :=
  epsilonMultMinmax nobj (minmaxFromBool maximise) data npoints ref refSize

end

end Moo
