import Verif.Model.Igd
import Verif.Model.NdMem

/-!
# Model of `c/epsilon.h` and `c/igd.h` with NaN and infinities in the data

A double is NaN (`none`), an infinity or a finite value (`Ext`).  Arithmetic on finite values is exact; an operation without a result in IEEE 754
(`inf - inf`, `inf / inf`) gives NaN, every operation with a NaN gives NaN, and every comparison with NaN is false (`ieeeCmp`).
Not modelled here: rounding and overflow (C89 - C99), signed zeros, the sign and payload of a NaN.
-/

set_option autoImplicit false
set_option linter.unusedSectionVars false

namespace Moo

/-- A double: NaN, an infinity or a finite value. -/
abbrev Dbl (K : Type) := Option (Ext K)

/-- `MAX`, c/common.h:64-83: `x > y ? x : y`. -/
def nanMax {β : Type} [LinearOrder β] (x y : Option β) : Option β := if (ieeeCmp β).lt y x then x else y

/-- `MIN`, c/common.h:64-84: `x < y ? x : y`. -/
def nanMin {β : Type} [LinearOrder β] (x y : Option β) : Option β := if (ieeeCmp β).lt x y then x else y

section
variable {K : Type} [Field K] [LinearOrder K] [IsStrictOrderedRing K]

/-- The finite value of a number that is not infinite. -/
def finVal (a : Ext K) : K := WithTop.untopD 0 (WithBot.unbotD ⊤ a)

/-- The difference of two numbers that are not NaN: NaN for infinities of the same sign. -/
def extSub (a b : Ext K) : Dbl K :=
  if (a = ⊤ ∧ b = ⊤) ∨ (a = ⊥ ∧ b = ⊥) then none
  else if a = ⊤ ∨ b = ⊥ then some ⊤
  else if a = ⊥ ∨ b = ⊤ then some ⊥
  else some (fin (finVal a - finVal b))

/-- The difference of two doubles. -/
def dblSub : Dbl K → Dbl K → Dbl K
  | some a, some b => extSub a b
  | _, _ => none

/-- The quotient of two doubles that are not NaN and greater than 0: NaN for two infinities. (Only such doubles are divided, c/epsilon.h:47-49.) -/
def extDiv (a b : Ext K) : Dbl K :=
  if a = ⊤ ∧ b = ⊤ then none
  else if a = ⊤ then some ⊤
  else if b = ⊤ then some (fin 0)
  else some (fin (finVal a / finVal b))

/-- The quotient of two doubles, each of them NaN or greater than 0. -/
def dblDiv : Dbl K → Dbl K → Dbl K
  | some a, some b => extDiv a b
  | _, _ => none

/-- `epsilon_temp` of `epsilon_additive_minmax`, c/epsilon.h:83-88. -/
def epsAddTempN (dir : ℤ) (a b : Dbl K) : Dbl K :=
  if dir < 0 then dblSub a b else if dir > 0 then dblSub b a else some (fin 0)

/-- The loop over `d`, c/epsilon.h:80-90. -/
def epsAddMaxN (dim : ℕ) (minmax : ℕ → ℤ) (pa pb : ℕ → Dbl K) : Dbl K :=
  (List.range dim).foldl (fun m d => nanMax m (epsAddTempN (minmax d) (pa d) (pb d))) (some ⊥)

/-- The loop over `a`, c/epsilon.h:78-92. -/
def epsAddMinN (dim : ℕ) (minmax : ℕ → ℤ) (A : ℕ → ℕ → Dbl K) (sizeA : ℕ) (pb : ℕ → Dbl K) : Dbl K :=
  (List.range sizeA).foldl (fun m a => nanMin m (epsAddMaxN dim minmax (A a) pb)) (some ⊤)

/-- `epsilon_additive_minmax`, c/epsilon.h:69-96. -/
def epsilonAdditiveMinmaxN (dim : ℕ) (minmax : ℕ → ℤ) (A : ℕ → ℕ → Dbl K) (sizeA : ℕ)
    (B : ℕ → ℕ → Dbl K) (sizeB : ℕ) : Dbl K :=
  (List.range sizeB).foldl (fun m b => nanMax m (epsAddMinN dim minmax A sizeA (B b))) (some ⊥)

/-- `epsilon_additive`, c/epsilon.h:98-106. -/
def epsilonAdditiveN (data : ℕ → ℕ → Dbl K) (nobj npoints : ℕ) (ref : ℕ → ℕ → Dbl K) (refSize : ℕ)
    (maximise : ℕ → Bool) : Dbl K :=
  epsilonAdditiveMinmaxN nobj (minmaxFromBool maximise) data npoints ref refSize

/-- `epsilon_temp` of `epsilon_mult_minmax`, c/epsilon.h:50-55. -/
def epsMultTempN (dir : ℤ) (a b : Dbl K) : Dbl K :=
  if dir < 0 then dblDiv a b else if dir > 0 then dblDiv b a else some (fin 1)

/-- The loop over `d`, c/epsilon.h:45-61; the outer `none` is `fatal_error` (l. 48 or 58). -/
def epsMultMaxN (minmax : ℕ → ℤ) (pa pb : ℕ → Dbl K) : List ℕ → Dbl K → Option (Dbl K)
  | [], m => some m
  | d :: ds, m =>
    if (ieeeCmp (Ext K)).le (pa d) (some (fin 0)) ∨ (ieeeCmp (Ext K)).le (pb d) (some (fin 0)) then none
    else
      let t := epsMultTempN (minmax d) (pa d) (pb d)
      if (ieeeCmp (Ext K)).lt t (some (fin 0)) then none
      else epsMultMaxN minmax pa pb ds (nanMax m t)

/-- The loop over `a`, c/epsilon.h:42-63; the list holds the remaining values of `a`. -/
def epsMultMinN (dim : ℕ) (minmax : ℕ → ℤ) (A : ℕ → ℕ → Dbl K) (pb : ℕ → Dbl K) :
    List ℕ → Dbl K → Option (Dbl K)
  | [], m => some m
  | a :: as, m => match epsMultMaxN minmax (A a) pb (List.range dim) (some (fin 0)) with
    | none => none
    | some mx => epsMultMinN dim minmax A pb as (nanMin m mx)

/-- The loop over `b`, c/epsilon.h:41-65. -/
def epsMultOuterN (dim : ℕ) (minmax : ℕ → ℤ) (A : ℕ → ℕ → Dbl K) (sizeA : ℕ) (B : ℕ → ℕ → Dbl K) :
    List ℕ → Dbl K → Option (Dbl K)
  | [], m => some m
  | b :: bs, m => match epsMultMinN dim minmax A (B b) (List.range sizeA) (some ⊤) with
    | none => none
    | some mn => epsMultOuterN dim minmax A sizeA B bs (nanMax m mn)

/-- `epsilon_mult`, c/epsilon.h:107-115 with `epsilon_mult_minmax`, c/epsilon.h:33-67; the outer `none` is `fatal_error`. -/
def epsilonMultN (data : ℕ → ℕ → Dbl K) (nobj npoints : ℕ) (ref : ℕ → ℕ → Dbl K) (refSize : ℕ)
    (maximise : ℕ → Bool) : Option (Dbl K) :=
  epsMultOuterN nobj (minmaxFromBool maximise) data npoints ref (List.range refSize) (some (fin 0))

end

noncomputable section

/-- `diff`, c/igd.h:75-77. -/
def gdDiffN (plus : Bool) (dir : ℤ) (a r : Dbl ℝ) : Dbl ℝ :=
  if !plus then dblSub r a else nanMax (if dir < 0 then dblSub r a else dblSub a r) (some (fin 0))

/-- `diff * diff`, c/igd.h:79: the square of an infinity is `INFINITY`. -/
def dblSq (x : Dbl ℝ) : Option (WithTop ℝ) :=
  x.map fun x => if x = ⊤ ∨ x = ⊥ then ⊤ else ((finVal x * finVal x : ℝ) : WithTop ℝ)

/-- The sum of two doubles that are NaN or not negative. -/
def dblAdd (x y : Option (WithTop ℝ)) : Option (WithTop ℝ) :=
  match x, y with
  | some x, some y => some (x + y)
  | _, _ => none

/-- `dist`, the loop over `d`, c/igd.h:70-80. -/
def gdDistN (dim : ℕ) (minmax : ℕ → ℤ) (plus : Bool) (pa pr : ℕ → Dbl ℝ) : Option (WithTop ℝ) :=
  (List.range dim).foldl (fun dist d =>
    if minmax d = 0 then dist
    else dblAdd dist (dblSq (gdDiffN plus (minmax d) (pa d) (pr d)))) (some 0)

/-- `min_dist` after the loop over `r`, c/igd.h:68-85. -/
def gdMinN (dim : ℕ) (minmax : ℕ → ℤ) (plus : Bool) (pa : ℕ → Dbl ℝ) (R : ℕ → ℕ → Dbl ℝ) (sizeR : ℕ) : Option (WithTop ℝ) :=
  (List.range sizeR).foldl (fun m r =>
    if (ieeeCmp (WithTop ℝ)).lt (gdDistN dim minmax plus pa (R r)) m then gdDistN dim minmax plus pa (R r) else m) (some ⊤)

/-- `gd_common`, c/igd.h:57-98, for `p ≥ 1`.
A function applied to NaN gives NaN and applied to `INFINITY` gives `INFINITY`, as `sqrtl` and `powl` with a positive exponent do. -/
def gdCommonN (dim : ℕ) (minmax : ℕ → ℤ) (A : ℕ → ℕ → Dbl ℝ) (sizeA : ℕ) (R : ℕ → ℕ → Dbl ℝ) (sizeR : ℕ)
    (plus psize : Bool) (p : ℕ) : Option (WithTop ℝ) :=
  if sizeA = 0 then some ⊤                                                     -- l. 63
  else
    let gd := (List.range sizeA).foldl (fun gd a =>
      let md := (gdMinN dim minmax plus (A a) R sizeR).map (WithTop.map Real.sqrt)                    -- l. 87
      dblAdd gd (if p = 1 then md else md.map (WithTop.map fun x => x ^ p))) (some 0)                 -- l. 89
    if p = 1 then gd.map (WithTop.map fun x => x / sizeA)                                             -- l. 93
    else if psize then gd.map (WithTop.map fun x => (x / sizeA) ^ ((1 : ℝ) / p))                      -- l. 95
    else gd.map (WithTop.map fun x => x ^ ((1 : ℝ) / p) / sizeA)                                      -- l. 97

/-- `GD_minmax`, c/igd.h:100-110. -/
def gdN (data : ℕ → ℕ → Dbl ℝ) (nobj npoints : ℕ) (ref : ℕ → ℕ → Dbl ℝ) (refSize : ℕ) (maximise : ℕ → Bool) : Option (WithTop ℝ) :=
  gdCommonN nobj (minmaxFromBool maximise) data npoints ref refSize false false 1

/-- `IGD`, c/igd.h:124-132 (with `IGD_minmax`, 112-122). -/
def igdN (data : ℕ → ℕ → Dbl ℝ) (nobj npoints : ℕ) (ref : ℕ → ℕ → Dbl ℝ) (refSize : ℕ) (maximise : ℕ → Bool) : Option (WithTop ℝ) :=
  gdCommonN nobj (minmaxFromBool maximise) ref refSize data npoints false false 1

/-- `IGD_plus`, c/igd.h:171-179 (with `IGD_plus_minmax`, 158-169). -/
def igdPlusN (data : ℕ → ℕ → Dbl ℝ) (nobj npoints : ℕ) (ref : ℕ → ℕ → Dbl ℝ) (refSize : ℕ) (maximise : ℕ → Bool) :
    Option (WithTop ℝ) :=
  gdCommonN nobj (minmaxFromBool maximise) ref refSize data npoints true true 1

/-- `avg_Hausdorff_dist`, c/igd.h:201-209 (with `avg_Hausdorff_dist_minmax`, 181-198). -/
def avgHausdorffDistN (data : ℕ → ℕ → Dbl ℝ) (nobj npoints : ℕ) (ref : ℕ → ℕ → Dbl ℝ) (refSize : ℕ) (maximise : ℕ → Bool)
    (p : ℕ) : Option (WithTop ℝ) :=
  nanMax (gdCommonN nobj (minmaxFromBool maximise) data npoints ref refSize false true p)
    (gdCommonN nobj (minmaxFromBool maximise) ref refSize data npoints false true p)

end

end Moo
