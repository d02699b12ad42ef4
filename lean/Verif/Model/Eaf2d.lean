import Verif.Model.Basic
import Mathlib.Order.Defs.LinearOrder
import Mathlib.Algebra.Order.Ring.Int

/-!
# Model of `eaf2d`, c/eaf.c:292-433

The data is a table `pts`, row `k` being the point at `data + nobj * k`; the arrays of pointers `datax` and `datay` hold row numbers.
Objective values are elements of a linear order (no NaN).  An access outside of an array, a failed assertion and a loop
that takes more than `fuel` iterations give `none`.
-/

set_option autoImplicit false

namespace Moo

/-- The loop that fills `runtab`, c/eaf.c:338-342: the value of `j` when `runtab[k]` is written. -/
def eafRuntab (cumsize : ℕ → ℕ) : ℕ → ℕ
  | 0 => if 0 = cumsize 0 then 1 else 0
  | k + 1 => if k + 1 = cumsize (eafRuntab cumsize k) then eafRuntab cumsize k + 1 else eafRuntab cumsize k

section
variable {α : Type*} [LinearOrder α]

/-- `compare_x_asc`, c/eaf.c:49-55. -/
def compareXasc (a b : ℕ → α) : ℤ := if a 0 < b 0 then -1 else if a 0 > b 0 then 1 else 0

/-- `compare_y_desc`, c/eaf.c:57-64. -/
def compareYdesc (a b : ℕ → α) : ℤ := if a 1 > b 1 then -1 else if a 1 < b 1 then 1 else 0

/-- What the sweep reads: the number of points and of runs, the data, the run of each row (`runtab`), the sorted arrays and the level. -/
structure EafIn (α : Type*) where
  n : ℕ
  nruns : ℕ
  pts : ℕ → ℕ → α
  run : ℕ → ℕ
  datax : ℕ → ℕ
  datay : ℕ → ℕ
  level : ℤ

/-- `datax[i][0]`. -/
def EafIn.X (E : EafIn α) (i : ℕ) : α := E.pts (E.datax i) 0
/-- `datay[i][1]`. -/
def EafIn.Y (E : EafIn α) (i : ℕ) : α := E.pts (E.datay i) 1

/-- The variables of the sweep: `x`, `y`, `attained`, `nattained`. -/
structure EafSt where
  x : ℕ
  y : ℕ
  att : ℕ → ℤ
  natt : ℤ

/-- c/eaf.c:376-382, the loop that moves right. -/
def eafRight (E : EafIn α) : ℕ → EafSt → Option EafSt
  | 0, _ => none
  | fuel + 1, s =>
    if s.x < E.n - 1 ∧ (s.natt < E.level ∨ E.X s.x = E.X (s.x + 1)) then
      let x := s.x + 1
      if ¬ s.y < E.n then none
      else if E.pts (E.datax x) 1 ≤ E.Y s.y then
        let run := E.run (E.datax x)
        if ¬ run < E.nruns then none
        else
          let natt := if s.att run = 0 then s.natt + 1 else s.natt
          eafRight E fuel ⟨x, s.y, upd s.att run (s.att run + 1), natt⟩
      else eafRight E fuel ⟨x, s.y, s.att, s.natt⟩
    else some s

/-- c/eaf.c:402-414, the inner loop that moves down over one group of equal values. -/
def eafDownGroup (E : EafIn α) : ℕ → EafSt → Option EafSt
  | 0, _ => none
  | fuel + 1, s =>
    if ¬ (s.y < E.n ∧ s.x < E.n) then none
    else
      let run := E.run (E.datay s.y)
      if ¬ run < E.nruns then none
      else
        let s' : EafSt :=
          if E.pts (E.datay s.y) 0 ≤ E.X s.x then
            let att := upd s.att run (s.att run - 1)
            ⟨s.x, s.y + 1, att, if att run = 0 then s.natt - 1 else s.natt⟩
          else ⟨s.x, s.y + 1, s.att, s.natt⟩
        if s'.y < E.n ∧ E.Y s'.y = E.Y (s'.y - 1) then eafDownGroup E fuel s' else some s'

/-- c/eaf.c:396-415, the loop that moves down until the level is no longer reached.  Returns the state and `save_attained`. -/
def eafDown (E : EafIn α) : ℕ → EafSt → Option (EafSt × (ℕ → ℤ))
  | 0, _ => none
  | fuel + 1, s =>
    match eafDownGroup E fuel s with
    | none => none
    | some s' => if s'.natt ≥ E.level ∧ s'.y < E.n then eafDown E fuel s' else some (s', s.att)

/-- c/eaf.c:374-422, the main loop.  The result is the list of the arguments of the calls of `eaf_store_point_2d`: the two coordinates and
the array `save_attained`. -/
def eafSweep (E : EafIn α) : ℕ → EafSt → List (α × α × (ℕ → ℤ)) → Option (List (α × α × (ℕ → ℤ)))
  | 0, _, _ => none
  | fuel + 1, s, out =>
    match eafRight E fuel s with
    | none => none
    | some s =>
      if s.natt < E.level then
        if s.x < E.n - 1 ∧ s.y < E.n then eafSweep E fuel s out else some out
      else
        match eafDown E fuel s with
        | none => none
        | some (s, save) =>
          if ¬ s.natt < E.level then none                                   -- c/eaf.c:417
          else
            let out := out ++ [(E.X s.x, E.Y (s.y - 1), save)]
            if s.x < E.n - 1 ∧ s.y < E.n then eafSweep E fuel s out else some out

/-- c/eaf.c:359-372, one level: the initial state, then the main loop. -/
def eafLevel (E : EafIn α) (fuel : ℕ) : Option (List (α × α × (ℕ → ℤ))) :=
  if ¬ 0 < E.n then none
  else
    let run := E.run (E.datax 0)
    if ¬ run < E.nruns then none
    else eafSweep E fuel ⟨0, 0, upd (fun _ => 0) run (0 + 1), 1⟩ []

/-- `eaf2d`, c/eaf.c:292-433, for the outputs `sx` and `sy` of the two calls of `qsort`; the memory management of `eaf_t` is
modelled in Verif/Model/EafStore.lean. -/
def eaf2d (pts : ℕ → ℕ → α) (cumsize : ℕ → ℕ) (nruns : ℕ) (attlevel : List ℤ) (sx sy : List ℕ) (fuel : ℕ) :
    Option (List (List (α × α × (ℕ → ℤ)))) :=
  attlevel.mapM fun level =>
    eafLevel ⟨cumsize (nruns - 1), nruns, pts, eafRuntab cumsize, (fun i => sx.getD i 0), (fun i => sy.getD i 0), level⟩ fuel

/-- The possible contents of the array `datax` after `qsort`, c/eaf.c:326. -/
def EafSortedX (pts : ℕ → ℕ → α) (n : ℕ) (sx : List ℕ) : Prop :=
  Qsort (fun a b => compareXasc (pts a) (pts b)) (List.range n) sx

/-- The possible contents of the array `datay` after `qsort`, c/eaf.c:327. -/
def EafSortedY (pts : ℕ → ℕ → α) (n : ℕ) (sy : List ℕ) : Prop :=
  Qsort (fun a b => compareYdesc (pts a) (pts b)) (List.range n) sy

end

end Moo
