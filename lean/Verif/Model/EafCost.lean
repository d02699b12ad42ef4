import Verif.Model.Eaf2d
import Verif.Model.EafStore
import Mathlib.Analysis.SpecialFunctions.Pow.Real

/-!
# Model of the running time of `eaf2d`, c/eaf.c:292-433

The functions of Verif/Model/Eaf2d.lean with a counter.  A step is one evaluation of a loop condition or one element copied or set in an array of `nruns` elements
(`attained`, `save_attained`, the bits of a stored point).  The two calls of `qsort` and `malloc` are not counted; the number of calls of `realloc` is in `nreallocs`
of Verif/Model/EafStore.lean.
-/

set_option autoImplicit false

namespace Moo

section
variable {α : Type*} [LinearOrder α]

/-- `eafRight`, c/eaf.c:376-382: one step for every evaluation of the condition of the loop. -/
def eafRightC (E : EafIn α) : ℕ → EafSt → Option (EafSt × ℕ)
  | 0, _ => none
  | fuel + 1, s =>
    if s.x < E.n - 1 ∧ (s.natt < E.level ∨ E.X s.x = E.X (s.x + 1)) then
      let x := s.x + 1
      if ¬ s.y < E.n then none
      else if E.pts (E.datax x) 1 ≤ E.Y s.y then
        let run := E.run (E.datax x)
        if ¬ run < E.nruns then none
        else
          let natt := if s.att run = 0 then s.natt + 1 else s.natt
          (eafRightC E fuel ⟨x, s.y, upd s.att run (s.att run + 1), natt⟩).map (fun r => (r.1, r.2 + 1))
      else (eafRightC E fuel ⟨x, s.y, s.att, s.natt⟩).map (fun r => (r.1, r.2 + 1))
    else some (s, 1)

/-- `eafDownGroup`, c/eaf.c:402-414: one step for every iteration. -/
def eafDownGroupC (E : EafIn α) : ℕ → EafSt → Option (EafSt × ℕ)
  | 0, _ => none
  | fuel + 1, s =>
    if ¬ (s.y < E.n ∧ s.x < E.n) then none
    else
      let run := E.run (E.datay s.y)
      if ¬ run < E.nruns then none
      else
        let s' : EafSt :=
          if E.pts (E.datay s.y) 0 ≤ E.X s.x then
            let att := upd s.att run (s.att run - 1)
            ⟨s.x, s.y + 1, att, if att run = 0 then s.natt - 1 else s.natt⟩
          else ⟨s.x, s.y + 1, s.att, s.natt⟩
        if s'.y < E.n ∧ E.Y s'.y = E.Y (s'.y - 1) then (eafDownGroupC E fuel s').map (fun r => (r.1, r.2 + 1)) else some (s', 1)

/-- `eafDown`, c/eaf.c:396-415: `nruns` steps for the `memcpy` of line 400, one for the condition. -/
def eafDownC (E : EafIn α) : ℕ → EafSt → Option ((EafSt × (ℕ → ℤ)) × ℕ)
  | 0, _ => none
  | fuel + 1, s =>
    match eafDownGroupC E fuel s with
    | none => none
    | some (s', c) =>
      if s'.natt ≥ E.level ∧ s'.y < E.n then (eafDownC E fuel s').map (fun r => (r.1, r.2 + (E.nruns + c + 1))) else some ((s', s.att), E.nruns + c + 1)

/-- `eafSweep`, c/eaf.c:374-422: one step for the condition, `nruns` for the bits of a stored point (c/eaf.c:140-142). -/
def eafSweepC (E : EafIn α) : ℕ → EafSt → List (α × α × (ℕ → ℤ)) → Option (List (α × α × (ℕ → ℤ)) × ℕ)
  | 0, _, _ => none
  | fuel + 1, s, out =>
    match eafRightC E fuel s with
    | none => none
    | some (s, c1) =>
      if s.natt < E.level then
        if s.x < E.n - 1 ∧ s.y < E.n then (eafSweepC E fuel s out).map (fun r => (r.1, r.2 + (c1 + 1))) else some (out, c1 + 1)
      else
        match eafDownC E fuel s with
        | none => none
        | some ((s, save), c2) =>
          if ¬ s.natt < E.level then none
          else
            let out := out ++ [(E.X s.x, E.Y (s.y - 1), save)]
            if s.x < E.n - 1 ∧ s.y < E.n then (eafSweepC E fuel s out).map (fun r => (r.1, r.2 + (c1 + c2 + E.nruns + 1)))
            else some (out, c1 + c2 + E.nruns + 1)

/-- `eafLevel`, c/eaf.c:359-372: `nruns` steps to clear `attained`. -/
def eafLevelC (E : EafIn α) (fuel : ℕ) : Option (List (α × α × (ℕ → ℤ)) × ℕ) :=
  if ¬ 0 < E.n then none
  else
    let run := E.run (E.datax 0)
    if ¬ run < E.nruns then none
    else (eafSweepC E fuel ⟨0, 0, upd (fun _ => 0) run (0 + 1), 1⟩ []).map (fun r => (r.1, r.2 + E.nruns))

/-- The loop over the levels, c/eaf.c:359-424. -/
def eafLevelsC (pts : ℕ → ℕ → α) (cumsize : ℕ → ℕ) (nruns : ℕ) (sx sy : List ℕ) (fuel : ℕ) : List ℤ → Option (List (List (α × α × (ℕ → ℤ))) × ℕ)
  | [] => some ([], 0)
  | level :: levels =>
    match eafLevelC ⟨cumsize (nruns - 1), nruns, pts, eafRuntab cumsize, (fun i => sx.getD i 0), (fun i => sy.getD i 0), level⟩ fuel with
    | none => none
    | some (out, c) => (eafLevelsC pts cumsize nruns sx sy fuel levels).map (fun r => (out :: r.1, r.2 + c))

/-- `eaf2d`, c/eaf.c:292-433: `ntotal` steps to fill `datax` and `datay` (lines 312-313) and `ntotal` for `runtab` (lines 338-342). -/
def eaf2dC (pts : ℕ → ℕ → α) (cumsize : ℕ → ℕ) (nruns : ℕ) (attlevel : List ℤ) (sx sy : List ℕ) (fuel : ℕ) :
    Option (List (List (α × α × (ℕ → ℤ))) × ℕ) :=
  (eafLevelsC pts cumsize nruns sx sy fuel attlevel).map (fun r => (r.1, r.2 + 2 * cumsize (nruns - 1)))

end

/-- c/eaf.c:131 in exact arithmetic: `(size_t) ((double) maxsize * (1.0 + 1.0 / pow(2, nreallocs / 4.0)))`, a value of `EafEnv.grow`. -/
noncomputable def eafGrow (nreallocs maxsize : ℕ) : ℕ := ⌊(maxsize : ℝ) * (1 + 1 / (2 : ℝ) ^ ((nreallocs : ℝ) / 4))⌋₊

end Moo
