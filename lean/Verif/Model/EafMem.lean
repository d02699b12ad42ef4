import Verif.Model.NdMem

/-!
# Model of the memory accesses of `eaf2d` (c/eaf.c:292-433), for arbitrary doubles

The function modelled in `Eaf2d.lean` once more, with the blocks of memory of `NdMem.lean` (a load or store outside of a block and a load of a cell that was
never written are errors) and with arbitrary Boolean functions as the comparisons of doubles, so that the values may be NaN.  `qsort` may leave any permutation of its array.
Pointers to rows of `data` are row numbers.  `asserts` says whether `assert` is compiled in (no `-DNDEBUG`).  Not modelled here: `eaf_create`,
`eaf_store_point_2d` and `eaf_adjust_memory` (they do not look at the values, and are modelled in `EafStore.lean`); the points stored are the result.
-/

set_option autoImplicit false
set_option linter.unusedSectionVars false

namespace Moo

variable {F : Type}

/-- The loop that fills `runtab`, c/eaf.c:339-343; the list holds the remaining values of `k`. -/
def eafRuntabM (cumsize : Blk ℕ) : List ℕ → ℕ → Blk ℕ → Except MemErr (Blk ℕ)
  | [], _, rt => .ok rt
  | k :: ks, j, rt => do
    let c ← ldBlk cumsize j
    let j' := if k = c then j + 1 else j
    let rt ← stBlk rt k j'
    eafRuntabM cumsize ks j' rt

/-- What the sweep reads: the comparisons, whether assertions are checked, `ntotal`, `nruns`, `data`, `runtab`, `datax`, `datay`, `level`. -/
structure EafInM (F : Type) where
  c : FCmp F
  asserts : Bool
  n : ℕ
  nruns : ℕ
  pts : Blk F
  rt : Blk ℕ
  dx : Blk ℕ
  dy : Blk ℕ
  level : ℤ

/-- The variables of the sweep: `x`, `y`, `attained`, `nattained`. -/
structure EafStM where
  x : ℕ
  y : ℕ
  att : Blk ℤ
  natt : ℤ

/-- `datax[i][d]` or `datay[i][d]`, for the array `p` of pointers. -/
def EafInM.ld (E : EafInM F) (p : Blk ℕ) (i d : ℕ) : Except MemErr F := do
  let r ← ldBlk p i
  ldBlk E.pts (2 * r + d)

/-- The second half of the condition of the loop that moves right, c/eaf.c:378. -/
def eafGoM (E : EafInM F) (s : EafStM) : Except MemErr Bool :=
  if s.natt < E.level then .ok true
  else do
    let a ← E.ld E.dx s.x 0
    let b ← E.ld E.dx (s.x + 1) 0
    .ok (E.c.eq a b)

/-- c/eaf.c:376-385, the loop that moves right. -/
def eafRightM (E : EafInM F) : ℕ → EafStM → Except MemErr EafStM
  | 0, _ => .error .outOfFuel
  | fuel + 1, s =>
    if s.x < E.n - 1 then do
      let go ← eafGoM E s
      if go then do
        let a ← E.ld E.dx (s.x + 1) 1
        let b ← E.ld E.dy s.y 1
        if E.c.le a b then do
          let r ← ldBlk E.dx (s.x + 1)
          let run ← ldBlk E.rt r
          let v ← ldBlk s.att run
          let att ← stBlk s.att run (v + 1)
          eafRightM E fuel ⟨s.x + 1, s.y, att, if v = 0 then s.natt + 1 else s.natt⟩
        else eafRightM E fuel ⟨s.x + 1, s.y, s.att, s.natt⟩
      else .ok s
    else .ok s

/-- The body of the inner loop that moves down, c/eaf.c:403-413. -/
def eafLeaveM (E : EafInM F) (s : EafStM) : Except MemErr EafStM := do
  let a ← E.ld E.dy s.y 0
  let b ← E.ld E.dx s.x 0
  if E.c.le a b then do
    let r ← ldBlk E.dy s.y
    let run ← ldBlk E.rt r
    let v ← ldBlk s.att run
    let att ← stBlk s.att run (v - 1)
    .ok ⟨s.x, s.y + 1, att, if v - 1 = 0 then s.natt - 1 else s.natt⟩
  else .ok ⟨s.x, s.y + 1, s.att, s.natt⟩

/-- c/eaf.c:402-414, the inner loop that moves down over one group of equal values. -/
def eafDownGroupM (E : EafInM F) : ℕ → EafStM → Except MemErr EafStM
  | 0, _ => .error .outOfFuel
  | fuel + 1, s => do
    let s' ← eafLeaveM E s
    if s.y + 1 < E.n then do
      let a ← E.ld E.dy (s.y + 1) 1
      let b ← E.ld E.dy s.y 1
      if E.c.eq a b then eafDownGroupM E fuel s' else .ok s'
    else .ok s'

/-- c/eaf.c:396-415, the loop that moves down until the level is no longer reached; `save` is the block `save_attained`. -/
def eafDownM (E : EafInM F) : ℕ → EafStM → Blk ℤ → Except MemErr (EafStM × Blk ℤ)
  | 0, _, _ => .error .outOfFuel
  | fuel + 1, s, save => do
    let save ← cpBlk save s.att E.nruns
    let s' ← eafDownGroupM E fuel s
    if s'.natt ≥ E.level ∧ s'.y < E.n then eafDownM E fuel s' save else .ok (s', save)

/-- c/eaf.c:377-422, the main loop.  The result is the list of the arguments of the calls of `eaf_store_point_2d`: the two coordinates and a copy of the
block `save_attained` (of which `eaf_store_point_2d` reads the first `nruns` cells). -/
def eafSweepM (E : EafInM F) : ℕ → EafStM → Blk ℤ → List (F × F × Blk ℤ) → Except MemErr (List (F × F × Blk ℤ))
  | 0, _, _, _ => .error .outOfFuel
  | fuel + 1, s, save, out => do
    let s ← eafRightM E fuel s
    if s.natt < E.level then
      if s.x < E.n - 1 ∧ s.y < E.n then eafSweepM E fuel s save out else .ok out
    else do
      let r ← eafDownM E fuel s save
      let s := r.1
      if E.asserts && !decide (s.natt < E.level) then .error .assertion       -- l. 417
      else do
        let a ← E.ld E.dx s.x 0
        let b ← E.ld E.dy (s.y - 1) 1
        let out := out ++ [(a, b, r.2)]
        if s.x < E.n - 1 ∧ s.y < E.n then eafSweepM E fuel s r.2 out else .ok out

/-- c/eaf.c:359-423, one level.  (The blocks `attained` and `save_attained` are shared by the levels.  The first is overwritten with zeros at the start of each
level; the second is taken as freshly allocated for each level, so that a load of a value of the previous level would be an error here.) -/
def eafLevelM (E : EafInM F) (fuel : ℕ) : Except MemErr (List (F × F × Blk ℤ)) := do
  let att ← fillM (fun _ => (0 : ℤ)) (List.range E.nruns) (allocBlk E.nruns)
  let r ← ldBlk E.dx 0
  let run ← ldBlk E.rt r
  let v ← ldBlk att run
  let att ← stBlk att run (v + 1)
  eafSweepM E fuel ⟨0, 0, att, 1⟩ (allocBlk E.nruns) []

/-- The loop over the levels, c/eaf.c:359-424. -/
def eafLevelsM (E : EafInM F) (attlevel : Blk ℤ) (fuel : ℕ) : List ℕ → Except MemErr (List (List (F × F × Blk ℤ)))
  | [] => .ok []
  | l :: ls => do
    let level ← ldBlk attlevel l
    let r ← eafLevelM { E with level := level } fuel
    let rs ← eafLevelsM E attlevel fuel ls
    .ok (r :: rs)

/-- `eaf2d`, c/eaf.c:292-433; `sortX` and `sortY` are what `qsort` makes of the arrays of pointers. -/
def eaf2dM (c : FCmp F) (asserts : Bool) (sortX sortY : Blk F → List ℕ → List ℕ) (data : Blk F) (cumsize : Blk ℕ) (nruns : ℕ) (attlevel : Blk ℤ)
    (nlevels fuel : ℕ) : Except MemErr (List (List (F × F × Blk ℤ))) := do
  let n ← ldBlk cumsize (nruns - 1)
  let _ ← fillM (fun k => k) (List.range n) (allocBlk n)                      -- l. 315-316
  let dx := (sortX data (List.range n)).map some
  let dy := (sortY data (List.range n)).map some
  let rt ← eafRuntabM cumsize (List.range n) 0 (allocBlk n)
  eafLevelsM ⟨c, asserts, n, nruns, data, rt, dx, dy, 0⟩ attlevel fuel (List.range nlevels)

end Moo
