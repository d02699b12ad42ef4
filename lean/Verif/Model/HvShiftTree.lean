import Verif.Model.HvShift
import Verif.Model.HvTree

/-!
# Model of `fpli_hv_shift` on the nodes of its balanced tree (c/hv.c)

The functions of `Verif/Model/HvShift.lean` that use the tree, with the nodes of the tree.  The conventions are those of `Verif/Model/HvTree.lean`.
-/

set_option autoImplicit false

namespace Moo

variable {K : Type*} [CommRing K] [LinearOrder K]

/-- c/hv.c:659-667, the loop that removes nodes from the tree. -/
def hv3dTreePopZ (tf : ℕ) (x : ℕ → ℕ → K) (pp : ℕ) (nxt0 : K) : ℕ → HvPopVars K → HvPopVars K
  | 0, v => v
  | fuel + 1, v =>
    if v.tree.prev v.tnode = 0 then v
    else
      let v := { v with prv := x (v.tree.prev v.tnode) }
      let v := { v with hypera := v.hypera - (v.prv 1 - v.cur 1) * (nxt0 - v.cur 0) }
      if v.prv 0 < x pp 0 then v
      else
        let v := { v with cur := v.prv }
        let v := { v with tree := avlUnlinkNode tf v.tree v.tnode }
        hv3dTreePopZ tf x pp nxt0 fuel { v with tnode := v.tree.prev v.tnode }

/-- c/hv.c:638-685: the search for the place of `pp` in the tree, the insertion and the removal of the nodes that `pp` dominates.  Result: the tree and `hypera`;
`none` is the branch `pp->ignore = 2`, which changes neither. -/
def hv3dTreeUpdateZ (tf : ℕ) (x : ℕ → ℕ → K) (h : AvlHeap) (pp : ℕ) (hypera : K) : Option (AvlHeap × K) :=
  let s := (avlSearchClosest tf h (fun n => compareTreeAsc (x pp) (x n))).getD (0, 0)
  let nt : K × ℕ :=
    if s.2 ≤ 0 then (x s.1 0, h.prev s.1)
    else (if h.next s.1 ≠ 0 then x (h.next s.1) 0 else 0, s.1)
  let nxt0 := nt.1
  let tnode := nt.2
  if nxt0 > x pp 0 then
    let h := avlInsertAfter 3 tf h tnode pp
    let r : K × AvlHeap :=
      if tnode ≠ 0 then
        if x tnode 0 > x pp 0 then
          let tnode := h.prev pp
          let v := hv3dTreePopZ tf x pp nxt0 tf ⟨hypera, tnode, x tnode, x tnode, h⟩
          let h := avlUnlinkNode tf v.tree v.tnode
          if h.prev v.tnode = 0 then (v.hypera - -v.cur 1 * (nxt0 - v.cur 0) + -x pp 1 * (nxt0 - x pp 0), h)
          else (v.hypera + (v.prv 1 - x pp 1) * (nxt0 - x pp 0), h)
        else (hypera + (x tnode 1 - x pp 1) * (nxt0 - x pp 0), h)
      else (hypera + -x pp 1 * (nxt0 - x pp 0), h)
    some (r.2, r.1)
  else none

/-- c/hv.c:632-696, the `do … while` loop of `fpli_hv3d` and `avl_clear_tree`. -/
def hv3dTreeLoopZ (tf : ℕ) (x : ℕ → ℕ → K) : ℕ → ℕ → K → K → HvState K → K × HvState K
  | 0, _, _, hyperv, S => (hyperv, { S with tree := avlClearTree S.tree })
  | fuel + 1, pp, hypera, hyperv, S =>
    let height := if pp = S.prev 2 0 then -x pp 2 else x (S.next 2 pp) 2 - x pp 2
    let r : K × K × HvState K :=
      if S.ignore pp ≥ 2 then (hypera, hyperv + hypera * height, S)
      else match hv3dTreeUpdateZ tf x S.tree pp hypera with
        | none => (hypera, if height > 0 then hyperv + hypera * height else hyperv, { S with ignore := upd S.ignore pp 2 })
        | some (h', hypera') => (hypera', if height > 0 then hyperv + hypera' * height else hyperv, { S with tree := h' })
    let pp' := S.next 2 pp
    if pp' = 0 then (r.2.1, { r.2.2 with tree := avlClearTree r.2.2.tree })
    else hv3dTreeLoopZ tf x fuel pp' r.1 r.2.1 r.2.2

/-- c/hv.c:615-697 `fpli_hv3d`. -/
def hv3dTreeZ (tf : ℕ) (x : ℕ → ℕ → K) (c : ℕ) (S : HvState K) : K × HvState K :=
  let pp := S.next 2 0
  let hypera := x pp 0 * x pp 1
  let height := if c = 1 then -x pp 2 else x (S.next 2 pp) 2 - x pp 2
  let hyperv := hypera * height
  if S.next 2 pp = 0 then (hyperv, S)
  else hv3dTreeLoopZ tf x c (S.next 2 pp) hypera hyperv { S with tree := avlInsertTop S.tree pp }

/-- c/hv.c:713-773 `hv_recursive` for `dim = k + 2`. -/
def hvTreeRecZ (tf : ℕ) (x : ℕ → ℕ → K) : ℕ → ℕ → HvState K → K × HvState K
  | 0, c, S => hv3dTreeZ tf x c S
  | k + 1, c, S => hvLevelZ (hvTreeRecZ tf x k) x (k + 3) c S

/-- c/hv.c:889-922, `fpli_hv_shift` for `d ≠ 2`, after the shift. -/
def fpliHvShiftTreeN (tf : ℕ) (x : ℕ → ℕ → K) (d n : ℕ) (ords : ℕ → List ℕ) (b0 : K) (mem : HvState K) : K :=
  let r := filterZ x d d n (setupCdllist ords d b0 { mem with tree := avlClearTree mem.tree })
  if r.1 = 0 then 0
  else if r.1 = 1 then boxProductZ x (r.2.next 0 0) d
  else if d = 3 then (hv3dTreeZ tf x r.1 r.2).1
  else if d = 1 then -x (r.2.next 0 0) 0
  else (hvTreeRecZ tf x (d - 3) r.1 r.2).1

/-- c/hv.c:889-922 `fpli_hv_shift` on the nodes of the tree: the value and the data after the call; the functions of the tree may run for `n + 3` steps of every loop. -/
def fpliHvShiftTree (pts : ℕ → ℕ → K) (d n : ℕ) (ref : ℕ → K) (env : HvEnv K) : K × (ℕ → ℕ → K) :=
  if n = 0 then (0, pts)
  else if d = 2 then (hv2d pts env.ps ref, pts)
  else
    let data := shiftReference pts d n ref
    (fpliHvShiftTreeN (n + 3) (nodeTable data) d n env.ords env.b0 env.mem, data)

end Moo
