import Verif.Model.Hv

/-!
# Model of the hypervolume computation on the nodes of its balanced tree (c/hv.c)

The functions of `Verif/Model/Hv.lean` that use the tree, with the tree itself: the nodes, their `left`, `right`, `parent`, `next`, `prev` and `depth` fields, the
search from the root, insertion and removal with rotations (`Verif/Model/Avl.lean`; c/hv.c:131-489 is a copy of c/avl.c).

The tree node of list node `p` (`p->tnode`) is `p`, its item is the row of `p`; the tree node of the list head (number `0`) is never used, and `0` is `NULL`.
`tf` is the fuel of the functions of the tree.
-/

set_option autoImplicit false

namespace Moo

variable {K : Type*} [CommRing K] [LinearOrder K]

/-- The local variables of the loop of c/hv.c:971-979: `hypera`, `tnode`, the vectors `cur_ip` and `prv_ip`, and the tree. -/
structure HvPopVars (K : Type*) where
  hypera : K
  tnode : ℕ
  cur : ℕ → K
  prv : ℕ → K
  tree : AvlHeap

/-- c/hv.c:971-979, the loop that removes nodes from the tree.  `tnode->prev` is read after `tnode` has been removed, as in the program. -/
def hv3dTreePop (tf : ℕ) (x : ℕ → ℕ → K) (pp : ℕ) (nxt : ℕ → K) : ℕ → HvPopVars K → HvPopVars K
  | 0, v => v
  | fuel + 1, v =>
    if v.tree.prev v.tnode = 0 then v
    else
      let v := { v with prv := x (v.tree.prev v.tnode) }
      let v := { v with hypera := v.hypera - (v.prv 1 - v.cur 1) * (nxt 0 - v.cur 0) }
      if v.prv 0 < x pp 0 then v
      else
        let v := { v with cur := v.prv }
        let v := { v with tree := avlUnlinkNode tf v.tree v.tnode }
        hv3dTreePop tf x pp nxt fuel { v with tnode := v.tree.prev v.tnode }

/-- c/hv.c:948-993: the search for the place of `pp` in the tree, the insertion and the removal of the nodes that `pp` dominates.  Result: the tree and `hypera`;
`none` is the branch `pp->ignore = 2`, which changes neither. -/
def hv3dTreeUpdate (tf : ℕ) (x : ℕ → ℕ → K) (ref : ℕ → K) (h : AvlHeap) (pp : ℕ) (hypera : K) : Option (AvlHeap × K) :=
  let s := (avlSearchClosest tf h (fun n => compareTreeAsc (x pp) (x n))).getD (0, 0)
  let nt : (ℕ → K) × ℕ :=
    if s.2 ≤ 0 then (x s.1, h.prev s.1)
    else (if h.next s.1 ≠ 0 then x (h.next s.1) else ref, s.1)
  let nxt := nt.1
  let tnode := nt.2
  if nxt 0 > x pp 0 then
    let h := avlInsertAfter 3 tf h tnode pp
    let r : K × (ℕ → K) × AvlHeap :=
      if tnode ≠ 0 then
        if x tnode 0 > x pp 0 then
          let tnode := h.prev pp
          let v := hv3dTreePop tf x pp nxt tf ⟨hypera, tnode, x tnode, x tnode, h⟩
          let h := avlUnlinkNode tf v.tree v.tnode
          if h.prev v.tnode = 0 then (v.hypera - (ref 1 - v.cur 1) * (nxt 0 - v.cur 0), ref, h)
          else (v.hypera, v.prv, h)
        else (hypera, x tnode, h)
      else (hypera, ref, h)
    some (r.2.2, r.1 + (r.2.1 1 - x pp 1) * (nxt 0 - x pp 0))
  else none

/-- c/hv.c:941-1002, the `do … while` loop of `fpli_hv3d_ref` and `avl_clear_tree`. -/
def hv3dTreeLoop (tf : ℕ) (x : ℕ → ℕ → K) (ref : ℕ → K) : ℕ → ℕ → K → K → HvState K → K × HvState K
  | 0, _, _, hyperv, S => (hyperv, { S with tree := avlClearTree S.tree })
  | fuel + 1, pp, hypera, hyperv, S =>
    let height := if pp = S.prev 2 0 then ref 2 - x pp 2 else x (S.next 2 pp) 2 - x pp 2
    let r : K × K × HvState K :=
      if S.ignore pp ≥ 2 then (hypera, hyperv + hypera * height, S)
      else match hv3dTreeUpdate tf x ref S.tree pp hypera with
        | none => (hypera, if height > 0 then hyperv + hypera * height else hyperv, { S with ignore := upd S.ignore pp 2 })
        | some (h', hypera') => (hypera', if height > 0 then hyperv + hypera' * height else hyperv, { S with tree := h' })
    let pp' := S.next 2 pp
    if pp' = 0 then (r.2.1, { r.2.2 with tree := avlClearTree r.2.2.tree })
    else hv3dTreeLoop tf x ref fuel pp' r.1 r.2.1 r.2.2

/-- c/hv.c:924-1003 `fpli_hv3d_ref`. -/
def hv3dTreeRef (tf : ℕ) (x : ℕ → ℕ → K) (ref : ℕ → K) (c : ℕ) (S : HvState K) : K × HvState K :=
  let pp := S.next 2 0
  let hypera := (ref 0 - x pp 0) * (ref 1 - x pp 1)
  let height := if c = 1 then ref 2 - x pp 2 else x (S.next 2 pp) 2 - x pp 2
  let hyperv := hypera * height
  if S.next 2 pp = 0 then (hyperv, S)
  else hv3dTreeLoop tf x ref c (S.next 2 pp) hypera hyperv { S with tree := avlInsertTop S.tree pp }

/-- c/hv.c:1021-1081 `hv_recursive_ref` for `dim = k + 2`. -/
def hvTreeRec (tf : ℕ) (x : ℕ → ℕ → K) (ref : ℕ → K) : ℕ → ℕ → HvState K → K × HvState K
  | 0, c, S => hv3dTreeRef tf x ref c S
  | k + 1, c, S => hvLevel (hvTreeRec tf x ref k) x ref (k + 3) c S

/-- c/hv.c:1140-1167, `fpli_hv` for `d > 2`. -/
def fpliHvTreeN (tf : ℕ) (x : ℕ → ℕ → K) (d n : ℕ) (ref : ℕ → K) (ords : ℕ → List ℕ) (b0 : K) (mem : HvState K) : K :=
  let r := filterRef x ref d d n (setupCdllist ords d b0 { mem with tree := avlClearTree mem.tree })
  if r.1 = 0 then 0
  else if r.1 = 1 then boxProduct x ref (r.2.next 0 0) d
  else (hvTreeRec tf x ref (d - 3) r.1 r.2).1

/-- c/hv.c:1136-1167 `fpli_hv` on the nodes of the tree; the functions of the tree may run for `n + 3` steps of every loop. -/
def fpliHvTree (pts : ℕ → ℕ → K) (d n : ℕ) (ref : ℕ → K) (env : HvEnv K) : K :=
  if n = 0 then 0
  else if d = 2 then hv2d pts env.ps ref
  else fpliHvTreeN (n + 3) (nodeTable pts) d n ref env.ords env.b0 env.mem

end Moo
