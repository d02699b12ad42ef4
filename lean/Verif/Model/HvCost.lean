import Verif.Model.AvlCost
import Verif.Model.HvMem
import Verif.Model.HvTree

/-!
# Running time of the hypervolume computation (c/hv.c)

The functions of `Verif/Model/HvMem.lean`, with the tree of `Verif/Model/HvTree.lean`, once more with a count of their steps.  One step is one iteration of a loop of the
program, or one call of a recursive function; between two steps the program executes straight-line code, a fixed number of elementary operations.  The `d` calls of
`qsort` in `setup_cdllist`, on `n` pointers each, are not counted: they are calls of the C library.  The parts without loops are taken from `Verif/Model/HvMem.lean`.
A run that makes a wrong memory access, or more iterations than its loop has nodes to visit, has no result.
-/

set_option autoImplicit false

namespace Moo

variable {K : Type} [CommRing K] [LinearOrder K]

/-- c/hv.c:557-568, in `setup_cdllist`: one step for each node of the list. -/
def memLinkFromT (n d j : ℕ) : ℕ → List ℕ → HvMem K → Tm (HvMem K)
  | a, [], M => Tm.lift (memLinkFrom n d j a [] M)
  | a, q :: qs, M => do
    tick
    let M ← Tm.lift (M.setNext n d j a q)
    let M ← Tm.lift (M.setPrev n d j q a)
    memLinkFromT n d j q qs M

/-- c/hv.c:554-569, the loop of `setup_cdllist` over the dimensions; the loop of lines 555-556 moves the data pointers of the `n` nodes. -/
def memLinkAllT (n d : ℕ) (ords : ℕ → List ℕ) : ℕ → HvMem K → Tm (HvMem K)
  | 0, M => Tm.ret M
  | m + 1, M => do
    tick
    ticks n
    let M ← memLinkFromT n d m 0 (ords m) M
    memLinkAllT n d ords m M

/-- c/hv.c:527-581 `setup_cdllist` and 1158-1159.  The loops of lines 541-548, 551-552, 572-574 over the nodes, and of lines 576-577 and 1159 over the dimensions, are
counted and written as their effect. -/
def memSetupT (n d : ℕ) (ords : ℕ → List ℕ) (b0 : K) : Tm (HvMem K) := do
  ticks n
  ticks n
  let M ← memLinkAllT n d ords d
    { next := fun _ _ => none, prev := fun _ _ => none, ignore := fun p => if p ≤ n then some 0 else none
      area := fun i p => if p = 0 ∧ i < d then some 0 else none, vol := fun _ _ => none
      bound := fun i => if i < d then some b0 else none }
  ticks n
  ticks d
  ticks d
  Tm.ret M

/-- c/hv.c:593-603 `delete`: the loop over `i = 2, …, 2 + m - 1`. -/
def memDeleteLoopT (x : ℕ → ℕ → K) (n d p : ℕ) : ℕ → HvMem K → Tm (HvMem K)
  | 0, M => Tm.ret M
  | m + 1, M => do
    let M ← memDeleteLoopT x n d p m M
    tick
    Tm.lift (memDeleteStep x n d p (2 + m) M)

/-- c/hv.c:605-613 `reinsert`: the loop over `i = 2, …, 2 + m - 1`. -/
def memReinsertLoopT (x : ℕ → ℕ → K) (n d p : ℕ) : ℕ → HvMem K → Tm (HvMem K)
  | 0, M => Tm.ret M
  | m + 1, M => do
    let M ← memReinsertLoopT x n d p m M
    tick
    Tm.lift (memReinsertStep x n d p (2 + m) M)

/-- c/hv.c:971-979, the loop that removes nodes from the tree. -/
def hv3dTreePopT (tf : ℕ) (x : ℕ → ℕ → K) (pp : ℕ) (nxt : ℕ → K) : ℕ → HvPopVars K → Tm (HvPopVars K)
  | 0, _ => Tm.fail
  | fuel + 1, v =>
    if v.tree.prev v.tnode = 0 then Tm.ret v
    else do
      tick
      let v := { v with prv := x (v.tree.prev v.tnode) }
      let v := { v with hypera := v.hypera - (v.prv 1 - v.cur 1) * (nxt 0 - v.cur 0) }
      if v.prv 0 < x pp 0 then Tm.ret v
      else do
        let v := { v with cur := v.prv }
        let h ← avlUnlinkNodeT tf v.tree v.tnode
        let v := { v with tree := h }
        hv3dTreePopT tf x pp nxt fuel { v with tnode := v.tree.prev v.tnode }

/-- c/hv.c:948-993: the search for the place of `pp` in the tree, the insertion and the removal of the nodes that `pp` dominates. -/
def hv3dTreeUpdateT (tf : ℕ) (x : ℕ → ℕ → K) (ref : ℕ → K) (h : AvlHeap) (pp : ℕ) (hypera : K) : Tm (Option (AvlHeap × K)) := do
  let s ← avlSearchClosestT tf h (fun n => compareTreeAsc (x pp) (x n))
  let nt : (ℕ → K) × ℕ :=
    if s.2 ≤ 0 then (x s.1, h.prev s.1)
    else (if h.next s.1 ≠ 0 then x (h.next s.1) else ref, s.1)
  let nxt := nt.1
  let tnode := nt.2
  if nxt 0 > x pp 0 then do
    let h ← avlInsertAfterT 3 tf h tnode pp
    let r : K × (ℕ → K) × AvlHeap ←
      (if tnode ≠ 0 then
        if x tnode 0 > x pp 0 then do
          let tnode := h.prev pp
          let v ← hv3dTreePopT tf x pp nxt tf ⟨hypera, tnode, x tnode, x tnode, h⟩
          let h ← avlUnlinkNodeT tf v.tree v.tnode
          if h.prev v.tnode = 0 then Tm.ret (v.hypera - (ref 1 - v.cur 1) * (nxt 0 - v.cur 0), ref, h)
          else Tm.ret (v.hypera, v.prv, h)
        else Tm.ret (hypera, x tnode, h)
      else Tm.ret (hypera, ref, h))
    Tm.ret (some (r.2.2, r.1 + (r.2.1 1 - x pp 1) * (nxt 0 - x pp 0)))
  else Tm.ret none

/-- c/hv.c:945-996, the body of the loop of `fpli_hv3d_ref` after the height. -/
def memHv3dBodyT (tf : ℕ) (x : ℕ → ℕ → K) (ref : ℕ → K) (n : ℕ) (pp : ℕ) (h : AvlHeap) (hypera hyperv height : K) (M : HvMem K) :
    Tm (AvlHeap × K × K × HvMem K) := do
  let ig ← Tm.lift (M.ignore pp)
  if ig ≥ 2 then Tm.ret (h, hypera, hyperv + hypera * height, M)
  else do
    let u ← hv3dTreeUpdateT tf x ref h pp hypera
    match u with
    | none => do
      let M ← Tm.lift (M.setIgnore n pp 2)
      Tm.ret (h, hypera, if height > 0 then hyperv + hypera * height else hyperv, M)
    | some (h', hypera') => Tm.ret (h', hypera', if height > 0 then hyperv + hypera' * height else hyperv, M)

/-- c/hv.c:941-1002, the `do … while` loop of `fpli_hv3d_ref` and `avl_clear_tree`. -/
def memHv3dLoopT (tf : ℕ) (x : ℕ → ℕ → K) (ref : ℕ → K) (n d : ℕ) : ℕ → ℕ → AvlHeap → K → K → HvMem K → Tm (K × HvMem K × AvlHeap)
  | 0, _, _, _, _, _ => Tm.fail
  | fuel + 1, pp, h, hypera, hyperv, M => do
    tick
    let last ← Tm.lift (M.prev 2 0)
    let height ← Tm.lift (memHeight x ref n d (decide (pp = last)) pp M)
    let r ← memHv3dBodyT tf x ref n pp h hypera hyperv height M
    let pp' ← Tm.lift (r.2.2.2.next 2 pp)
    if pp' = 0 then Tm.ret (r.2.2.1, r.2.2.2, avlClearTree r.1)
    else memHv3dLoopT tf x ref n d fuel pp' r.1 r.2.1 r.2.2.1 r.2.2.2

/-- c/hv.c:924-1003 `fpli_hv3d_ref`; one step for the call. -/
def memHv3dRefT (tf : ℕ) (x : ℕ → ℕ → K) (ref : ℕ → K) (n d c : ℕ) (M : HvMem K) (h : AvlHeap) : Tm (K × HvMem K × AvlHeap) := do
  tick
  let pp ← Tm.lift (M.next 2 0)
  let r0 ← Tm.lift (rdRef ref d 0)
  let x0 ← Tm.lift (rdData x n d pp 0)
  let r1 ← Tm.lift (rdRef ref d 1)
  let x1 ← Tm.lift (rdData x n d pp 1)
  let height ← Tm.lift (memHeight x ref n d (decide (c = 1)) pp M)
  let q ← Tm.lift (M.next 2 pp)
  if q = 0 then Tm.ret ((r0 - x0) * (r1 - x1) * height, M, h)
  else memHv3dLoopT tf x ref n d c q (avlInsertTop h pp) ((r0 - x0) * (r1 - x1)) ((r0 - x0) * (r1 - x1) * height) M

/-- c/hv.c:1009-1019 `skip_or_recurse_ref`; `rec` is `hv_recursive_ref` for `dim - 1`. -/
def memSkipT (rec : ℕ → HvMem K → AvlHeap → Tm (K × HvMem K × AvlHeap)) (n d dim c p : ℕ) (M : HvMem K) (h : AvlHeap) : Tm (HvMem K × AvlHeap) := do
  let ig ← Tm.lift (M.ignore p)
  if ig ≥ dim then do
    let q ← Tm.lift (M.prev dim p)
    let a ← Tm.lift (M.area dim q)
    let M ← Tm.lift (M.setArea n d dim p a)
    Tm.ret (M, h)
  else do
    let r ← rec c M h
    let M ← Tm.lift (r.2.1.setArea n d dim p r.1)
    let a ← Tm.lift (M.area dim p)
    let q ← Tm.lift (M.prev dim p)
    let b ← Tm.lift (M.area dim q)
    if a ≤ b then do
      let M ← Tm.lift (M.setIgnore n p dim)
      Tm.ret (M, r.2.2)
    else Tm.ret (M, r.2.2)

/-- c/hv.c:1033-1036, the loop that resets the marks of lower dimensions. -/
def memResetT (n dim : ℕ) : ℕ → ℕ → HvMem K → Tm (HvMem K)
  | 0, pp, M => if pp = 0 then Tm.ret M else Tm.fail
  | fuel + 1, pp, M =>
    if pp = 0 then Tm.ret M
    else do
      tick
      let ig ← Tm.lift (M.ignore pp)
      let M ← Tm.lift (if ig < dim then M.setIgnore n pp 0 else some M)
      let q ← Tm.lift (M.prev dim pp)
      memResetT n dim fuel q M

/-- c/hv.c:1037-1048, the loop that deletes nodes from the end of the list. -/
def memDelLoopT (x : ℕ → ℕ → K) (n d dim : ℕ) : ℕ → ℕ → ℕ → HvMem K → Tm (ℕ × ℕ × ℕ × HvMem K)
  | 0, _, _, _ => Tm.fail
  | c + 1, p0, p1, M => do
    let b ← Tm.lift (memDelCond x n d dim c p1 M)
    if b then do
      tick
      let M ← memDeleteLoopT x n d p1 (dim - 2) M
      let q ← Tm.lift (M.prev dim p1)
      memDelLoopT x n d dim c p1 q M
    else Tm.ret (c + 1, p0, p1, M)

/-- c/hv.c:1055-1057, the products of the sides of the box of `p1`. -/
def memAreaInitT (x : ℕ → ℕ → K) (ref : ℕ → K) (n d p1 : ℕ) : ℕ → HvMem K → Tm (HvMem K)
  | 0, M => Tm.lift (M.setArea n d 0 p1 1)
  | m + 1, M => do
    let M ← memAreaInitT x ref n d p1 m M
    tick
    let a ← Tm.lift (M.area m p1)
    let r ← Tm.lift (rdRef ref d m)
    let v ← Tm.lift (rdData x n d p1 m)
    Tm.lift (M.setArea n d (m + 1) p1 (a * (r - v)))

/-- c/hv.c:1062-1071, the loop that inserts the deleted nodes again. -/
def memMainLoopT (rec : ℕ → HvMem K → AvlHeap → Tm (K × HvMem K × AvlHeap)) (x : ℕ → ℕ → K) (n d dim : ℕ) :
    ℕ → ℕ → ℕ → ℕ → K → HvMem K → AvlHeap → Tm (K × ℕ × HvMem K × AvlHeap)
  | 0, _, p0, p1, hyperv, M, h => if p0 = 0 then Tm.ret (hyperv, p1, M, h) else Tm.fail
  | fuel + 1, c, p0, p1, hyperv, M, h =>
    if p0 = 0 then Tm.ret (hyperv, p1, M, h)
    else do
      tick
      let a ← Tm.lift (M.area dim p1)
      let v0 ← Tm.lift (rdData x n d p0 dim)
      let v1 ← Tm.lift (rdData x n d p1 dim)
      let M ← Tm.lift (M.setBound d dim v0)
      let M ← memReinsertLoopT x n d p0 (dim - 2) M
      let q ← Tm.lift (M.next dim p0)
      let M ← Tm.lift (M.setVol n d dim p0 (hyperv + a * (v0 - v1)))
      let s ← memSkipT rec n d dim (c + 1) p0 M h
      memMainLoopT rec x n d dim fuel (c + 1) q p0 (hyperv + a * (v0 - v1)) s.1 s.2

/-- c/hv.c:1050-1060, the volume below `p1`, with `c` nodes left in the list. -/
def memStartT (x : ℕ → ℕ → K) (ref : ℕ → K) (n d dim c p1 : ℕ) (M : HvMem K) : Tm (K × HvMem K) :=
  if c > 1 then Tm.lift (memStart x ref n d dim c p1 M)
  else do
    let M ← memAreaInitT x ref n d p1 dim M
    let M ← Tm.lift (M.setVol n d dim p1 0)
    Tm.ret (0, M)

/-- c/hv.c:1028-1073, the case `dim > STOP_DIMENSION` of `hv_recursive_ref`; `rec` is `hv_recursive_ref` for `dim - 1`; one step for the call. -/
def memLevelT (rec : ℕ → HvMem K → AvlHeap → Tm (K × HvMem K × AvlHeap)) (x : ℕ → ℕ → K) (ref : ℕ → K) (n d dim c : ℕ) (M : HvMem K)
    (h : AvlHeap) : Tm (K × HvMem K × AvlHeap) := do
  tick
  let p ← Tm.lift (M.prev dim 0)
  let M ← memResetT n dim c p M
  let r ← memDelLoopT x n d dim c 0 p M
  let hs ← memStartT x ref n d dim r.1 r.2.2.1 r.2.2.2
  let s ← memSkipT rec n d dim r.1 r.2.2.1 hs.2 h
  let m ← memMainLoopT rec x n d dim c r.1 r.2.1 r.2.2.1 hs.1 s.1 s.2
  let a ← Tm.lift (m.2.2.1.area dim m.2.1)
  let rf ← Tm.lift (rdRef ref d dim)
  let v ← Tm.lift (rdData x n d m.2.1 dim)
  Tm.ret (m.1 + a * (rf - v), m.2.2.1, m.2.2.2)

/-- c/hv.c:1021-1081 `hv_recursive_ref` for `dim = k + 2`. -/
def memRecT (tf : ℕ) (x : ℕ → ℕ → K) (ref : ℕ → K) (n d : ℕ) : ℕ → ℕ → HvMem K → AvlHeap → Tm (K × HvMem K × AvlHeap)
  | 0, c, M, h => memHv3dRefT tf x ref n d c M h
  | k + 1, c, M, h => memLevelT (memRecT tf x ref n d k) x ref n d (k + 3) c M h

/-- c/hv.c:807-816 `filter_delete_node`, the loop over `i = 0, …, m - 1`. -/
def memFilterDeleteNodeT (n d p : ℕ) : ℕ → HvMem K → Tm (HvMem K)
  | 0, M => Tm.ret M
  | m + 1, M => do
    let M ← memFilterDeleteNodeT n d p m M
    tick
    Tm.lift (memFilterDeleteStep n d p m M)

/-- c/hv.c:1123-1131, the inner loop of `filter_ref` for dimension `i`; `c` is the number of points. -/
def memFilterDimT (x : ℕ → ℕ → K) (ref : ℕ → K) (n d i : ℕ) : ℕ → ℕ → ℕ → HvMem K → Tm (ℕ × HvMem K)
  | 0, _, c, M => Tm.ret (c, M)
  | np + 1, aux, c, M => do
    tick
    let v ← Tm.lift (rdData x n d aux i)
    let r ← Tm.lift (rdRef ref d i)
    if v < r then Tm.ret (c, M)
    else do
      let M ← memFilterDeleteNodeT n d aux d M
      let q ← Tm.lift (M.prev i aux)
      memFilterDimT x ref n d i np q (c - 1) M

/-- c/hv.c:1116-1134 `filter_ref`, the loop over `i = 0, …, m - 1`. -/
def memFilterRefT (x : ℕ → ℕ → K) (ref : ℕ → K) (n d : ℕ) : ℕ → ℕ → HvMem K → Tm (ℕ × HvMem K)
  | 0, c, M => Tm.ret (c, M)
  | m + 1, c, M => do
    let r ← memFilterRefT x ref n d m c M
    tick
    let q ← Tm.lift (r.2.prev m 0)
    memFilterDimT x ref n d m r.1 q r.1 r.2

/-- c/hv.c:1140-1167, `fpli_hv` for `d > 2`, on the memory that it allocates; `h` is what is in the memory of the tree before `avl_clear_tree`, called by
`avl_alloc_tree`, and `tf` the fuel of the functions of the tree.  The loop of lines 1150-1153 over the dimensions, for a single point, is counted. -/
def fpliHvT (tf : ℕ) (x : ℕ → ℕ → K) (d n : ℕ) (ref : ℕ → K) (ords : ℕ → List ℕ) (b0 : K) (h : AvlHeap) : Tm K := do
  let M ← memSetupT n d ords b0
  let r ← memFilterRefT x ref n d d n M
  if r.1 = 0 then Tm.ret 0
  else if r.1 = 1 then do
    let p ← Tm.lift (r.2.next 0 0)
    ticks d
    Tm.lift (memBox x ref n d p d)
  else do
    let v ← memRecT tf x ref n d (d - 3) r.1 r.2 (avlClearTree h)
    Tm.ret v.1

/-- c/hv.c:865-876, the loops of `hv2d`; one step for each point that they look at. -/
def hv2dLoopT (pts : ℕ → ℕ → K) (ref : ℕ → K) : Bool → List ℕ → K → K → Tm K
  | _, [], _, hv => Tm.ret hv
  | atCond, p :: ps, prevJ, hv => do
    tick
    if atCond = true ∧ ¬ pts p 0 < ref 0 then Tm.ret hv
    else if pts p 1 ≥ prevJ then hv2dLoopT pts ref false ps prevJ hv
    else if pts p 0 ≥ ref 0 then Tm.ret hv
    else hv2dLoopT pts ref true ps (pts p 1) (hv + (ref 0 - pts p 0) * (prevJ - pts p 1))

/-- c/hv.c:853-879 `hv2d`, with the loop of lines 857-858 over the `n` points, and without the call of `qsort`. -/
def hv2dT (pts : ℕ → ℕ → K) (n : ℕ) (ps : List ℕ) (ref : ℕ → K) : Tm K := do
  ticks n
  hv2dLoopT pts ref false ps (ref 1) 0

/-- c/hv.c:1136-1167 `fpli_hv`. -/
def fpliHvSteps (tf : ℕ) (pts : ℕ → ℕ → K) (d n : ℕ) (ref : ℕ → K) (env : HvEnv K) : Tm K :=
  if n = 0 then Tm.ret 0
  else if d = 2 then hv2dT pts n env.ps ref
  else fpliHvT tf (nodeTable pts) d n ref env.ords env.b0 env.mem.tree

end Moo
