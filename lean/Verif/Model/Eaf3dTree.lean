import Verif.Model.Eaf3d
import Verif.Model.Avl

/-!
# Model of `eaf3d` on the nodes of its balanced trees, c/eaf3d.c

The functions of `Verif/Model/Eaf3d.lean` with the trees themselves (`Verif/Model/Avl.lean`).  Pointers to nodes are numbers and `0` is `NULL`.

Every tree has its own nodes: the nodes `set[i]` ever had are numbered from 1, and so are the nodes that `level[k]` ever had, together with `output[k]`, whose nodes
all come from `level[k]`.  Nodes 1 and 2 are the two sentinels of the tree.  Two trees never share a node in the program, so the `left`, `right`, `parent`,
`next`, `prev` and `depth` fields are a table for each tree.  `item`, `set`, `promoter`, `remover` and `equal` are one table for all the levels: numbers greater than 2
are given out only once.

The fields `promoter`, `remover` and `equal` of a sentinel are never initialised by the program: they are what was in memory.

`live` says which blocks of memory are allocated: `free` of a block that is not allocated is undefined behaviour.  A block that is released is filled with values
that the program does not choose (`Freed3`), so that nothing can depend on what a released block holds.  The same structure gives what other threads have stored in
`removed_list->head`, a static variable, when it is read.  Not in the table of blocks: `scratch` of `setup_cdllist`, which is released where it is allocated, and the `eaf_t`
structures that are returned.

`none` is undefined behaviour (a null pointer, an index outside of an array, the release of a block that is not allocated), or a loop that takes more steps than its fuel; `tf` is the fuel of the functions of
the tree library.
-/

set_option autoImplicit false

namespace Moo

/-- The fields of the nodes of the levels that the tree library does not use, c/avl.h:55-82: the coordinates of `item`, `set`, `promoter`, `remover` and `equal`;
`fresh` is the number of the next node. -/
structure Nodes3 (α : Type*) where
  fresh : ℕ
  x : ℕ → α
  y : ℕ → α
  z : ℕ → α
  set : ℕ → ℕ
  prom : ℕ → ℕ
  rem : ℕ → ℕ
  eql : ℕ → ℕ

/-- The fields of `output[k]`, an `avl_tree_t`; the fields of its nodes are those of `level[k]`. -/
structure OutTree where
  top : ℕ
  head : ℕ
  tail : ℕ

/-- The blocks that a call of `eaf3d` allocates: the arrays `set`, `level`, `output` (c/eaf3d.c:792-794), `*removed_list` (806), `list` (88), `aux` (553) and `mask` (566) of
`eaf3df`, `eaf` (827), `attained` (828), the structures of the trees (797-799), the nodes and items of the two sentinels of each tree (748-764), the other nodes of the sets (558,
665), whose items are the rows of the argument, and the other nodes and items of the levels (457, 491, 527, 562). -/
inductive Blk3 where
  | setArr | levelArr | outputArr | removedList | list | aux | mask | eafArr | attained
  | setTree (i : ℕ) | levelTree (i : ℕ) | outTree (i : ℕ)
  | setSent (i n : ℕ) | setSentItem (i n : ℕ) | levelSent (i n : ℕ) | levelSentItem (i n : ℕ)
  | setNode (n : ℕ) | levelNode (n : ℕ) | levelItem (n : ℕ)
deriving DecidableEq

/-- Which blocks are allocated. -/
abbrev Live3 := Blk3 → Bool

/-- `malloc` of the block `b`. -/
def Live3.alloc (live : Live3) (b : Blk3) : Live3 := fun b' => if b' = b then true else live b'

/-- `free` of the block `b`. -/
def Live3.free (live : Live3) (b : Blk3) : Option Live3 := if live b then some (fun b' => if b' = b then false else live b') else none

/-- The block of the node `n` of `set[s]`. -/
def setNodeBlk (s n : ℕ) : Blk3 := if n ≤ 2 then .setSent s n else .setNode n
/-- The block of the node `n` of `level[k]`. -/
def levelNodeBlk (k n : ℕ) : Blk3 := if n ≤ 2 then .levelSent k n else .levelNode n
/-- The block of the item of the node `n` of `level[k]`. -/
def levelItemBlk (k n : ℕ) : Blk3 := if n ≤ 2 then .levelSentItem k n else .levelItem n

/-- The fields of a node of a tree. -/
structure Links3 where
  left : ℕ
  right : ℕ
  parent : ℕ
  next : ℕ
  prev : ℕ
  depth : ℕ

/-- What the program does not choose: the content of the released item of the node `n` of the levels (`item n`), of a released node of the sets (`link n`; its item pointer then leads
to `coord n`), of a released sentinel of `level[k]` (`sent k n`), and `head n v`, the value of `removed_list->head` read when the node `n` is put in the list and the value that this
call stored last is `v`; it is `v` if no other thread is in `eaf3d`. -/
structure Freed3 (α : Type*) where
  item : ℕ → α × α × α
  link : ℕ → Links3
  coord : ℕ → α × α
  sent : ℕ → ℕ → Links3
  head : ℕ → ℕ → ℕ

/-- The content of the released node `n`. -/
def AvlHeap.poison (h : AvlHeap) (n : ℕ) (g : Links3) : AvlHeap :=
  { h with left := upd h.left n g.left, right := upd h.right n g.right, parent := upd h.parent n g.parent, next := upd h.next n g.next, prev := upd h.prev n g.prev,
           depth := upd h.depth n g.depth }

/-- The content of the released item of the node `n`. -/
def Nodes3.poison {α : Type*} (N : Nodes3 α) (n : ℕ) (g : α × α × α) : Nodes3 α :=
  { N with x := upd N.x n g.1, y := upd N.y n g.2.1, z := upd N.z n g.2.2 }

/-- The arguments of `eaf3df` that it modifies, `removed_list->head` and the allocated blocks.  `sx`, `sy` are the first two coordinates of the item of a node of a set, `sfresh` the number of
the next such node. -/
structure TreeSt3 (α : Type*) where
  sets : ℕ → AvlHeap
  sx : ℕ → α
  sy : ℕ → α
  sfresh : ℕ
  levels : ℕ → AvlHeap
  outs : ℕ → OutTree
  nodes : Nodes3 α
  removed : ℕ
  live : Live3

section
variable {α : Type*} [LinearOrder α]

/-- A pointer that is used: `NULL` is undefined behaviour. -/
def deref (p : ℕ) : Option ℕ := if p = 0 then none else some p

/-- `compare_tree_asc_x`, c/eaf3d.c:136-142. -/
def compareAscX (a b : α) : ℤ := if a < b then -1 else if a > b then 1 else 0

/-- `compare_tree_desc_y`, c/eaf3d.c:144-150. -/
def compareDescY (a b : α) : ℤ := if a > b then -1 else if a < b then 1 else 0

/-- `find_point_at_left`, c/eaf3d.c:501-509; `px` are the first coordinates of the nodes. -/
def treeAtLeft (tf : ℕ) (h : AvlHeap) (px : ℕ → α) (x : α) : Option ℕ :=
  match avlSearchClosest tf h (fun n => compareAscX x (px n)) with
  | none => none
  | some (n, c) => if c < 0 then (deref n).bind (fun n => deref (h.prev n)) else deref n

/-- `find_point_below`, c/eaf3d.c:512-521, through `avl_search_closest_y`, c/eaf3d.c:152-186, which is `avl_search_closest` with another comparison; `py` are the second
coordinates of the nodes. -/
def treeBelow (tf : ℕ) (h : AvlHeap) (py : ℕ → α) (y : α) : Option ℕ :=
  match avlSearchClosest tf h (fun n => compareDescY y (py n)) with
  | none => none
  | some (n, c) => if c ≥ 0 then (deref n).bind (fun n => deref (h.next n)) else deref n

/-- c/eaf3d.c:441-452: `prevnode`. -/
def treePrevnode (tf : ℕ) (h : AvlHeap) (N : Nodes3 α) (x y : α) : Option ℕ :=
  match avlSearchClosest tf h (fun n => compareDescY y (N.y n)) with
  | none => none
  | some (n, c) =>
    (deref n).bind fun n =>
      if c = -1 then deref (h.prev n)
      else if c = 0 then (if N.x n > x then some n else deref (h.prev n))
      else some n

/-- `add2output`, c/eaf3d.c:359-369, on `output[k]`; the fields of the node are those of `level[k]`. -/
def treeAdd2output (h : AvlHeap) (o : OutTree) (n : ℕ) : AvlHeap × OutTree :=
  if o.top ≠ 0 then (h.setNext o.tail n, { o with tail := n })
  else
    let h' := avlInsertTop { h with top := o.top, head := o.head, tail := o.tail } n
    ({ h' with top := h.top, head := h.head, tail := h.tail }, ⟨h'.top, h'.head, h'.tail⟩)

/-- c/eaf3d.c:463-480: the loop that removes the nodes before the new node `nn` that it dominates.  Variables: `tnode`, `level[k]`, `output[k]`, the other fields of the nodes,
`removed_list->head`, allocated blocks. -/
def treeLevelRemove (tf : ℕ) (F : Freed3 α) (k nn : ℕ) : ℕ → ℕ → AvlHeap → OutTree → Nodes3 α → ℕ → Live3 → Option (AvlHeap × OutTree × Nodes3 α × ℕ × Live3)
  | 0, _, _, _, _, _, _ => none
  | fuel + 1, tnode, h, o, N, removed, live =>
    if tnode = 0 then none
    else if N.x tnode ≥ N.x nn then
      let h := avlUnlinkNode tf h tnode
      let aux := tnode
      let tnode := h.prev tnode
      if N.z aux < N.z nn then
        let r := treeAdd2output h o aux
        treeLevelRemove tf F k nn fuel tnode r.1 r.2 N removed live
      else
        match live.free (levelItemBlk k aux) with
        | none => none
        | some live =>
          let N := N.poison aux (F.item aux)
          treeLevelRemove tf F k nn fuel tnode (h.setNext aux (F.head aux removed)) o { N with rem := upd N.rem aux nn } aux live
    else some (h, o, N, removed, live)

/-- `add2level`, c/eaf3d.c:435-486, on `level[k]` and `output[k]`, with the allocation of the item by the caller (`new_point`, `copy_point`).  Returns the new state and the returned
pointer. -/
def treeAdd2level (tf : ℕ) (F : Freed3 α) (nset : ℕ) (st : TreeSt3 α) (k : ℕ) (x y z : α) (set : ℕ) (promoter : ℕ) : Option (TreeSt3 α × ℕ) :=
  if ¬ k < nset then none
  else
    let nn := st.nodes.fresh
    let live := st.live.alloc (.levelItem nn)
    match treePrevnode tf (st.levels k) st.nodes x y with
    | none => none
    | some prevnode =>
      match deref ((st.levels k).next prevnode) with
      | none => none
      | some aux =>
        if st.nodes.x aux > x then
          let live := live.alloc (.levelNode nn)
          let N : Nodes3 α := ⟨nn + 1, upd st.nodes.x nn x, upd st.nodes.y nn y, upd st.nodes.z nn z, upd st.nodes.set nn set, upd st.nodes.prom nn promoter,
            upd st.nodes.rem nn 0, upd st.nodes.eql nn 0⟩
          let h := avlInsertAfter 3 tf (st.levels k) prevnode nn
          match treeLevelRemove tf F k nn tf (h.prev nn) h (st.outs k) N st.removed live with
          | none => none
          | some (h, o, N, removed, live) =>
            some ({ st with levels := upd st.levels k h, outs := upd st.outs k o, nodes := N, removed := removed, live := live }, nn)
        else
          match live.free (.levelItem nn) with
          | none => none
          | some live => some ({ st with live := live }, 0)

/-- `if (tnode != NULL && cond) node->equal = tnode;` -/
def treeLinkEqual (st : TreeSt3 α) (n tnode : ℕ) (cond : Prop) [Decidable cond] : TreeSt3 α :=
  if tnode ≠ 0 ∧ cond then { st with nodes := { st.nodes with eql := upd st.nodes.eql n tnode } } else st

/-- `aux[k]`, c/eaf3d.c:542-552: `levelNode` is `intersectNode`, with its coordinates and its `next` field, or a node of the level; `promoter`. -/
inductive TreeCur (α : Type*) where
  | inter (x y : α) (next promoter : ℕ)
  | node (n : ℕ)

/-- `node_point(aux[k].levelNode)[0]`. -/
def TreeCur.x (N : Nodes3 α) : TreeCur α → α
  | .inter x _ _ _ => x
  | .node n => N.x n
/-- `node_point(aux[k].levelNode)[1]`. -/
def TreeCur.y (N : Nodes3 α) : TreeCur α → α
  | .inter _ y _ _ => y
  | .node n => N.y n
/-- `node_point(aux[k].levelNode)[2]`: `intersectValues` has only two elements. -/
def TreeCur.z? (N : Nodes3 α) : TreeCur α → Option α
  | .inter _ _ _ _ => none
  | .node n => some (N.z n)
/-- `aux[k].promoter`; when `levelNode` is a node of the level, it is that node. -/
def TreeCur.promoter : TreeCur α → ℕ
  | .inter _ _ _ p => p
  | .node n => n
/-- `aux[k].levelNode->next`. -/
def TreeCur.next (h : AvlHeap) : TreeCur α → ℕ
  | .inter _ _ m _ => m
  | .node n => h.next n

/-- c/eaf3d.c:588-614, the first part, for the levels `k-1, ..., 0` (the argument is `k`).  Returns `dom_new`, `stop_at` and `aux`. -/
def treeFirstPart (tf : ℕ) (st : TreeSt3 α) (p : Pt3 α) (prevY : α) : ℕ → (ℕ → Option (TreeCur α)) → Option (ℕ × ℕ × (ℕ → Option (TreeCur α)))
  | 0, a => some (0, 0, a)
  | k + 1, a =>
    match treeAtLeft tf (st.levels k) st.nodes.x p.x with
    | none => none
    | some left =>
      if st.nodes.y left ≤ p.y then some (left, k + 1, a)
      else if st.nodes.y left < prevY then
        treeFirstPart tf st p prevY k (upd a k (some (.inter p.x (st.nodes.y left) ((st.levels k).next left) left)))
      else
        match treeBelow tf (st.levels k) st.nodes.y prevY with
        | none => none
        | some n => treeFirstPart tf st p prevY k (upd a k (some (.node n)))

/-- c/eaf3d.c:629-646, the `while` loop of the second part at level `k`, for the node `q` of the set of `new`. -/
def treePromWhile (tf : ℕ) (F : Freed3 α) (nset : ℕ) (p : Pt3 α) (q : α × α) (k : ℕ) : ℕ → TreeCur α → TreeSt3 α → Option (TreeCur α × TreeSt3 α)
  | 0, _, _ => none
  | fuel + 1, c, st =>
    let lbound := max q.2 p.y
    if c.y st.nodes ≥ lbound ∧ (c.y st.nodes > lbound ∨ lbound > p.y) then
      if q.1 ≤ c.x st.nodes then
        match treeBelow tf (st.levels k) st.nodes.y q.2 with
        | none => none
        | some n => treePromWhile tf F nset p q k fuel (.node n) st
      else
        match treeAdd2level tf F nset st (k + 1) (c.x st.nodes) (c.y st.nodes) p.z p.set c.promoter with
        | none => none
        | some (st, tnode) =>
          let st := treeLinkEqual st c.promoter tnode (p.z = st.nodes.z c.promoter ∧ c.x st.nodes = st.nodes.x c.promoter)
          match deref (c.next (st.levels k)) with
          | none => none
          | some n => treePromWhile tf F nset p q k fuel (.node n) st
    else some (c, st)

/-- c/eaf3d.c:627-647, the loop over the levels of the second part. -/
def treePromLevels (tf : ℕ) (F : Freed3 α) (nset : ℕ) (p : Pt3 α) (q : α × α) (fuel : ℕ) : List ℕ → (ℕ → Option (TreeCur α)) → TreeSt3 α →
    Option ((ℕ → Option (TreeCur α)) × TreeSt3 α)
  | [], a, st => some (a, st)
  | k :: ks, a, st =>
    match a k with
    | none => none
    | some c =>
      match treePromWhile tf F nset p q k fuel c st with
      | none => none
      | some (c, st) => treePromLevels tf F nset p q fuel ks (upd a k (some c)) st

/-- c/eaf3d.c:623-648, the second part.  The first number bounds the iterations of the `do … while` loop; returns also `setNode`. -/
def treeSecondPart (tf : ℕ) (F : Freed3 α) (nset : ℕ) (p : Pt3 α) (fuel : ℕ) (ks : List ℕ) : ℕ → ℕ → (ℕ → Option (TreeCur α)) → TreeSt3 α →
    Option (ℕ × (ℕ → Option (TreeCur α)) × TreeSt3 α)
  | 0, _, _, _ => none
  | sf + 1, setNode, a, st =>
    match deref ((st.sets p.set).next setNode) with
    | none => none
    | some setNode =>
      match treePromLevels tf F nset p (st.sx setNode, st.sy setNode) fuel ks a st with
      | none => none
      | some (a, st) => if st.sy setNode > p.y then treeSecondPart tf F nset p fuel ks sf setNode a st else some (setNode, a, st)

/-- c/eaf3d.c:650-662, the third part; `qx` is `node_point(setNode)[0]`. -/
def treeThirdPart (tf : ℕ) (F : Freed3 α) (nset : ℕ) (p : Pt3 α) (qx : α) : List ℕ → (ℕ → Option (TreeCur α)) → TreeSt3 α → Option (TreeSt3 α)
  | [], _, st => some st
  | k :: ks, a, st =>
    match a k with
    | none => none
    | some c =>
      if c.x st.nodes < qx then
        match treeAdd2level tf F nset st (k + 1) (c.x st.nodes) p.y p.z p.set c.promoter with
        | none => none
        | some (st, tnode) =>
          if tnode = 0 then treeThirdPart tf F nset p qx ks a st
          else
            match c.z? st.nodes with
            | none => none
            | some cz => treeThirdPart tf F nset p qx ks a (treeLinkEqual st c.promoter tnode (p.z = cz ∧ p.y = c.y st.nodes))
      else treeThirdPart tf F nset p qx ks a st

/-- c/eaf3d.c:409-415, the loop of `add2set` on `set[s]`: `tnode->next` is read after the node has been removed, and then the node is released.  Variables: `tnode`, `set[s]`, the
coordinates of the items, allocated blocks. -/
def treeSetRemove (tf : ℕ) (F : Freed3 α) (s : ℕ) (y : α) : ℕ → ℕ → AvlHeap → (ℕ → α) → (ℕ → α) → Live3 → Option (AvlHeap × (ℕ → α) × (ℕ → α) × Live3)
  | 0, _, _, _, _, _ => none
  | fuel + 1, tnode, h, sx, sy, live =>
    if tnode = 0 then none
    else if sy tnode ≥ y then
      let h := avlUnlinkNode tf h tnode
      let node := tnode
      let tnode := h.next tnode
      match live.free (setNodeBlk s node) with
      | none => none
      | some live => treeSetRemove tf F s y fuel tnode (h.poison node (F.link node)) (upd sx node (F.coord node).1) (upd sy node (F.coord node).2) live
    else some (h, sx, sy, live)

/-- `add2set`, c/eaf3d.c:398-417, with the allocation of the node by the caller; the new node is `st.sfresh`. -/
def treeAdd2set (tf : ℕ) (F : Freed3 α) (st : TreeSt3 α) (s prevnode : ℕ) (x y : α) : Option (TreeSt3 α) :=
  let tnode := st.sfresh
  let live := st.live.alloc (.setNode tnode)
  let sx := upd st.sx tnode x
  let sy := upd st.sy tnode y
  let prevnode := if sx prevnode = x then (st.sets s).prev prevnode else prevnode
  let h := avlInsertAfter 3 tf (st.sets s) prevnode tnode
  match treeSetRemove tf F s y tf (h.next tnode) h sx sy live with
  | none => none
  | some (h, sx, sy, live) => some { st with sets := upd st.sets s h, sx := sx, sy := sy, sfresh := tnode + 1, live := live }

/-- c/eaf3d.c:571-680, one iteration of the main loop.  `start` is `start_at`. -/
def treeEaf3dStep (tf : ℕ) (F : Freed3 α) (nset fuel : ℕ) (p : Pt3 α) (start : ℕ) (mask : ℕ → Bool) (st : TreeSt3 α) : Option (ℕ × (ℕ → Bool) × TreeSt3 α) :=
  if ¬ p.set < nset then none
  else
    match treeAtLeft tf (st.sets p.set) st.sx p.x with
    | none => none
    | some newPrev =>
      if st.sy newPrev ≤ p.y then some (start, mask, st)
      else
        match treeFirstPart tf st p (st.sy newPrev) (start + 1) (fun _ => none) with
        | none => none
        | some (dom, stop, a) =>
          let ks := (List.range' stop (start + 1 - stop)).reverse
          match treeSecondPart tf F nset p fuel ks tf newPrev a st with
          | none => none
          | some (setNode, a, st) =>
            match treeThirdPart tf F nset p (st.sx setNode) ks a st with
            | none => none
            | some st =>
              match treeAdd2set tf F st p.set newPrev p.x p.y with
              | none => none
              | some st =>
                match treeAdd2level tf F nset st stop p.x p.y p.z p.set dom with
                | none => none
                | some (st, tnode) =>
                  let st :=
                    if stop > 0 then treeLinkEqual st dom tnode (p.z = st.nodes.z dom ∧ p.y = st.nodes.y dom ∧ p.x = st.nodes.x dom) else st
                  if mask p.set then some (start, mask, st)
                  else some (if start + 2 < nset then start + 1 else start, upd mask p.set true, st)

/-- c/eaf3d.c:570-680, the main loop. -/
def treeEaf3dLoop (tf : ℕ) (F : Freed3 α) (nset fuel : ℕ) : List (Pt3 α) → ℕ → (ℕ → Bool) → TreeSt3 α → Option (TreeSt3 α)
  | [], _, _, st => some st
  | p :: ps, start, mask, st =>
    match treeEaf3dStep tf F nset fuel p start mask st with
    | none => none
    | some (start, mask, st) => treeEaf3dLoop tf F nset fuel ps start mask st

/-- `add_sentinels`, c/eaf3d.c:748-764, for a tree just made by `avl_alloc_tree`; `h` is what was in memory. -/
def addSentinels (tf : ℕ) (h : AvlHeap) : AvlHeap :=
  let h := avlInsertTop (avlClearTree h) 1
  avlInsertAfter 3 tf h 1 2

/-- The blocks allocated before `eaf3df` is called, c/eaf3d.c:792-808. -/
def initLive3 (nruns : ℕ) : Live3
  | .setArr | .levelArr | .outputArr | .removedList | .list => true
  | .setTree i | .levelTree i | .outTree i => decide (i < nruns)
  | .setSent i n | .setSentItem i n | .levelSent i n | .levelSentItem i n => decide (i < nruns ∧ (n = 1 ∨ n = 2))
  | _ => false

/-- The trees before `eaf3df` is called, c/eaf3d.c:792-808; `mem` is what was in memory.  The third coordinate of the sentinels is not written. -/
def treeEaf3dInit (tf nruns : ℕ) (mn mx : α) (mem : TreeSt3 α) : TreeSt3 α where
  sets := fun i => addSentinels tf (mem.sets i)
  sx := upd (upd mem.sx 1 mn) 2 mx
  sy := upd (upd mem.sy 1 mx) 2 mn
  sfresh := 3
  levels := fun k => addSentinels tf (mem.levels k)
  outs := fun _ => ⟨0, 0, 0⟩
  nodes := { mem.nodes with fresh := 3, x := upd (upd mem.nodes.x 1 mn) 2 mx, y := upd (upd mem.nodes.y 1 mx) 2 mn }
  removed := 0
  live := initLive3 nruns

/-- `eaf3df`, c/eaf3d.c:535-683, for the points in the order of the list. -/
def treeEaf3df (tf : ℕ) (F : Freed3 α) (nset fuel : ℕ) (ps : List (Pt3 α)) (st : TreeSt3 α) : Option (TreeSt3 α) :=
  match ps with
  | [] => none
  | p :: ps =>
    if ¬ (p.set < nset ∧ 0 < nset) then none
    else
      match deref (st.sets p.set).head, deref (st.levels 0).head with
      | some sh, some lh =>
        let t := st.sfresh
        let nn := st.nodes.fresh
        let N := st.nodes
        match treeEaf3dLoop tf F nset fuel ps 0 (upd (fun _ => false) p.set true)
          { st with
            sets := upd st.sets p.set (avlInsertAfter 3 tf (st.sets p.set) sh t)
            sx := upd st.sx t p.x
            sy := upd st.sy t p.y
            sfresh := t + 1
            levels := upd st.levels 0 (avlInsertAfter 3 tf (st.levels 0) lh nn)
            nodes := ⟨nn + 1, upd N.x nn p.x, upd N.y nn p.y, upd N.z nn p.z, upd N.set nn p.set, upd N.prom nn 0, upd N.rem nn 0, upd N.eql nn 0⟩
            live := ((((st.live.alloc .aux).alloc (.setNode t)).alloc (.levelItem nn)).alloc (.levelNode nn)).alloc .mask } with
        | none => none
        | some st => ((st.live.free .mask).bind (fun live => live.free .aux)).map (fun live => { st with live := live })
      | _, _ => none

/-- `free(node->item); free(node);` for the node `n` of `level[k]`, c/eaf3d.c:376-377, 381-382. -/
def freeLevelNode (k n : ℕ) (live : Live3) : Option Live3 := (live.free (levelItemBlk k n)).bind (fun live => live.free (levelNodeBlk k n))

/-- `add2output_all`, c/eaf3d.c:372-392, on `output[k]` and `level[k]`.  Returns the `next` fields, `output[k]->head` and the allocated blocks. -/
def treeAdd2outputAll (tf : ℕ) (F : Freed3 α) (k : ℕ) (o : OutTree) (h : AvlHeap) (live : Live3) : Option (((ℕ → ℕ) × ℕ) × Live3) :=
  (deref h.head).bind fun n =>
    (freeLevelNode k n live).bind fun live =>
      let h := (avlUnlinkNode tf h n).poison n (F.sent k n)
      (deref h.tail).bind fun n =>
        (freeLevelNode k n live).bind fun live =>
          let h := (avlUnlinkNode tf h n).poison n (F.sent k n)
          if h.head ≠ 0 then
            if o.tail ≠ 0 then some (((h.setNext o.tail h.head).next, o.head), live)
            else some ((h.next, h.head), live)
          else some ((h.next, o.head), live)

/-- c/eaf3d.c:811-813: `add2output_all` for the levels in the list. -/
def treeOutputs (tf : ℕ) (F : Freed3 α) (st : TreeSt3 α) : List ℕ → Live3 → Option (List ((ℕ → ℕ) × ℕ) × Live3)
  | [], live => some ([], live)
  | k :: ks, live =>
    match treeAdd2outputAll tf F k (st.outs k) (st.levels k) live with
    | none => none
    | some (o, live) => (treeOutputs tf F st ks live).map (fun r => (o :: r.1, r.2))

/-- `free(aux->item)` in `freetree2`, for the node `n` of `set[s]`: the items of the nodes that are not sentinels are rows of the argument of `eaf3d`, not blocks of memory. -/
def freeSetItem (s n : ℕ) (live : Live3) : Option Live3 := if n ≤ 2 then live.free (.setSentItem s n) else none

/-- The loop of `freetree2`, c/eaf3d.c:712-716, on `set[s]`: every node is read before it is released.  Returns the last node. -/
def freeTree2Loop (F : Freed3 α) (s : ℕ) : ℕ → ℕ → AvlHeap → Live3 → Option (ℕ × Live3)
  | 0, _, _, _ => none
  | fuel + 1, aux, h, live =>
    if ¬ live (setNodeBlk s aux) then none
    else if h.next aux ≠ 0 then
      match live.free (setNodeBlk s aux) with
      | none => none
      | some live => freeTree2Loop F s fuel (h.next aux) (h.poison aux (F.link aux)) live
    else some (aux, live)

/-- `freetree2`, c/eaf3d.c:704-722, on `set[s]`. -/
def freeTree2 (tf : ℕ) (F : Freed3 α) (s : ℕ) (h : AvlHeap) (live : Live3) : Option Live3 :=
  (deref h.head).bind fun aux =>
    (freeSetItem s aux live).bind fun live =>
      (freeTree2Loop F s tf aux h live).bind fun r =>
        (freeSetItem s r.1 r.2).bind fun live =>
          (live.free (setNodeBlk s r.1)).bind fun live => live.free (.setTree s)

/-- c/eaf3d.c:815-818: `freetree2(set[i])` and `free(level[i])` for the numbers in the list. -/
def freeTrees (tf : ℕ) (F : Freed3 α) (st : TreeSt3 α) : List ℕ → Live3 → Option Live3
  | [], live => some live
  | i :: is, live =>
    ((freeTree2 tf F i (st.sets i) live).bind (fun live => live.free (.levelTree i))).bind (fun live => freeTrees tf F st is live)

/-- `free(list); free(set); free(level);`, c/eaf3d.c:820-822. -/
def freeArrays (live : Live3) : Option Live3 := ((live.free .list).bind (fun live => live.free .setArr)).bind (fun live => live.free .levelArr)

/-- The `while` loop over `equal`, c/eaf3d.c:201-206. -/
def treePromEqual (N : Nodes3 α) : ℕ → ℕ → (ℕ → ℤ) → Option (ℕ → ℤ)
  | 0, n, att => if n = 0 then some att else none
  | fuel + 1, n, att => if n = 0 then some att else treePromEqual N fuel (N.eql n) (upd att (N.set n) 1)

mutual
/-- `find_all_promoters`, c/eaf3d.c:189-207. -/
def treeFindAllPromoters (N : Nodes3 α) : ℕ → ℕ → (ℕ → ℤ) → Option (ℕ → ℤ)
  | 0, _, _ => none
  | fuel + 1, n, att =>
    match treePromChain N fuel n att with
    | none => none
    | some att => treePromEqual N fuel (N.eql n) att

/-- The `while` loop over `promoter`, c/eaf3d.c:194-199. -/
def treePromChain (N : Nodes3 α) : ℕ → ℕ → (ℕ → ℤ) → Option (ℕ → ℤ)
  | 0, n, att => if n = 0 then some att else none
  | fuel + 1, n, att =>
    if n = 0 then some att
    else if N.rem n ≠ 0 then
      match treeFindAllPromoters N fuel (N.rem n) (upd att (N.set n) 1) with
      | none => none
      | some att => treePromChain N fuel (N.prom n) att
    else treePromChain N fuel (N.prom n) (upd att (N.set n) 1)
end

/-- c/eaf3d.c:831-840: the points and indicators stored for one level, from the node `n` of the output on. -/
def treeEaf3dOut (N : Nodes3 α) (next : ℕ → ℕ) (fuelP : ℕ) : ℕ → ℕ → Option (List ((α × α × α) × (ℕ → ℤ)))
  | 0, n => if n = 0 then some [] else none
  | fuel + 1, n =>
    if n = 0 then some []
    else
      match treeFindAllPromoters N fuelP n (fun _ => 0) with
      | none => none
      | some att => (treeEaf3dOut N next fuelP fuel (next n)).map (fun l => ((N.x n, N.y n, N.z n), att) :: l)

/-- `eaf3d`, c/eaf3d.c:779-844, on the nodes of the trees, for the order `sz` of the points; the memory of `eaf_t` is in `eaf3dSurface`.  `fuel` bounds the loops of
`eaf3df`, `fuelP` those of `find_all_promoters` and `fuelO` the loop over the nodes of the output.  Returns the points and indicators, and the blocks that are allocated at the end. -/
def eaf3dTree (tf : ℕ) (F : Freed3 α) (mn mx : α) (mem : TreeSt3 α) (pts : ℕ → ℕ → α) (cumsize : ℕ → ℕ) (nruns : ℕ) (attlevel : List ℤ) (sz : List ℕ) (fuel fuelP fuelO : ℕ) :
    Option (List (List ((α × α × α) × (ℕ → ℤ))) × Live3) :=
  match treeEaf3df tf F nruns fuel (eaf3dList pts cumsize sz) (treeEaf3dInit tf nruns mn mx mem) with
  | none => none
  | some st =>
    match treeOutputs tf F st (List.range nruns) st.live with
    | none => none
    | some (output, live) =>
      match (freeTrees tf F st (List.range nruns) live).bind freeArrays with
      | none => none
      | some live =>
        let live := (live.alloc .eafArr).alloc .attained
        let N := (st.nodes.poison 1 (F.item 1)).poison 2 (F.item 2)
        (attlevel.mapM fun l : ℤ =>
          if ¬ 1 ≤ l then none
          else
            match output[(l - 1).toNat]? with
            | none => none
            | some (next, head) => treeEaf3dOut N next fuelP fuelO head).map (fun res => (res, live))

end

end Moo
