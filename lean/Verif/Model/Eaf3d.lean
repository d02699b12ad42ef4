import Verif.Model.EafStore
import Mathlib.Order.Defs.LinearOrder
import Mathlib.Data.Nat.Init

/-!
# Model of `eaf3d`, c/eaf3d.c

Trees.  The AVL trees `set[i]` and `level[k]` are modelled by the sequence of their nodes in order, with the two sentinel nodes
(`add_sentinels`, c/eaf3d.c:748-764) at the ends; `node->prev` and `node->next` are the neighbours in the sequence.  That the operations of the tree library
act on the sequence in this way is proved in Verif/Props/Avl.lean (C36, C37).

Nodes.  A node of a level carries the number of its allocation, its coordinates and its `set`, none of which change after it was made.  The
pointers `promoter`, `remover` and `equal` are in the tables of `Heap3`, by the number of the node.

Values.  Objective values are elements of a linear order; `mn` and `mx` stand for `objective_MIN` and `objective_MAX`.  The third coordinate of a
sentinel is never initialised by the code: it is an arbitrary value `junk`.

Everything that would be undefined (a null pointer, an index outside of an array, the use of a node that is no longer in its level and whose
coordinates may have been freed, the third coordinate of the two-element array `intersectValues`) gives `none`, and so does a loop that takes more than `fuel` iterations.
-/

set_option autoImplicit false

namespace Moo

/-- A node of the tree of a level, c/avl.h:55-82: what does not change after its creation. -/
structure LNode (α : Type*) where
  id : ℕ
  x : α
  y : α
  z : α
  set : ℕ
deriving DecidableEq

/-- A point of the input list `dlnode_t`, c/eaf3d.c:46-51. -/
structure Pt3 (α : Type*) where
  x : α
  y : α
  z : α
  set : ℕ

/-- The pointers `promoter`, `remover` and `equal` of the nodes, and the number of the next node to be allocated. -/
structure Heap3 (α : Type*) where
  fresh : ℕ
  prom : ℕ → Option (LNode α)
  rem : ℕ → Option (LNode α)
  eql : ℕ → Option (LNode α)

/-- The arguments of `eaf3df` that it modifies: `set`, `level`, `output`, and the nodes. -/
structure St3 (α : Type*) where
  sets : ℕ → List (α × α)
  levels : ℕ → List (LNode α)
  outs : ℕ → List (LNode α)
  heap : Heap3 α

section
variable {α : Type*} [LinearOrder α]

/-- The sentinel at the head of a level, c/eaf3d.c:751-756. -/
def headNode (mn mx junk : α) : LNode α := ⟨0, mn, mx, junk, 0⟩
/-- The sentinel at the tail of a level, c/eaf3d.c:758-763. -/
def tailNode (mn mx junk : α) : LNode α := ⟨1, mx, mn, junk, 0⟩

/-- `find_point_at_left`, c/eaf3d.c:501-509, in a level: the last node whose first coordinate is at most `x`. -/
def findAtLeft (L : List (LNode α)) (x : α) : Option (LNode α) := (L.takeWhile (fun n => n.x ≤ x)).getLast?

/-- `find_point_below`, c/eaf3d.c:512-521: the first node whose second coordinate is less than `y`. -/
def findBelow (L : List (LNode α)) (y : α) : Option (LNode α) := L.find? (fun n => n.y < y)

/-- `node->next`, for a node of the sequence. -/
def nextIn (L : List (LNode α)) (n : LNode α) : Option (LNode α) :=
  match L.dropWhile (fun m => m ≠ n) with
  | _ :: m :: _ => some m
  | _ => none

/-- c/eaf3d.c:441-455: the nodes up to `prevnode` and the nodes from `prevnode->next` on, after the search for the place of `(x, y)` by the second coordinate. -/
def levelSplit (L : List (LNode α)) (x y : α) : List (LNode α) × List (LNode α) :=
  let pre := L.takeWhile (fun n => y < n.y)
  let post := L.dropWhile (fun n => y < n.y)
  match post with
  | [] => (pre, [])
  | b :: bs => if b.y = y ∧ b.x > x then (pre ++ [b], bs) else (pre, b :: bs)

/-- c/eaf3d.c:463-480: walk back from the new node `nn` and remove the nodes that it dominates; they go to the output if their third coordinate is
smaller, and otherwise their `remover` is set.  The first argument is the sequence of the nodes before the new one, the nearest first. -/
def levelRemove (nn : LNode α) : List (LNode α) → List (LNode α) → (ℕ → Option (LNode α)) →
    Option (List (LNode α) × List (LNode α) × (ℕ → Option (LNode α)))
  | [], _, _ => none
  | n :: ns, out, rem =>
    if n.x ≥ nn.x then
      if n.z < nn.z then levelRemove nn ns (out ++ [n]) rem
      else levelRemove nn ns out (upd rem n.id (some nn))
    else some (n :: ns, out, rem)

/-- `add2level`, c/eaf3d.c:435-486, on `level[k]` and `output[k]`.  Returns the new state and the returned pointer. -/
def add2level (nset : ℕ) (st : St3 α) (k : ℕ) (x y z : α) (set : ℕ) (promoter : Option (LNode α)) : Option (St3 α × Option (LNode α)) :=
  if ¬ k < nset then none
  else
    let (pre, post) := levelSplit (st.levels k) x y
    match pre, post with
    | [], _ => none
    | _, [] => none
    | pre, aux :: post =>
      if aux.x > x then
        let nn : LNode α := ⟨st.heap.fresh, x, y, z, set⟩
        match levelRemove nn pre.reverse (st.outs k) (upd st.heap.rem nn.id none) with
        | none => none
        | some (left, out, rem) =>
          some (⟨st.sets, upd st.levels k (left.reverse ++ nn :: aux :: post), upd st.outs k out,
            ⟨st.heap.fresh + 1, upd st.heap.prom nn.id promoter, rem, upd st.heap.eql nn.id none⟩⟩, some nn)
      else some (st, none)

/-- `node->equal = tnode`. -/
def setEqual (st : St3 α) (n t : LNode α) : St3 α := { st with heap := { st.heap with eql := upd st.heap.eql n.id (some t) } }

/-- `if (tnode != NULL && cond) node->equal = tnode;` -/
def linkEqual (st : St3 α) (n : LNode α) (tnode : Option (LNode α)) (cond : Prop) [Decidable cond] : St3 α :=
  match tnode with
  | none => st
  | some t => if cond then setEqual st n t else st

/-- `aux[k].levelNode` and `aux[k].promoter`, c/eaf3d.c:542-552: either a node of the level, which is then also the promoter, or the node
`intersectNode` with its two coordinates, its `next` pointer, and the promoter. -/
inductive Cur (α : Type*) where
  | inter (x y : α) (next promoter : LNode α)
  | node (n : LNode α)

/-- `node_point(aux[k].levelNode)[0]`. -/
def Cur.x : Cur α → α
  | .inter x _ _ _ => x
  | .node n => n.x
/-- `node_point(aux[k].levelNode)[1]`. -/
def Cur.y : Cur α → α
  | .inter _ y _ _ => y
  | .node n => n.y
/-- `aux[k].promoter`. -/
def Cur.promoter : Cur α → LNode α
  | .inter _ _ _ p => p
  | .node n => n
/-- `node_point(aux[k].levelNode)[2]`: `intersectValues` has only two elements. -/
def Cur.z? : Cur α → Option α
  | .inter _ _ _ _ => none
  | .node n => some n.z
/-- `aux[k].levelNode->next`. -/
def Cur.next (L : List (LNode α)) : Cur α → Option (LNode α)
  | .inter _ _ m _ => some m
  | .node n => nextIn L n
/-- The nodes that `aux[k]` refers to are still in the level. -/
def Cur.valid (L : List (LNode α)) (c : Cur α) : Prop := c.promoter ∈ L

instance (L : List (LNode α)) (c : Cur α) : Decidable (c.valid L) := inferInstanceAs (Decidable (_ ∈ _))

/-- c/eaf3d.c:588-614, the first part, for the levels `k-1, ..., 0` (the argument is `k`): the levels that dominate `new`, or the first node to look at in each level.
`prevY` is the second coordinate of `newPrev`.  Returns `dom_new`, `stop_at` and `aux`. -/
def firstPart (st : St3 α) (p : Pt3 α) (prevY : α) : ℕ → (ℕ → Option (Cur α)) → Option (Option (LNode α) × ℕ × (ℕ → Option (Cur α)))
  | 0, a => some (none, 0, a)
  | k + 1, a =>
    match findAtLeft (st.levels k) p.x with
    | none => none
    | some left =>
      if left.y ≤ p.y then some (some left, k + 1, a)
      else if left.y < prevY then
        match nextIn (st.levels k) left with
        | none => none
        | some nx => firstPart st p prevY k (upd a k (some (.inter p.x left.y nx left)))
      else
        match findBelow (st.levels k) prevY with
        | none => none
        | some n => firstPart st p prevY k (upd a k (some (.node n)))

/-- c/eaf3d.c:629-646, the `while` loop of the second part at level `k`, for the point `q` of the set of `new`. -/
def promWhile (nset : ℕ) (p : Pt3 α) (q : α × α) (k : ℕ) : ℕ → Cur α → St3 α → Option (Cur α × St3 α)
  | 0, _, _ => none
  | fuel + 1, c, st =>
    if ¬ c.valid (st.levels k) then none
    else
      let lbound := max q.2 p.y
      if c.y ≥ lbound ∧ (c.y > lbound ∨ lbound > p.y) then
        if q.1 ≤ c.x then
          match findBelow (st.levels k) q.2 with
          | none => none
          | some n => promWhile nset p q k fuel (.node n) st
        else
          match add2level nset st (k + 1) c.x c.y p.z p.set (some c.promoter) with
          | none => none
          | some (st, tnode) =>
            let st := linkEqual st c.promoter tnode (p.z = c.promoter.z ∧ c.x = c.promoter.x)
            match c.next (st.levels k) with
            | none => none
            | some n => promWhile nset p q k fuel (.node n) st
      else some (c, st)

/-- c/eaf3d.c:627-647, the loop over the levels of the second part. -/
def promLevels (nset : ℕ) (p : Pt3 α) (q : α × α) (fuel : ℕ) : List ℕ → (ℕ → Option (Cur α)) → St3 α → Option ((ℕ → Option (Cur α)) × St3 α)
  | [], a, st => some (a, st)
  | k :: ks, a, st =>
    match a k with
    | none => none
    | some c =>
      match promWhile nset p q k fuel c st with
      | none => none
      | some (c, st) => promLevels nset p q fuel ks (upd a k (some c)) st

/-- c/eaf3d.c:623-648, the second part; the list holds the nodes of the set after `newPrev`.  Returns also `setNode`. -/
def secondPart (nset : ℕ) (p : Pt3 α) (fuel : ℕ) (ks : List ℕ) : List (α × α) → (ℕ → Option (Cur α)) → St3 α →
    Option ((α × α) × (ℕ → Option (Cur α)) × St3 α)
  | [], _, _ => none
  | q :: qs, a, st =>
    match promLevels nset p q fuel ks a st with
    | none => none
    | some (a, st) => if q.2 > p.y then secondPart nset p fuel ks qs a st else some (q, a, st)

/-- c/eaf3d.c:650-662, the third part. -/
def thirdPart (nset : ℕ) (p : Pt3 α) (q : α × α) : List ℕ → (ℕ → Option (Cur α)) → St3 α → Option (St3 α)
  | [], _, st => some st
  | k :: ks, a, st =>
    match a k with
    | none => none
    | some c =>
      if ¬ c.valid (st.levels k) then none
      else if c.x < q.1 then
        match add2level nset st (k + 1) c.x p.y p.z p.set (some c.promoter) with
        | none => none
        | some (st, none) => thirdPart nset p q ks a st
        | some (st, some t) =>
          match c.z? with
          | none => none
          | some cz => thirdPart nset p q ks a (if p.z = cz ∧ p.y = c.y then setEqual st c.promoter t else st)
      else thirdPart nset p q ks a st

/-- `add2set`, c/eaf3d.c:398-417: `pre` are the nodes up to `newPrev`, the nearest first, and `post` the nodes after it. -/
def add2set (pre post : List (α × α)) (x y : α) : Option (List (α × α)) :=
  match pre with
  | [] => none
  | b :: bs =>
    let (pre, post) := if b.1 = x then (bs, b :: post) else (b :: bs, post)
    match post.dropWhile (fun q => y ≤ q.2) with
    | [] => none
    | q :: qs => some (pre.reverse ++ (x, y) :: q :: qs)

/-- c/eaf3d.c:571-680, one iteration of the main loop.  `start` is `start_at`. -/
def eaf3dStep (nset fuel : ℕ) (p : Pt3 α) (start : ℕ) (mask : ℕ → Bool) (st : St3 α) : Option (ℕ × (ℕ → Bool) × St3 α) :=
  if ¬ p.set < nset then none
  else
    let S := st.sets p.set
    match (S.takeWhile (fun q => q.1 ≤ p.x)).reverse with
    | [] => none
    | newPrev :: before =>
      let after := S.dropWhile (fun q => q.1 ≤ p.x)
      if newPrev.2 ≤ p.y then some (start, mask, st)
      else
        match firstPart st p newPrev.2 (start + 1) (fun _ => none) with
        | none => none
        | some (dom, stop, a) =>
          let ks := (List.range' stop (start + 1 - stop)).reverse
          match secondPart nset p fuel ks after a st with
          | none => none
          | some (q, a, st) =>
            match thirdPart nset p q ks a st with
            | none => none
            | some st =>
              match add2set (newPrev :: before) after p.x p.y with
              | none => none
              | some S' =>
                match add2level nset { st with sets := upd st.sets p.set S' } stop p.x p.y p.z p.set dom with
                | none => none
                | some (st, tnode) =>
                  let st := match dom with
                    | some d => linkEqual st d tnode (p.z = d.z ∧ p.y = d.y ∧ p.x = d.x)
                    | none => st
                  if mask p.set then some (start, mask, st)
                  else some (if start + 2 < nset then start + 1 else start, upd mask p.set true, st)

/-- c/eaf3d.c:570-680, the main loop. -/
def eaf3dLoop (nset fuel : ℕ) : List (Pt3 α) → ℕ → (ℕ → Bool) → St3 α → Option (St3 α)
  | [], _, _, st => some st
  | p :: ps, start, mask, st =>
    match eaf3dStep nset fuel p start mask st with
    | none => none
    | some (start, mask, st) => eaf3dLoop nset fuel ps start mask st

/-- The trees before `eaf3df` is called, c/eaf3d.c:801-809.  The first two nodes stand for the sentinels. -/
def eaf3dInit (mn mx junk : α) : St3 α :=
  ⟨fun _ => [(mn, mx), (mx, mn)], fun _ => [headNode mn mx junk, tailNode mn mx junk], fun _ => [], ⟨2, fun _ => none, fun _ => none, fun _ => none⟩⟩

/-- `avl_insert_after(tree, tree->head, node)` on the sequence. -/
def insertAfterHead {β : Type*} (l : List β) (b : β) : Option (List β) :=
  match l with
  | [] => none
  | h :: t => some (h :: b :: t)

/-- `eaf3df`, c/eaf3d.c:535-683, for the points in the order of the list. -/
def eaf3df (nset fuel : ℕ) (ps : List (Pt3 α)) (st : St3 α) : Option (St3 α) :=
  match ps with
  | [] => none
  | p :: ps =>
    if ¬ (p.set < nset ∧ 0 < nset) then none
    else
      let nn : LNode α := ⟨st.heap.fresh, p.x, p.y, p.z, p.set⟩
      match insertAfterHead (st.sets p.set) (p.x, p.y), insertAfterHead (st.levels 0) nn with
      | some S, some L =>
        eaf3dLoop nset fuel ps 0 (upd (fun _ => false) p.set true)
          ⟨upd st.sets p.set S, upd st.levels 0 L, st.outs,
            ⟨st.heap.fresh + 1, upd st.heap.prom nn.id none, upd st.heap.rem nn.id none, upd st.heap.eql nn.id none⟩⟩
      | _, _ => none

/-- `add2output_all`, c/eaf3d.c:372-392: the output of the level, then the nodes of the level without the two sentinels.  When no node is left in the
level, the `next` pointer of the last node of the output is not reset (c/eaf3d.c:385): it would still point into the tree. -/
def add2outputAll (out level : List (LNode α)) : Option (List (LNode α)) :=
  if level.tail.dropLast = [] ∧ out ≠ [] then none else some (out ++ level.tail.dropLast)

/-- The `while` loop over `equal`, c/eaf3d.c:201-206. -/
def promEqual (h : Heap3 α) : ℕ → Option (LNode α) → (ℕ → ℤ) → Option (ℕ → ℤ)
  | _, none, att => some att
  | 0, some _, _ => none
  | fuel + 1, some n, att => promEqual h fuel (h.eql n.id) (upd att n.set 1)

mutual
/-- `find_all_promoters`, c/eaf3d.c:189-207. -/
def findAllPromoters (h : Heap3 α) : ℕ → LNode α → (ℕ → ℤ) → Option (ℕ → ℤ)
  | 0, _, _ => none
  | fuel + 1, n, att =>
    match promChain h fuel (some n) att with
    | none => none
    | some att => promEqual h fuel (h.eql n.id) att

/-- The `while` loop over `promoter`, c/eaf3d.c:194-199. -/
def promChain (h : Heap3 α) : ℕ → Option (LNode α) → (ℕ → ℤ) → Option (ℕ → ℤ)
  | _, none, att => some att
  | 0, some _, _ => none
  | fuel + 1, some n, att =>
    match h.rem n.id with
    | none => promChain h fuel (h.prom n.id) (upd att n.set 1)
    | some r =>
      match findAllPromoters h fuel r (upd att n.set 1) with
      | none => none
      | some att => promChain h fuel (h.prom n.id) att
end

/-- `compare_node`, c/eaf3d.c:72-78: by the third coordinate. -/
def compareNode3 (a b : ℕ → α) : ℤ := if a 2 < b 2 then -1 else if a 2 > b 2 then 1 else 0

/-- The possible orders of the list made by `setup_cdllist`, c/eaf3d.c:84-132, as row numbers. -/
def EafSortedZ (pts : ℕ → ℕ → α) (n : ℕ) (sz : List ℕ) : Prop :=
  Qsort (fun a b => compareNode3 (pts a) (pts b)) (List.range n) sz

/-- The list made by `setup_cdllist`, c/eaf3d.c:84-132; the loop that assigns the sets (94-97) is the one of `eaf2d`. -/
def eaf3dList (pts : ℕ → ℕ → α) (cumsize : ℕ → ℕ) (sz : List ℕ) : List (Pt3 α) :=
  sz.map (fun i => ⟨pts i 0, pts i 1, pts i 2, eafRuntab cumsize i⟩)

/-- c/eaf3d.c:831-840: the points and indicators stored for one level. -/
def eaf3dOut (h : Heap3 α) (fuel : ℕ) (nodes : List (LNode α)) : Option (List (LNode α × (ℕ → ℤ))) :=
  nodes.mapM (fun n => (findAllPromoters h fuel n (fun _ => 0)).map (fun att => (n, att)))

/-- `eaf3d`, c/eaf3d.c:779-844, for the order `sz` of the points; the memory of `eaf_t` is in `eaf3dSurface`.
`fuel` bounds the loops of `eaf3df` and `fuelP` those of `find_all_promoters`. -/
def eaf3d (mn mx junk : α) (pts : ℕ → ℕ → α) (cumsize : ℕ → ℕ) (nruns : ℕ) (attlevel : List ℤ) (sz : List ℕ) (fuel fuelP : ℕ) :
    Option (List (List (LNode α × (ℕ → ℤ)))) :=
  match eaf3df nruns fuel (eaf3dList pts cumsize sz) (eaf3dInit mn mx junk) with
  | none => none
  | some st =>
    match (List.range nruns).mapM (fun k => add2outputAll (st.outs k) (st.levels k)) with
    | none => none
    | some output =>
      attlevel.mapM fun l : ℤ =>
        if ¬ 1 ≤ l then none
        else
          match output[(l - 1).toNat]? with
          | none => none
          | some nodes => eaf3dOut st.heap fuelP nodes

/-- The surfaces in memory, c/eaf3d.c:826-842. -/
def eaf3dSurface (V : EafEnv α) (nruns npoints : ℕ) (out : List (LNode α × (ℕ → ℤ))) : Option (EafT α) :=
  eafStoreAll V 3 (out.map (fun o => ((fun d => if d = 0 then o.1.x else if d = 1 then o.1.y else o.1.z), o.2))) (eafCreate V 3 nruns npoints)

/-- `eaf_compute_matrix`, c/eaf.c:258-272, for three objectives, from the levels on. -/
def eafComputeMatrix3d (V : EafEnv α) (mn mx junk : α) (pts : ℕ → ℕ → α) (cumsize : ℕ → ℕ) (nruns : ℕ) (level : List ℤ) (perc : ℕ → α)
    (sz : List ℕ) (fuel fuelP : ℕ) : Option (List (List α)) :=
  match eaf3d mn mx junk pts cumsize nruns level sz fuel fuelP with
  | none => none
  | some outs =>
    match outs.mapM (fun out => eaf3dSurface V nruns (cumsize (nruns - 1)) out) with
    | none => none
    | some es => eafMatrixRows 3 perc 0 es

end

end Moo
