import Verif.Model.Basic

/-!
# Model of the AVL tree library (c/avl.c, and the copy in c/hv.c:131-489)

The heap is modelled at pointer level: nodes are numbers, `0` is `NULL`, and every field of `avl_node_t` is a function from
nodes.  The fields of `avl_tree_t` are part of the same structure, because every function works on one tree.  The fields
`set`, `promoter`, `remover`, `equal` (used by c/eaf3d.c only) are not modelled.  The library is compiled with `AVL_DEPTH`
and without `AVL_COUNT` (c/avl.h:34).

Loops and the mutual recursion of the insert functions carry a fuel argument; the theorems hold for every sufficient amount.
-/

set_option autoImplicit false

namespace Moo

/-- c/avl.h:55-91, the fields of the nodes and of the tree. -/
structure AvlHeap where
  left : ℕ → ℕ
  right : ℕ → ℕ
  parent : ℕ → ℕ
  next : ℕ → ℕ
  prev : ℕ → ℕ
  depth : ℕ → ℕ
  top : ℕ
  head : ℕ
  tail : ℕ

/-- Memory without any tree, for examples. -/
def AvlHeap.empty : AvlHeap := ⟨fun _ => 0, fun _ => 0, fun _ => 0, fun _ => 0, fun _ => 0, fun _ => 0, 0, 0, 0⟩

/-- c/avl.c:45 `NODE_DEPTH`. -/
def AvlHeap.nodeDepth (h : AvlHeap) (n : ℕ) : ℕ := if n ≠ 0 then h.depth n else 0

/-- c/avl.c:46 `L_DEPTH`. -/
def AvlHeap.lDepth (h : AvlHeap) (n : ℕ) : ℕ := h.nodeDepth (h.left n)

/-- c/avl.c:47 `R_DEPTH`. -/
def AvlHeap.rDepth (h : AvlHeap) (n : ℕ) : ℕ := h.nodeDepth (h.right n)

/-- c/avl.c:48 `CALC_DEPTH`; the conversion to `unsigned char` is a remainder. -/
def AvlHeap.calcDepth (h : AvlHeap) (n : ℕ) : ℕ :=
  ((if h.lDepth n > h.rDepth n then h.lDepth n else h.rDepth n) + 1) % 256

/-- c/avl.c:65-70 `avl_check_balance`. -/
def avlCheckBalance (h : AvlHeap) (n : ℕ) : ℤ :=
  let d : ℤ := (h.rDepth n : ℤ) - (h.lDepth n : ℤ)
  if d < -1 then -1 else if d > 1 then 1 else 0

/-- `n->left = v`. -/
def AvlHeap.setLeft (h : AvlHeap) (n v : ℕ) : AvlHeap := { h with left := upd h.left n v }
/-- `n->right = v`. -/
def AvlHeap.setRight (h : AvlHeap) (n v : ℕ) : AvlHeap := { h with right := upd h.right n v }
/-- `n->parent = v`. -/
def AvlHeap.setParent (h : AvlHeap) (n v : ℕ) : AvlHeap := { h with parent := upd h.parent n v }
/-- `n->next = v`. -/
def AvlHeap.setNext (h : AvlHeap) (n v : ℕ) : AvlHeap := { h with next := upd h.next n v }
/-- `n->prev = v`. -/
def AvlHeap.setPrev (h : AvlHeap) (n v : ℕ) : AvlHeap := { h with prev := upd h.prev n v }
/-- `n->depth = CALC_DEPTH(n)`. -/
def AvlHeap.fixDepth (h : AvlHeap) (n : ℕ) : AvlHeap := { h with depth := upd h.depth n (h.calcDepth n) }
/-- `if(n) n->parent = v`. -/
def AvlHeap.setParentIf (h : AvlHeap) (n v : ℕ) : AvlHeap := if n ≠ 0 then h.setParent n v else h

/-- The possible values of the variable `superparent`: the address of one of these fields. -/
inductive AvlSuper
  | top
  | left (p : ℕ)
  | right (p : ℕ)

/-- c/avl.c:467-469 (and 359-361): the value of `superparent` for the node `n` whose parent is `p`. -/
def avlSuper (h : AvlHeap) (n p : ℕ) : AvlSuper :=
  if p ≠ 0 then (if n = h.left p then .left p else .right p) else .top

/-- `*superparent = v`. -/
def AvlHeap.setSuper (h : AvlHeap) (s : AvlSuper) (v : ℕ) : AvlHeap :=
  match s with
  | .top => { h with top := v }
  | .left p => h.setLeft p v
  | .right p => h.setRight p v

/-- c/avl.c:473-524: the single and the double rotation when the left side is too deep. -/
def avlRotateRight (h : AvlHeap) (n p : ℕ) (s : AvlSuper) : AvlHeap :=
  let c := h.left n
  if h.lDepth c ≥ h.rDepth c then
    let h := h.setLeft n (h.right c)
    let h := h.setParentIf (h.left n) n
    let h := h.setRight c n
    let h := h.setParent n c
    let h := h.setSuper s c
    let h := h.setParent c p
    let h := h.fixDepth n
    h.fixDepth c
  else
    let g := h.right c
    let h := h.setLeft n (h.right g)
    let h := h.setParentIf (h.left n) n
    let h := h.setRight c (h.left g)
    let h := h.setParentIf (h.right c) c
    let h := h.setRight g n
    let h := h.setParentIf (h.right g) g
    let h := h.setLeft g c
    let h := h.setParentIf (h.left g) g
    let h := h.setSuper s g
    let h := h.setParent g p
    let h := h.fixDepth n
    let h := h.fixDepth c
    h.fixDepth g

/-- c/avl.c:527-578: the single and the double rotation when the right side is too deep. -/
def avlRotateLeft (h : AvlHeap) (n p : ℕ) (s : AvlSuper) : AvlHeap :=
  let c := h.right n
  if h.rDepth c ≥ h.lDepth c then
    let h := h.setRight n (h.left c)
    let h := h.setParentIf (h.right n) n
    let h := h.setLeft c n
    let h := h.setParent n c
    let h := h.setSuper s c
    let h := h.setParent c p
    let h := h.fixDepth n
    h.fixDepth c
  else
    let g := h.left c
    let h := h.setRight n (h.left g)
    let h := h.setParentIf (h.right n) n
    let h := h.setLeft c (h.right g)
    let h := h.setParentIf (h.left c) c
    let h := h.setLeft g n
    let h := h.setParentIf (h.left g) g
    let h := h.setRight g c
    let h := h.setParentIf (h.right g) g
    let h := h.setSuper s g
    let h := h.setParent g p
    let h := h.fixDepth n
    let h := h.fixDepth c
    h.fixDepth g

/-- c/avl.c:465-588, one iteration of the loop of `avl_rebalance` on the node `n`. -/
def avlRebalanceStep (h : AvlHeap) (n : ℕ) : AvlHeap :=
  let p := h.parent n
  let s := avlSuper h n p
  if avlCheckBalance h n = -1 then avlRotateRight h n p s
  else if avlCheckBalance h n = 1 then avlRotateLeft h n p s
  else h.fixDepth n

/-- c/avl.c:456-590 `avl_rebalance`. The variable `parent` is read before the tree is changed. -/
def avlRebalance : ℕ → AvlHeap → ℕ → AvlHeap
  | 0, h, _ => h
  | fuel + 1, h, n => if n ≠ 0 then avlRebalance fuel (avlRebalanceStep h n) (h.parent n) else h

/-- c/avl.c:224-232 `avl_clear_node`. -/
def avlClearNode (h : AvlHeap) (n : ℕ) : AvlHeap :=
  { h with left := upd h.left n 0, right := upd h.right n 0, depth := upd h.depth n 1 }

/-- c/avl.c:242-247 `avl_insert_top`. -/
def avlInsertTop (h : AvlHeap) (n : ℕ) : AvlHeap :=
  let h := avlClearNode h n
  let h := ((h.setPrev n 0).setNext n 0).setParent n 0
  { h with head := n, tail := n, top := n }

/-- c/avl.c:258-272, the part of `avl_insert_before` for a node without left child. -/
def avlAttachLeft (fuel : ℕ) (h : AvlHeap) (node new : ℕ) : AvlHeap :=
  let h := avlClearNode h new
  let h := h.setNext new node
  let h := h.setParent new node
  let h := h.setPrev new (h.prev node)
  let h := if h.prev node ≠ 0 then h.setNext (h.prev node) new else { h with head := new }
  let h := h.setPrev node new
  let h := h.setLeft node new
  avlRebalance fuel h node

/-- c/avl.c:284-298, the part of `avl_insert_after` for a node without right child. -/
def avlAttachRight (fuel : ℕ) (h : AvlHeap) (node new : ℕ) : AvlHeap :=
  let h := avlClearNode h new
  let h := h.setPrev new node
  let h := h.setParent new node
  let h := h.setNext new (h.next node)
  let h := if h.next node ≠ 0 then h.setPrev (h.next node) new else { h with tail := new }
  let h := h.setNext node new
  let h := h.setRight node new
  avlRebalance fuel h node

mutual
/-- c/avl.c:249-273 `avl_insert_before`.  The first argument bounds the depth of the mutual recursion with `avl_insert_after`. -/
def avlInsertBefore : ℕ → ℕ → AvlHeap → ℕ → ℕ → AvlHeap
  | 0, _, h, _, _ => h
  | rec + 1, fuel, h, node, new =>
    if node = 0 then (if h.tail ≠ 0 then avlInsertAfter rec fuel h h.tail new else avlInsertTop h new)
    else if h.left node ≠ 0 then avlInsertAfter rec fuel h (h.prev node) new
    else avlAttachLeft fuel h node new
/-- c/avl.c:275-299 `avl_insert_after`. -/
def avlInsertAfter : ℕ → ℕ → AvlHeap → ℕ → ℕ → AvlHeap
  | 0, _, h, _, _ => h
  | rec + 1, fuel, h, node, new =>
    if node = 0 then (if h.head ≠ 0 then avlInsertBefore rec fuel h h.head new else avlInsertTop h new)
    else if h.right node ≠ 0 then avlInsertBefore rec fuel h (h.next node) new
    else avlAttachRight fuel h node new
end

/-- c/avl.c:347-355 in `avl_unlink_node`: the node is taken out of the list of `next` and `prev` links. -/
def avlUnlinkList (h : AvlHeap) (n : ℕ) : AvlHeap :=
  let h := if h.prev n ≠ 0 then h.setNext (h.prev n) (h.next n) else { h with head := h.next n }
  if h.next n ≠ 0 then h.setPrev (h.next n) (h.prev n) else { h with tail := h.prev n }

/-- c/avl.c:341-393 `avl_unlink_node`. -/
def avlUnlinkNode (fuel : ℕ) (h : AvlHeap) (n : ℕ) : AvlHeap :=
  let h := avlUnlinkList h n
  let p := h.parent n
  let s := avlSuper h n p
  let l := h.left n
  let r := h.right n
  if l = 0 then
    let h := h.setSuper s r
    let h := h.setParentIf r p
    avlRebalance fuel h p
  else if r = 0 then
    let h := h.setSuper s l
    let h := h.setParent l p
    avlRebalance fuel h p
  else
    let subst := h.prev n
    if subst = l then
      let h := h.setRight subst r
      let h := h.setParent subst p
      let h := h.setParent r subst
      let h := h.setSuper s subst
      avlRebalance fuel h subst
    else
      let balnode := h.parent subst
      let h := h.setRight balnode (h.left subst)
      let h := h.setParentIf (h.right balnode) balnode
      let h := h.setLeft subst l
      let h := h.setParent l subst
      let h := h.setRight subst r
      let h := h.setParent subst p
      let h := h.setParent r subst
      let h := h.setSuper s subst
      avlRebalance fuel h balnode

/-- c/avl.c:149-165, the loop of `avl_search_closest`; `c n` is `cmp(item, node->item)` for the node `n`.  Returns the node
and the return value. -/
def avlSearchLoop (h : AvlHeap) (c : ℕ → ℤ) : ℕ → ℕ → Option (ℕ × ℤ)
  | 0, _ => none
  | fuel + 1, n =>
    if c n < 0 then (if h.left n ≠ 0 then avlSearchLoop h c fuel (h.left n) else some (n, -1))
    else if c n > 0 then (if h.right n ≠ 0 then avlSearchLoop h c fuel (h.right n) else some (n, 1))
    else some (n, 0)

/-- c/avl.c:134-166 `avl_search_closest`. -/
def avlSearchClosest (fuel : ℕ) (h : AvlHeap) (c : ℕ → ℤ) : Option (ℕ × ℤ) :=
  if h.top = 0 then some (0, 0) else avlSearchLoop h c fuel h.top

/-- c/avl.c:173-176 `avl_search`: the node, `0` for `NULL`. -/
def avlSearch (fuel : ℕ) (h : AvlHeap) (c : ℕ → ℤ) : Option ℕ :=
  (avlSearchClosest fuel h c).map fun r => if r.2 ≠ 0 then 0 else r.1

/-- c/avl.c:301-314 `avl_insert_node`; `c n` is `cmp(newnode->item, n->item)`. Returns the tree and the returned node, `0` for `NULL`. -/
def avlInsertNode (fuel : ℕ) (h : AvlHeap) (c : ℕ → ℤ) (new : ℕ) : Option (AvlHeap × ℕ) :=
  if h.top = 0 then some (avlInsertTop h new, new)
  else (avlSearchClosest fuel h c).map fun r =>
    if r.2 = -1 then (avlInsertBefore 3 fuel h r.1 new, new)
    else if r.2 = 1 then (avlInsertAfter 3 fuel h r.1 new, new)
    else (h, 0)

/-- c/avl.c:410-412 `avl_delete` through c/avl.c:397-408 `avl_delete_node`, without the release of memory and of the item. -/
def avlDelete (fuel : ℕ) (h : AvlHeap) (c : ℕ → ℤ) : Option AvlHeap :=
  (avlSearch fuel h c).map fun n => if n ≠ 0 then avlUnlinkNode fuel h n else h

/-- c/avl.c:193-195 `avl_clear_tree`, c/avl.c:178-187 `avl_init_tree`. -/
def avlClearTree (h : AvlHeap) : AvlHeap := { h with top := 0, head := 0, tail := 0 }

end Moo
