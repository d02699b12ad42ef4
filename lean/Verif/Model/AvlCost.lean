import Verif.Model.Avl

/-!
# Running time of the functions of the AVL tree library (c/avl.c, and the copy in c/hv.c:131-489)

The functions of `Verif/Model/Avl.lean` once more, with a count of their steps.  One step is one iteration of a loop of the program or one recursive call; what the
program does between two steps is straight-line code, a fixed number of elementary operations.  A function that needs more iterations of a loop than its fuel has no result
(`none`), so the count of a result is the count of a complete run.
-/

set_option autoImplicit false

namespace Moo

/-- A run that may fail (`none`), or gives a result and the number of its steps. -/
def Tm (α : Type) : Type := Option (α × ℕ)

/-- A run without steps. -/
def Tm.ret {α : Type} (a : α) : Tm α := some (a, 0)

/-- One run after another: the steps are added. -/
def Tm.andThen {α β : Type} (m : Tm α) (f : α → Tm β) : Tm β :=
  match m with
  | none => none
  | some (a, t) =>
    match f a with
    | none => none
    | some (b, u) => some (b, t + u)

instance : Monad Tm where
  pure := Tm.ret
  bind := Tm.andThen

/-- `k` steps. -/
def ticks (k : ℕ) : Tm Unit := some ((), k)

/-- One step. -/
def tick : Tm Unit := ticks 1

/-- A part of the program without loops, which may fail. -/
def Tm.lift {α : Type} (o : Option α) : Tm α := o.map fun a => (a, 0)

/-- The run fails. -/
def Tm.fail {α : Type} : Tm α := none

/-- The run ends with the result `a` after at most `B` steps. -/
def Runs {α : Type} (m : Tm α) (a : α) (B : ℕ) : Prop := ∃ t, t ≤ B ∧ m = some (a, t)

/-- c/avl.c:456-590 `avl_rebalance`; one step for each node on the way to the top. -/
def avlRebalanceT : ℕ → AvlHeap → ℕ → Tm AvlHeap
  | 0, h, n => if n ≠ 0 then Tm.fail else Tm.ret h
  | fuel + 1, h, n =>
    if n ≠ 0 then do
      tick
      avlRebalanceT fuel (avlRebalanceStep h n) (h.parent n)
    else Tm.ret h

/-- c/avl.c:258-272, the part of `avl_insert_before` for a node without left child. -/
def avlAttachLeftT (fuel : ℕ) (h : AvlHeap) (node new : ℕ) : Tm AvlHeap :=
  let h := avlClearNode h new
  let h := h.setNext new node
  let h := h.setParent new node
  let h := h.setPrev new (h.prev node)
  let h := if h.prev node ≠ 0 then h.setNext (h.prev node) new else { h with head := new }
  let h := h.setPrev node new
  let h := h.setLeft node new
  avlRebalanceT fuel h node

/-- c/avl.c:284-298, the part of `avl_insert_after` for a node without right child. -/
def avlAttachRightT (fuel : ℕ) (h : AvlHeap) (node new : ℕ) : Tm AvlHeap :=
  let h := avlClearNode h new
  let h := h.setPrev new node
  let h := h.setParent new node
  let h := h.setNext new (h.next node)
  let h := if h.next node ≠ 0 then h.setPrev (h.next node) new else { h with tail := new }
  let h := h.setNext node new
  let h := h.setRight node new
  avlRebalanceT fuel h node

mutual
/-- c/avl.c:249-273 `avl_insert_before`; one step for each call.  The first argument bounds the depth of the mutual recursion. -/
def avlInsertBeforeT : ℕ → ℕ → AvlHeap → ℕ → ℕ → Tm AvlHeap
  | 0, _, _, _, _ => Tm.fail
  | rec + 1, fuel, h, node, new => do
    tick
    if node = 0 then (if h.tail ≠ 0 then avlInsertAfterT rec fuel h h.tail new else Tm.ret (avlInsertTop h new))
    else if h.left node ≠ 0 then avlInsertAfterT rec fuel h (h.prev node) new
    else avlAttachLeftT fuel h node new
/-- c/avl.c:275-299 `avl_insert_after`; one step for each call. -/
def avlInsertAfterT : ℕ → ℕ → AvlHeap → ℕ → ℕ → Tm AvlHeap
  | 0, _, _, _, _ => Tm.fail
  | rec + 1, fuel, h, node, new => do
    tick
    if node = 0 then (if h.head ≠ 0 then avlInsertBeforeT rec fuel h h.head new else Tm.ret (avlInsertTop h new))
    else if h.right node ≠ 0 then avlInsertBeforeT rec fuel h (h.next node) new
    else avlAttachRightT fuel h node new
end

/-- c/avl.c:341-393 `avl_unlink_node`. -/
def avlUnlinkNodeT (fuel : ℕ) (h : AvlHeap) (n : ℕ) : Tm AvlHeap :=
  let h := avlUnlinkList h n
  let p := h.parent n
  let s := avlSuper h n p
  let l := h.left n
  let r := h.right n
  if l = 0 then
    let h := h.setSuper s r
    let h := h.setParentIf r p
    avlRebalanceT fuel h p
  else if r = 0 then
    let h := h.setSuper s l
    let h := h.setParent l p
    avlRebalanceT fuel h p
  else
    let subst := h.prev n
    if subst = l then
      let h := h.setRight subst r
      let h := h.setParent subst p
      let h := h.setParent r subst
      let h := h.setSuper s subst
      avlRebalanceT fuel h subst
    else
      let balnode := h.parent subst
      let h := h.setRight balnode (h.left subst)
      let h := h.setParentIf (h.right balnode) balnode
      let h := h.setLeft subst l
      let h := h.setParent l subst
      let h := h.setRight subst r
      let h := h.setParent subst p
      let h := h.setParent r subst
      let h := h.setSuper s subst
      avlRebalanceT fuel h balnode

/-- c/avl.c:149-165, the loop of `avl_search_closest`; one step, with one call of the comparison function, for each node. -/
def avlSearchLoopT (h : AvlHeap) (c : ℕ → ℤ) : ℕ → ℕ → Tm (ℕ × ℤ)
  | 0, _ => Tm.fail
  | fuel + 1, n => do
    tick
    if c n < 0 then (if h.left n ≠ 0 then avlSearchLoopT h c fuel (h.left n) else Tm.ret (n, -1))
    else if c n > 0 then (if h.right n ≠ 0 then avlSearchLoopT h c fuel (h.right n) else Tm.ret (n, 1))
    else Tm.ret (n, 0)

/-- c/avl.c:134-166 `avl_search_closest`. -/
def avlSearchClosestT (fuel : ℕ) (h : AvlHeap) (c : ℕ → ℤ) : Tm (ℕ × ℤ) :=
  if h.top = 0 then Tm.ret (0, 0) else avlSearchLoopT h c fuel h.top

/-- c/avl.c:173-176 `avl_search`: the node, `0` for `NULL`. -/
def avlSearchT (fuel : ℕ) (h : AvlHeap) (c : ℕ → ℤ) : Tm ℕ := do
  let r ← avlSearchClosestT fuel h c
  Tm.ret (if r.2 ≠ 0 then 0 else r.1)

/-- c/avl.c:301-314 `avl_insert_node`; `c n` is `cmp(newnode->item, n->item)`. -/
def avlInsertNodeT (fuel : ℕ) (h : AvlHeap) (c : ℕ → ℤ) (new : ℕ) : Tm (AvlHeap × ℕ) :=
  if h.top = 0 then Tm.ret (avlInsertTop h new, new)
  else do
    let r ← avlSearchClosestT fuel h c
    if r.2 = -1 then do
      let h ← avlInsertBeforeT 3 fuel h r.1 new
      Tm.ret (h, new)
    else if r.2 = 1 then do
      let h ← avlInsertAfterT 3 fuel h r.1 new
      Tm.ret (h, new)
    else Tm.ret (h, 0)

/-- c/avl.c:410-412 `avl_delete` through c/avl.c:397-408 `avl_delete_node`, without the release of memory and of the item. -/
def avlDeleteT (fuel : ℕ) (h : AvlHeap) (c : ℕ → ℤ) : Tm AvlHeap := do
  let n ← avlSearchT fuel h c
  if n ≠ 0 then avlUnlinkNodeT fuel h n else Tm.ret h

end Moo
