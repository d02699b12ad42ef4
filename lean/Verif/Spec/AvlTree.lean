import Verif.Model.Avl

/-!
# What it means that a heap holds a correct AVL tree
-/

set_option autoImplicit false

namespace Moo

/-- Binary trees of nodes. -/
inductive ATree
  | nil
  | node (l : ATree) (i : ℕ) (r : ATree)

namespace ATree

/-- Nodes in order. -/
def ids : ATree → List ℕ
  | nil => []
  | node l i r => l.ids ++ i :: r.ids

/-- Height. -/
def height : ATree → ℕ
  | nil => 0
  | node l _ r => max l.height r.height + 1

/-- Every node's subtrees differ in height by at most one. -/
def Bal : ATree → Prop
  | nil => True
  | node l _ r => l.Bal ∧ r.Bal ∧ l.height ≤ r.height + 1 ∧ r.height ≤ l.height + 1

end ATree

/-- The tree at pointer `p`, whose parent field is `par`, is `t`. -/
def Rep (h : AvlHeap) : ℕ → ℕ → ATree → Prop
  | _, p, .nil => p = 0
  | par, p, .node l i r => p = i ∧ i ≠ 0 ∧ h.parent i = par ∧ h.depth i = (ATree.node l i r).height ∧
      Rep h i (h.left i) l ∧ Rep h i (h.right i) r

/-- The `next` and `prev` fields of the nodes `l` link them in this order; `a` comes before the first and `b` after the last. -/
def DSeg (next prev : ℕ → ℕ) : ℕ → List ℕ → ℕ → Prop
  | _, [], _ => True
  | a, x :: l, b => prev x = a ∧ next x = l.headD b ∧ DSeg next prev x l b

/-- The doubly linked list of the tree, from `head` to `tail`, consists of the nodes `l`. -/
def DList (h : AvlHeap) (l : List ℕ) : Prop :=
  h.head = l.headD 0 ∧ h.tail = l.getLastD 0 ∧ DSeg h.next h.prev 0 l 0

/-- The heap holds a correct AVL tree with the nodes `l` in this order: the `left`, `right` and `parent` fields form a binary tree with in-order sequence `l`
that starts at `top`, every `depth` field is the height of its subtree, heights of siblings differ by at most one, and the list from
`head` to `tail` is `l`. -/
def AvlInv (h : AvlHeap) (l : List ℕ) : Prop :=
  ∃ t : ATree, Rep h 0 h.top t ∧ t.Bal ∧ t.ids = l ∧ DList h l ∧ l.Nodup

end Moo
