import Verif.Lemmas.AvlDelete

/-!
# What the operations on an AVL tree leave unchanged
-/

set_option autoImplicit false
set_option linter.unusedSectionVars false

namespace Moo

/-! ### `next` fields -/

theorem rotateRight_next (h : AvlHeap) (n p : ℕ) (s : AvlSuper) : (avlRotateRight h n p s).next = h.next := by
  unfold avlRotateRight
  dsimp only
  split_ifs <;> simp

theorem rotateLeft_next (h : AvlHeap) (n p : ℕ) (s : AvlSuper) : (avlRotateLeft h n p s).next = h.next := by
  unfold avlRotateLeft
  dsimp only
  split_ifs <;> simp

theorem rebalanceStep_next (h : AvlHeap) (n : ℕ) : (avlRebalanceStep h n).next = h.next := by
  unfold avlRebalanceStep
  dsimp only
  split_ifs
  · exact rotateRight_next ..
  · exact rotateLeft_next ..
  · rfl

theorem rebalance_next : ∀ (fuel : ℕ) (h : AvlHeap) (n : ℕ), (avlRebalance fuel h n).next = h.next
  | 0, _, _ => rfl
  | fuel + 1, h, n => by
    rw [avlRebalance]
    split_ifs
    · rw [rebalance_next fuel, rebalanceStep_next]
    · rfl

theorem unlinkNode_next (fuel : ℕ) (h : AvlHeap) (n : ℕ) : (avlUnlinkNode fuel h n).next = (avlUnlinkList h n).next := by
  unfold avlUnlinkNode
  dsimp only
  split_ifs <;> simp [rebalance_next]

theorem AvlInv.prev_ne_self {h : AvlHeap} {A B : List ℕ} {x : ℕ} (hi : AvlInv h (A ++ x :: B)) : h.prev x ≠ x := by
  have hz := hi.zero_not_mem
  obtain ⟨t, hr, hb, hids, hd, hnd⟩ := hi
  have hat := dlist_at hd
  have hx0 : x ≠ 0 := fun e => hz (by simp [e])
  have hndA := List.nodup_append.1 hnd
  rw [hat.1]
  intro e
  by_cases hA : A = []
  · subst hA; exact hx0 e.symm
  · have := getLastD_mem hA; rw [e] at this; exact hndA.2.2 x this x (by simp) rfl

/-- Only the `next` field of the node before it changes when a node is removed. -/
theorem unlink_next {h : AvlHeap} {A B : List ℕ} {x fuel j : ℕ} (hi : AvlInv h (A ++ x :: B)) (hj : j ∉ A) (hj0 : j ≠ 0) :
    (avlUnlinkNode fuel h x).next j = h.next j := by
  have hp := hi.prev_ne_self
  obtain ⟨t, hr, hb, hids, hd, hnd⟩ := hi
  have hat := dlist_at hd
  rw [unlinkNode_next, (unlinkList_fields h x hp).2.2.2.2.2.1, updIf_ne]
  rw [hat.1]
  intro e
  by_cases hA : A = []
  · subst hA; exact hj0 e
  · exact hj (e ▸ getLastD_mem hA)

theorem attachRight_next {h : AvlHeap} {x new fuel j : ℕ} (hx : x ≠ new) (h1 : j ≠ new) (h2 : j ≠ x) :
    (avlAttachRight fuel h x new).next j = h.next j := by
  obtain ⟨h', e0, _, _, _, _, _, eN, _⟩ := avlAttachRight_fields h x new hx
  rw [e0, rebalance_next, eN, upd_ne _ _ h2, upd_ne _ _ h1]

theorem attachLeft_next {h : AvlHeap} {x new fuel j : ℕ} (hx : x ≠ new) (h1 : j ≠ new) (h2 : j ≠ h.prev x) :
    (avlAttachLeft fuel h x new).next j = h.next j := by
  obtain ⟨h', e0, _, _, _, _, eN, _⟩ := avlAttachLeft_fields h x new hx
  rw [e0, rebalance_next, eN, updIf_ne _ _ h2, upd_ne _ _ h1]

/-- An insertion after a node `x` changes no `next` field but those of `x` and of the new node. -/
theorem insertAfter_next {h : AvlHeap} {A B : List ℕ} {x new fuel rec j : ℕ} (hi : AvlInv h (A ++ x :: B))
    (hnew : new ∉ A ++ x :: B) (hrec : 2 ≤ rec) (h1 : j ≠ new) (h2 : j ≠ x) :
    (avlInsertAfter rec fuel h x new).next j = h.next j := by
  obtain ⟨rec, rfl⟩ : ∃ k, rec = k + 2 := ⟨rec - 2, by omega⟩
  have hz := hi.zero_not_mem
  have hx0 : x ≠ 0 := fun e => hz (by simp [e])
  have hxn : x ≠ new := fun e => hnew (by simp [e])
  rw [avlInsertAfter, if_neg hx0]
  by_cases hr : h.right x = 0
  · rw [if_neg (by simpa using hr)]
    exact attachRight_next hxn h1 h2
  rw [if_pos hr]
  obtain ⟨t, hrep, hb, hids, hd, hnd⟩ := hi
  have hat := dlist_at hd
  cases B with
  | nil =>
    exact absurd (right_last (c := []) (t := t) hrep (by rw [hids]; exact hnd) hids) hr
  | cons y B =>
    have hy0 : y ≠ 0 := fun e => hz (by simp [e])
    have hly : h.left y = 0 := left_of_next hrep (by rw [hids]; exact hnd) hids hr
    have hnx : h.next x = y := hat.2
    have hyn : y ≠ new := fun e => hnew (by simp [e])
    have hd' : DList h ((A ++ [x]) ++ y :: B) := by simpa using hd
    have hpy : h.prev y = x := by
      rw [(dlist_at hd').1, getLastD_append A x [] 0 0]; rfl
    rw [hnx, avlInsertBefore, if_neg hy0, if_neg (by simpa using hly)]
    exact attachLeft_next hyn h1 (by rw [hpy]; exact h2)

/-- The tree stays a correct tree when fields of other nodes change. -/
theorem AvlInv.frame {h h' : AvlHeap} {l : List ℕ} (hi : AvlInv h l) (h1 : ∀ j ∈ l, h'.left j = h.left j) (h2 : ∀ j ∈ l, h'.right j = h.right j)
    (h3 : ∀ j ∈ l, h'.parent j = h.parent j) (h4 : ∀ j ∈ l, h'.next j = h.next j) (h5 : ∀ j ∈ l, h'.prev j = h.prev j)
    (h6 : ∀ j ∈ l, h'.depth j = h.depth j) (t1 : h'.top = h.top) (t2 : h'.head = h.head) (t3 : h'.tail = h.tail) : AvlInv h' l := by
  obtain ⟨t, hr, hb, rfl, hd, hnd⟩ := hi
  refine ⟨t, ?_, hb, rfl, ⟨by rw [t2]; exact hd.1, by rw [t3]; exact hd.2.1, dseg_congr hd.2.2 h4 h5⟩, hnd⟩
  rw [t1]
  exact hr.congr' hnd h1 h2 h6 h3

end Moo
