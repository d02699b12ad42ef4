import Verif.Lemmas.AvlDelete
import Mathlib.Algebra.Order.Ring.Int

/-!
# C36, C37: the AVL tree library

`AvlInv h l` (Verif/Spec/AvlTree.lean) says that the heap holds a correct AVL tree whose nodes, in order, are `l`.
The bound `2 ^ 125` on the number of nodes comes from the eight bits of the field `depth`; no machine can reach it.
-/

set_option autoImplicit false

namespace Moo

/-- C36: inserting a node after `x` puts it right after `x` in the sequence, and the tree stays correct and balanced. -/
theorem C36_insert_after {h : AvlHeap} {A B : List ℕ} {x new fuel rec : ℕ} (hi : AvlInv h (A ++ x :: B))
    (hnew : new ∉ A ++ x :: B) (hnew0 : new ≠ 0) (hlen : (A ++ x :: B).length + 1 < 2 ^ 125)
    (hfuel : (A ++ x :: B).length < fuel) (hrec : 2 ≤ rec) :
    AvlInv (avlInsertAfter rec fuel h x new) (A ++ x :: new :: B) :=
  insertAfter_spec hi hnew hnew0 hlen hfuel hrec

/-- C36: inserting a node before `x`. -/
theorem C36_insert_before {h : AvlHeap} {A B : List ℕ} {x new fuel rec : ℕ} (hi : AvlInv h (A ++ x :: B))
    (hnew : new ∉ A ++ x :: B) (hnew0 : new ≠ 0) (hlen : (A ++ x :: B).length + 1 < 2 ^ 125)
    (hfuel : (A ++ x :: B).length < fuel) (hrec : 2 ≤ rec) :
    AvlInv (avlInsertBefore rec fuel h x new) (A ++ new :: x :: B) :=
  insertBefore_spec hi hnew hnew0 hlen hfuel hrec

/-- C36: inserting after `NULL` makes the node the first one, also in an empty tree. -/
theorem C36_insert_after_null {h : AvlHeap} {l : List ℕ} {new fuel rec : ℕ} (hi : AvlInv h l)
    (hnew : new ∉ l) (hnew0 : new ≠ 0) (hlen : l.length + 1 < 2 ^ 125) (hfuel : l.length < fuel) (hrec : 3 ≤ rec) :
    AvlInv (avlInsertAfter rec fuel h 0 new) (new :: l) :=
  insertAfter_null hi hnew hnew0 hlen hfuel hrec

/-- C36: inserting before `NULL` makes the node the last one, also in an empty tree. -/
theorem C36_insert_before_null {h : AvlHeap} {l : List ℕ} {new fuel rec : ℕ} (hi : AvlInv h l)
    (hnew : new ∉ l) (hnew0 : new ≠ 0) (hlen : l.length + 1 < 2 ^ 125) (hfuel : l.length < fuel) (hrec : 3 ≤ rec) :
    AvlInv (avlInsertBefore rec fuel h 0 new) (l ++ [new]) :=
  insertBefore_null hi hnew hnew0 hlen hfuel hrec

/-- C36: deleting the node `x` removes exactly `x` from the sequence. -/
theorem C36_delete {h : AvlHeap} {A B : List ℕ} {x fuel : ℕ} (hi : AvlInv h (A ++ x :: B))
    (hlen : (A ++ x :: B).length < 2 ^ 125) (hfuel : (A ++ x :: B).length < fuel) :
    AvlInv (avlUnlinkNode fuel h x) (A ++ B) :=
  unlink_spec hi hlen hfuel

/-- An empty tree is correct. -/
theorem C36_clear (h : AvlHeap) : AvlInv (avlClearTree h) [] :=
  ⟨.nil, rfl, trivial, rfl, ⟨rfl, rfl, trivial⟩, by simp⟩

/-- One call to the library. -/
inductive AvlOp
  | insertBefore (node new : ℕ)
  | insertAfter (node new : ℕ)
  | unlink (node : ℕ)

/-- What a call does to the sequence of the nodes; `none` when the call is not allowed: the node is not in the tree, or the new node is in it
already. -/
def AvlOp.onList : AvlOp → List ℕ → Option (List ℕ)
  | .insertBefore node new, l =>
    if new = 0 ∨ new ∈ l then none
    else if node = 0 then some (l ++ [new])
    else if node ∈ l then some (l.takeWhile (· ≠ node) ++ new :: l.dropWhile (· ≠ node))
    else none
  | .insertAfter node new, l =>
    if new = 0 ∨ new ∈ l then none
    else if node = 0 then some (new :: l)
    else if node ∈ l then some (l.takeWhile (· ≠ node) ++ node :: new :: (l.dropWhile (· ≠ node)).tail)
    else none
  | .unlink node, l => if node ∈ l then some (l.filter (· ≠ node)) else none

/-- What a call does to the tree. -/
def AvlOp.onHeap (fuel : ℕ) : AvlOp → AvlHeap → AvlHeap
  | .insertBefore node new, h => avlInsertBefore 3 fuel h node new
  | .insertAfter node new, h => avlInsertAfter 3 fuel h node new
  | .unlink node, h => avlUnlinkNode fuel h node

theorem mem_split_takeWhile {l : List ℕ} {x : ℕ} (hx : x ∈ l) :
    l = l.takeWhile (· ≠ x) ++ x :: (l.dropWhile (· ≠ x)).tail ∧ l.dropWhile (· ≠ x) = x :: (l.dropWhile (· ≠ x)).tail := by
  induction l with
  | nil => simp at hx
  | cons y l ih =>
    by_cases hy : y = x
    · subst hy; simp
    · have hx' : x ∈ l := by simpa [Ne.symm hy] using hx
      have := ih hx'
      simp only [List.takeWhile_cons, List.dropWhile_cons, hy, ne_eq, not_false_eq_true, decide_true, if_true]
      exact ⟨by rw [List.cons_append, ← this.1], this.2⟩

/-- C36: every allowed call keeps the tree correct and has the effect of the list operation. -/
theorem C36_step {h : AvlHeap} {l l' : List ℕ} {op : AvlOp} {fuel : ℕ} (hi : AvlInv h l) (hop : op.onList l = some l')
    (hlen : l.length + 1 < 2 ^ 125) (hfuel : l.length < fuel) : AvlInv (op.onHeap fuel h) l' := by
  have hnd : l.Nodup := by obtain ⟨_, _, _, _, _, h⟩ := hi; exact h
  cases op with
  | insertBefore node new =>
    simp only [AvlOp.onList] at hop
    split at hop
    · simp at hop
    rename_i hn
    rw [not_or] at hn
    split at hop
    · rename_i h0
      subst h0
      cases hop
      exact insertBefore_null hi hn.2 hn.1 hlen hfuel le_rfl
    split at hop
    · rename_i h0 hm
      cases hop
      obtain ⟨e1, e2⟩ := mem_split_takeWhile hm
      rw [e2]
      refine insertBefore_spec (by rw [← e1]; exact hi) (by rw [← e1]; exact hn.2) hn.1 (by rw [← e1]; exact hlen) (by rw [← e1]; exact hfuel) (by omega)
    · simp at hop
  | insertAfter node new =>
    simp only [AvlOp.onList] at hop
    split at hop
    · simp at hop
    rename_i hn
    rw [not_or] at hn
    split at hop
    · rename_i h0
      subst h0
      cases hop
      exact insertAfter_null hi hn.2 hn.1 hlen hfuel le_rfl
    split at hop
    · rename_i h0 hm
      cases hop
      obtain ⟨e1, e2⟩ := mem_split_takeWhile hm
      refine insertAfter_spec (by rw [← e1]; exact hi) (by rw [← e1]; exact hn.2) hn.1 (by rw [← e1]; exact hlen) (by rw [← e1]; exact hfuel) (by omega)
    · simp at hop
  | unlink node =>
    simp only [AvlOp.onList] at hop
    split at hop
    · rename_i hm
      cases hop
      obtain ⟨A, B, rfl⟩ := List.append_of_mem hm
      have h1 := List.nodup_append.1 hnd
      have h2 := List.nodup_cons.1 h1.2.1
      have e : (A ++ node :: B).filter (· ≠ node) = A ++ B := by
        rw [List.filter_append, List.filter_cons_of_neg (by simp)]
        rw [List.filter_eq_self.2, List.filter_eq_self.2]
        · intro j hj; simp; exact fun e => h2.1 (e ▸ hj)
        · intro j hj; simp; exact fun e => h1.2.2 j hj node (by simp) e
      rw [e]
      exact unlink_spec hi (by omega) hfuel
    · simp at hop

/-- The effect of a history of calls on the sequence. -/
def avlHistory : List AvlOp → List ℕ → Option (List ℕ)
  | [], l => some l
  | op :: ops, l => (op.onList l).bind (avlHistory ops)

theorem onList_length {op : AvlOp} {l l' : List ℕ} (h : op.onList l = some l') : l'.length ≤ l.length + 1 := by
  cases op with
  | insertBefore node new =>
    simp only [AvlOp.onList] at h
    split at h
    · simp at h
    split at h
    · cases h; simp
    split at h
    · cases h
      have := congrArg List.length (List.takeWhile_append_dropWhile (p := (· ≠ node)) (l := l))
      simp only [List.length_append, List.length_cons] at this ⊢
      omega
    · simp at h
  | insertAfter node new =>
    simp only [AvlOp.onList] at h
    split at h
    · simp at h
    split at h
    · cases h; simp
    split at h
    · rename_i hm
      cases h
      have := congrArg List.length (mem_split_takeWhile hm).1
      simp only [List.length_append, List.length_cons] at this ⊢
      omega
    · simp at h
  | unlink node =>
    simp only [AvlOp.onList] at h
    split at h
    · cases h
      have := List.length_filter_le (· ≠ node) l
      omega
    · simp at h

/-- C36: after every history of allowed calls, of any length, that starts from a correct tree, the tree is correct and its sequence is the one
obtained by applying the calls to a list. -/
theorem C36_history (ops : List AvlOp) : ∀ {h : AvlHeap} {l l' : List ℕ} {fuel : ℕ}, AvlInv h l → avlHistory ops l = some l' →
    l.length + ops.length < 2 ^ 125 → l.length + ops.length < fuel + 1 →
    AvlInv (ops.foldl (fun h op => op.onHeap fuel h) h) l' := by
  induction ops with
  | nil => intro h l l' fuel hi he _ _; cases he; exact hi
  | cons op ops ih =>
    intro h l l' fuel hi he h1 h2
    rw [avlHistory, Option.bind_eq_some_iff] at he
    obtain ⟨l1, e1, e2⟩ := he
    have := onList_length e1
    simp only [List.length_cons] at h1 h2
    rw [List.foldl_cons]
    exact ih (C36_step hi e1 (by omega) (by omega)) e2 (by omega) (by omega)

/-- A history that meets the hypotheses: five insertions, with rotations, and the deletion of a node with two children. -/
example : avlHistory [.insertAfter 0 1, .insertAfter 1 2, .insertAfter 2 3, .insertBefore 3 4, .insertBefore 0 5, .unlink 2] [] =
    some [1, 4, 3, 5] := by decide

/-- The tree after a history that starts from an empty tree. -/
def avlRun (ops : List AvlOp) : AvlHeap :=
  ops.foldl (fun h op => op.onHeap 10 h) (avlClearTree ⟨fun _ => 0, fun _ => 0, fun _ => 0, fun _ => 0, fun _ => 0, fun _ => 0, 0, 0, 0⟩)

/-- The tree of this history, computed by the model. -/
example : (fun h : AvlHeap => (h.head, h.next 1, h.next 4, h.next 3, h.tail, h.top, h.depth h.top))
    (avlRun [.insertAfter 0 1, .insertAfter 1 2, .insertAfter 2 3, .insertBefore 3 4, .insertBefore 0 5, .unlink 2]) = (1, 4, 3, 5, 5, 3, 3) := by decide +kernel

section Search

variable {κ : Type*} [LinearOrder κ]

/-- The comparison function of the tree agrees with the order of the keys. -/
def CmpOk (cmp : κ → κ → ℤ) : Prop := ∀ a b, (cmp a b < 0 ↔ a < b) ∧ (cmp a b = 0 ↔ a = b)

theorem CmpOk.gt {cmp : κ → κ → ℤ} (h : CmpOk cmp) (a b : κ) : 0 < cmp a b ↔ b < a := by
  constructor
  · intro hc
    rcases lt_trichotomy a b with h1 | h1 | h1
    · have := (h a b).1.2 h1; omega
    · have := (h a b).2.2 h1; omega
    · exact h1
  · intro hc
    rcases lt_trichotomy (cmp a b) 0 with h1 | h1 | h1
    · exact absurd ((h a b).1.1 h1) hc.not_gt
    · exact absurd ((h a b).2.1 h1) hc.ne'
    · exact h1

theorem cmp_sorted {cmp : κ → κ → ℤ} (h : CmpOk cmp) {key : ℕ → κ} {l : List ℕ} (hs : l.Pairwise (fun u v => key u ≤ key v)) (v : κ) :
    l.Pairwise (fun a b => (cmp v (key a) ≤ 0 → cmp v (key b) ≤ 0) ∧ (cmp v (key a) < 0 → cmp v (key b) < 0)) := by
  refine hs.imp ?_
  intro a b hab
  constructor
  · intro h1
    by_contra h2
    have h3 := (h.gt v (key b)).1 (by omega)
    have h4 : ¬ key a < v := fun h' => by have := (h.gt v (key a)).2 h'; omega
    exact h4 (hab.trans_lt h3)
  · intro h1
    exact (h _ _).1.2 (((h _ _).1.1 h1).trans_le hab)

/-- C37: in a non-empty tree whose keys are in non-decreasing order, the closest-search for `v` returns a node of the tree. If the return value is 0 the
node's key is `v`. If it is -1, then `v` is smaller than the key of the node and larger than all keys before it; if it is 1, then `v` is larger than the key
of the node and smaller than all keys after it. -/
theorem C37_search_closest {h : AvlHeap} {l : List ℕ} {key : ℕ → κ} {cmp : κ → κ → ℤ} {fuel : ℕ} (hc : CmpOk cmp) (hi : AvlInv h l)
    (hs : l.Pairwise (fun u v => key u ≤ key v)) (hne : l ≠ []) (hf : l.length ≤ fuel) (v : κ) :
    ∃ x s, avlSearchClosest fuel h (fun n => cmp v (key n)) = some (x, s) ∧ ∃ A B, l = A ++ x :: B ∧
      (s = 0 ∧ key x = v ∨
       s = -1 ∧ (∀ j ∈ A, key j < v) ∧ v < key x ∧ (∀ j ∈ B, v < key j) ∨
       s = 1 ∧ (∀ j ∈ A, key j < v) ∧ key x < v ∧ (∀ j ∈ B, v < key j)) := by
  obtain ⟨_, A, x, B, h1, h2, h3, h4⟩ := searchClosest_spec (c := fun n => cmp v (key n)) hi hne hf (cmp_sorted hc hs v)
  refine ⟨x, _, h4, A, B, h1, ?_⟩
  rcases lt_trichotomy (cmp v (key x)) 0 with h5 | h5 | h5
  · right; left
    refine ⟨by rw [if_pos h5], fun j hj => (hc.gt _ _).1 ((h2 j hj).2 (by omega)), (hc _ _).1.1 h5, fun j hj => (hc _ _).1.1 ((h3 j hj).2 (by omega))⟩
  · left
    exact ⟨by rw [if_neg (by omega), if_neg (by omega)], ((hc _ _).2.1 h5).symm⟩
  · right; right
    refine ⟨by rw [if_neg (by omega), if_pos h5], fun j hj => (hc.gt _ _).1 ((h2 j hj).2 (by omega)), (hc.gt _ _).1 h5, fun j hj => (hc _ _).1.1 ((h3 j hj).2 (by omega))⟩

/-- C37: the search finds a node with the given key if there is one, and only then. -/
theorem C37_search {h : AvlHeap} {l : List ℕ} {key : ℕ → κ} {cmp : κ → κ → ℤ} {fuel : ℕ} (hc : CmpOk cmp) (hi : AvlInv h l)
    (hs : l.Pairwise (fun u v => key u ≤ key v)) (hf : l.length ≤ fuel) (v : κ) :
    ∃ x, avlSearch fuel h (fun n => cmp v (key n)) = some x ∧ (x ≠ 0 → x ∈ l ∧ key x = v) ∧ (x = 0 → ∀ j ∈ l, key j ≠ v) := by
  by_cases hne : l = []
  · have htop := (top_eq_zero hi).2 hne
    exact ⟨0, by simp [avlSearch, avlSearchClosest, htop], by simp, by simp [hne]⟩
  · obtain ⟨x, s, h1, A, B, h2, h3⟩ := C37_search_closest hc hi hs hne hf v
    rw [avlSearch, h1, Option.map_some]
    have hx : x ∈ l := by rw [h2]; simp
    have hx0 : x ≠ 0 := fun e => hi.zero_not_mem (e ▸ hx)
    rcases h3 with ⟨rfl, hk⟩ | ⟨rfl, ha, hk, hb⟩ | ⟨rfl, ha, hk, hb⟩
    · exact ⟨x, by simp, fun _ => ⟨hx, hk⟩, fun e => absurd e hx0⟩
    · refine ⟨0, by simp, by simp, fun _ j hj => ?_⟩
      rw [h2, List.mem_append, List.mem_cons] at hj
      rcases hj with hj | rfl | hj
      · exact (ha j hj).ne
      · exact hk.ne'
      · exact (hb j hj).ne'
    · refine ⟨0, by simp, by simp, fun _ j hj => ?_⟩
      rw [h2, List.mem_append, List.mem_cons] at hj
      rcases hj with hj | rfl | hj
      · exact (ha j hj).ne
      · exact hk.ne
      · exact (hb j hj).ne'

/-- C37: `avl_insert_node` on a tree with strictly increasing keys. If the key of the new node is in the tree, nothing changes and `NULL` is
returned; otherwise the node is added and the keys stay strictly increasing. -/
theorem C37_insert_sorted {h : AvlHeap} {l : List ℕ} {key : ℕ → κ} {cmp : κ → κ → ℤ} {fuel new : ℕ} (hc : CmpOk cmp) (hi : AvlInv h l)
    (hs : l.Pairwise (fun u v => key u < key v)) (hnew : new ∉ l) (hnew0 : new ≠ 0) (hlen : l.length + 1 < 2 ^ 125) (hf : l.length < fuel) :
    ∃ h' r, avlInsertNode fuel h (fun n => cmp (key new) (key n)) new = some (h', r) ∧
      ((∃ j ∈ l, key j = key new) → h' = h ∧ r = 0) ∧
      ((∀ j ∈ l, key j ≠ key new) → r = new ∧ ∃ l', AvlInv h' l' ∧ l'.Perm (new :: l) ∧ l'.Pairwise (fun u v => key u < key v)) := by
  by_cases hne : l = []
  · have htop := (top_eq_zero hi).2 hne
    subst hne
    exact ⟨avlInsertTop h new, new, by rw [avlInsertNode, if_pos htop], by simp,
      fun _ => ⟨rfl, [new], insertTop_spec h new hnew0, List.Perm.refl _, by simp⟩⟩
  · have htop : h.top ≠ 0 := fun e => hne ((top_eq_zero hi).1 e)
    obtain ⟨x, s, h1, A, B, rfl, h3⟩ := C37_search_closest hc hi (hs.imp le_of_lt) hne hf.le (key new)
    rw [avlInsertNode, if_neg htop, h1, Option.map_some]
    have hs' := List.pairwise_append.1 hs
    have hs'' := List.pairwise_cons.1 hs'.2.1
    rcases h3 with ⟨rfl, hk⟩ | ⟨rfl, ha, hk, hb⟩ | ⟨rfl, ha, hk, hb⟩
    · exact ⟨h, 0, by simp, fun _ => ⟨rfl, rfl⟩, fun hn => absurd hk (hn x (by simp))⟩
    · refine ⟨avlInsertBefore 3 fuel h x new, new, by simp, ?_, fun _ => ⟨rfl, A ++ new :: x :: B, insertBefore_spec hi hnew hnew0 hlen hf (by omega), List.perm_middle, ?_⟩⟩
      · rintro ⟨j, hj, hk'⟩
        rw [List.mem_append, List.mem_cons] at hj
        rcases hj with hj | rfl | hj
        · exact absurd hk' (ha j hj).ne
        · exact absurd hk' hk.ne'
        · exact absurd hk' (hb j hj).ne'
      · rw [List.pairwise_append, List.pairwise_cons]
        refine ⟨hs'.1, ⟨?_, hs'.2.1⟩, ?_⟩
        · intro j hj
          rw [List.mem_cons] at hj
          rcases hj with rfl | hj
          · exact hk
          · exact hb j hj
        · intro a ha' b hb'
          rw [List.mem_cons] at hb'
          rcases hb' with rfl | hb'
          · exact ha a ha'
          · exact hs'.2.2 a ha' b hb'
    · refine ⟨avlInsertAfter 3 fuel h x new, new, by simp, ?_, fun _ => ⟨rfl, A ++ x :: new :: B, insertAfter_spec hi hnew hnew0 hlen hf (by omega), ?_, ?_⟩⟩
      · rintro ⟨j, hj, hk'⟩
        rw [List.mem_append, List.mem_cons] at hj
        rcases hj with hj | rfl | hj
        · exact absurd hk' (ha j hj).ne
        · exact absurd hk' hk.ne
        · exact absurd hk' (hb j hj).ne'
      · have e1 : A ++ x :: new :: B = (A ++ [x]) ++ new :: B := by simp
        have e2 : A ++ x :: B = (A ++ [x]) ++ B := by simp
        rw [e1, e2]; exact List.perm_middle
      · rw [List.pairwise_append, List.pairwise_cons, List.pairwise_cons]
        refine ⟨hs'.1, ⟨?_, ?_, hs''.2⟩, ?_⟩
        · intro j hj
          rw [List.mem_cons] at hj
          rcases hj with rfl | hj
          · exact hk
          · exact hs''.1 j hj
        · exact hb
        · intro a ha' b hb'
          rw [List.mem_cons, List.mem_cons] at hb'
          rcases hb' with rfl | rfl | hb'
          · exact hs'.2.2 a ha' _ (by simp)
          · exact ha a ha'
          · exact hs'.2.2 a ha' b (by simp [hb'])

/-- C37: `avl_delete` by key on a tree with strictly increasing keys removes exactly the node with this key, if there is one. -/
theorem C37_delete_key {h : AvlHeap} {l : List ℕ} {key : ℕ → κ} {cmp : κ → κ → ℤ} {fuel : ℕ} (hc : CmpOk cmp) (hi : AvlInv h l)
    (hs : l.Pairwise (fun u v => key u < key v)) (hlen : l.length < 2 ^ 125) (hf : l.length < fuel) (v : κ) :
    ∃ h', avlDelete fuel h (fun n => cmp v (key n)) = some h' ∧ AvlInv h' (l.filter (fun n => key n ≠ v)) := by
  obtain ⟨x, h1, h2, h3⟩ := C37_search hc hi (hs.imp le_of_lt) hf.le v
  rw [avlDelete, h1, Option.map_some]
  refine ⟨_, rfl, ?_⟩
  by_cases hx : x = 0
  · rw [if_neg (by simpa using hx), List.filter_eq_self.2]
    · exact hi
    · intro j hj; simpa using h3 hx j hj
  · rw [if_pos hx]
    obtain ⟨hm, hk⟩ := h2 hx
    obtain ⟨A, B, rfl⟩ := List.append_of_mem hm
    have hs' := List.pairwise_append.1 hs
    have hs'' := List.pairwise_cons.1 hs'.2.1
    have e : (A ++ x :: B).filter (fun n => key n ≠ v) = A ++ B := by
      rw [List.filter_append, List.filter_cons_of_neg (by simpa using hk)]
      rw [List.filter_eq_self.2, List.filter_eq_self.2]
      · intro j hj; simpa [← hk] using (hs''.1 j hj).ne'
      · intro j hj; simpa [← hk] using (hs'.2.2 j hj x (by simp)).ne
    rw [e]
    exact unlink_spec hi hlen hf

end Search

/-- A comparison function that meets `CmpOk`. -/
example : CmpOk (fun a b : ℤ => if a < b then -1 else if b < a then 1 else 0) := by
  intro a b
  dsimp only
  split_ifs with h1 h2
  · simp [h1, h1.ne]
  · simp [h1, h2.ne']
  · simp [h1]; omega

end Moo
