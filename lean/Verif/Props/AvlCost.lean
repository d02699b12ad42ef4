import Verif.Lemmas.AvlCost

/-!
# C96: running time of the operations on the AVL tree

The comments of c/avl.h promise `O(lg n)` for searching, inserting and deleting.  `Runs m a B` says that the run `m` ends with the result `a` after at most `B` steps; a step is
one iteration of a loop or one recursive call (Verif/Model/AvlCost.lean).  The results are those of the functions without a count (Verif/Model/Avl.lean), about which C36 and C37
say what they do to the tree.  `AvlInv h l`: the heap holds a correct AVL tree with the nodes `l` (Verif/Spec/AvlTree.lean).  Logarithms are rounded down; the logarithm of `0` is `0`.
-/

set_option autoImplicit false

namespace Moo

/-- C96: `avl_search_closest` in a tree with `n` nodes makes at most `2 * log n + 3` steps, whatever the comparison function. -/
theorem C96_search_closest {h : AvlHeap} {l : List ℕ} {fuel : ℕ} (c : ℕ → ℤ) (hi : AvlInv h l) (hf : l.length ≤ fuel) :
    ∃ r, avlSearchClosest fuel h c = some r ∧ Runs (avlSearchClosestT fuel h c) r (2 * Nat.log 2 l.length + 3) := by
  obtain ⟨r, e, h1, -⟩ := searchClosestT_runs c hi hf (lt_two_pow_log _)
  exact ⟨r, e, h1.mono (by omega)⟩

/-- C96: `avl_search`. -/
theorem C96_search {h : AvlHeap} {l : List ℕ} {fuel : ℕ} (c : ℕ → ℤ) (hi : AvlInv h l) (hf : l.length ≤ fuel) :
    ∃ r, avlSearch fuel h c = some r ∧ Runs (avlSearchT fuel h c) r (2 * Nat.log 2 l.length + 3) := by
  obtain ⟨r, e, h1⟩ := C96_search_closest c hi hf
  refine ⟨if r.2 ≠ 0 then 0 else r.1, by rw [avlSearch, e]; rfl, ?_⟩
  unfold avlSearchT
  exact h1.bind' (B2 := 0) (Runs.ret _) (by omega)

/-- C96: `avl_insert_after`. -/
theorem C96_insert_after {h : AvlHeap} {l : List ℕ} {x new fuel : ℕ} (hi : AvlInv h l) (hx : x ∈ l ∨ x = 0) (hnew : new ∉ l) (hnew0 : new ≠ 0)
    (hlen : l.length + 1 < 2 ^ 125) (hfuel : l.length < fuel) :
    Runs (avlInsertAfterT 3 fuel h x new) (avlInsertAfter 3 fuel h x new) (2 * Nat.log 2 l.length + 6) := by
  rcases hx with hx | rfl
  · obtain ⟨A, B, rfl⟩ := List.append_of_mem hx
    exact (insertAfterT_runs hi hnew hnew0 hlen hfuel (by omega) (lt_two_pow_log _)).mono (by omega)
  · exact (insertAfterT_null_runs hi hnew hnew0 hlen hfuel (by omega) (lt_two_pow_log _)).mono (by omega)

/-- C96: `avl_insert_before`. -/
theorem C96_insert_before {h : AvlHeap} {l : List ℕ} {x new fuel : ℕ} (hi : AvlInv h l) (hx : x ∈ l ∨ x = 0) (hnew : new ∉ l) (hnew0 : new ≠ 0)
    (hlen : l.length + 1 < 2 ^ 125) (hfuel : l.length < fuel) :
    Runs (avlInsertBeforeT 3 fuel h x new) (avlInsertBefore 3 fuel h x new) (2 * Nat.log 2 l.length + 6) := by
  rcases hx with hx | rfl
  · obtain ⟨A, B, rfl⟩ := List.append_of_mem hx
    exact (insertBeforeT_runs hi hnew hnew0 hlen hfuel (by omega) (lt_two_pow_log _)).mono (by omega)
  · exact (insertBeforeT_null_runs hi hnew hnew0 hlen hfuel (by omega) (lt_two_pow_log _)).mono (by omega)

/-- C96: `avl_insert_node`, with the search for the place. -/
theorem C96_insert_node {h : AvlHeap} {l : List ℕ} {new fuel : ℕ} (c : ℕ → ℤ) (hi : AvlInv h l) (hnew : new ∉ l) (hnew0 : new ≠ 0)
    (hlen : l.length + 1 < 2 ^ 125) (hfuel : l.length < fuel) :
    ∃ r, avlInsertNode fuel h c new = some r ∧ Runs (avlInsertNodeT fuel h c new) r (4 * Nat.log 2 l.length + 9) := by
  unfold avlInsertNode avlInsertNodeT
  by_cases htop : h.top = 0
  · rw [if_pos htop, if_pos htop]
    exact ⟨_, rfl, (Runs.ret _).mono (by omega)⟩
  · rw [if_neg htop, if_neg htop]
    obtain ⟨r, e, h1, h2⟩ := searchClosestT_runs c hi hfuel.le (lt_two_pow_log _)
    rw [e]
    refine ⟨_, rfl, h1.bind' (B2 := 2 * Nat.log 2 l.length + 6) ?_ (by omega)⟩
    dsimp only
    by_cases ha : r.2 = -1
    · rw [if_pos ha, if_pos ha]
      exact (C96_insert_before hi (Or.inl (h2 htop)) hnew hnew0 hlen hfuel).bind' (B2 := 0) (Runs.ret _) (by omega)
    · rw [if_neg ha, if_neg ha]
      by_cases hb : r.2 = 1
      · rw [if_pos hb, if_pos hb]
        exact (C96_insert_after hi (Or.inl (h2 htop)) hnew hnew0 hlen hfuel).bind' (B2 := 0) (Runs.ret _) (by omega)
      · rw [if_neg hb, if_neg hb]
        exact (Runs.ret _).mono (by omega)

/-- C96: `avl_unlink_node`. -/
theorem C96_unlink_node {h : AvlHeap} {l : List ℕ} {x fuel : ℕ} (hi : AvlInv h l) (hx : x ∈ l) (hlen : l.length < 2 ^ 125) (hfuel : l.length < fuel) :
    Runs (avlUnlinkNodeT fuel h x) (avlUnlinkNode fuel h x) (2 * Nat.log 2 l.length + 3) := by
  obtain ⟨A, B, rfl⟩ := List.append_of_mem hx
  exact (unlinkT_runs hi hlen hfuel (lt_two_pow_log _).le).mono (by omega)

/-- C96: `avl_delete`, with the search for the node. -/
theorem C96_delete {h : AvlHeap} {l : List ℕ} {fuel : ℕ} (c : ℕ → ℤ) (hi : AvlInv h l) (hlen : l.length < 2 ^ 125) (hfuel : l.length < fuel) :
    ∃ r, avlDelete fuel h c = some r ∧ Runs (avlDeleteT fuel h c) r (4 * Nat.log 2 l.length + 6) := by
  obtain ⟨r, e, h1, h2⟩ := searchClosestT_runs c hi hfuel.le (lt_two_pow_log _)
  have hs : Runs (avlSearchT fuel h c) (if r.2 ≠ 0 then 0 else r.1) (2 * Nat.log 2 l.length + 3) := by
    unfold avlSearchT
    exact h1.bind' (B2 := 0) (Runs.ret _) (by omega)
  refine ⟨_, by rw [avlDelete, avlSearch, e]; rfl, hs.bind' (B2 := 2 * Nat.log 2 l.length + 3) ?_ (by omega)⟩
  dsimp only
  by_cases hn : (if r.2 ≠ 0 then 0 else r.1) ≠ 0
  · rw [if_pos hn, if_pos hn]
    have htop : h.top ≠ 0 := by
      intro h0
      apply hn
      rw [avlSearchClosest, if_pos h0] at e
      obtain rfl := Option.some.inj e
      rfl
    have hr : r.2 = 0 := by
      by_contra h0
      exact hn (by rw [if_pos h0])
    rw [if_neg (by simpa using hr)]
    exact C96_unlink_node hi (h2 htop) hlen hfuel
  · rw [if_neg hn, if_neg hn]
    exact (Runs.ret _).mono (by omega)

/-! ### The hypotheses can be met -/

/-- A tree with the nodes `1, …, 7` in this order, inserted one after the other at the end. -/
def avlCostExample : ℕ → AvlHeap → AvlHeap
  | 0, h => avlClearTree h
  | n + 1, h => avlInsertBefore 3 100 (avlCostExample n h) 0 (n + 1)

theorem avlCostExample_inv (h : AvlHeap) : ∀ n, n < 100 → AvlInv (avlCostExample n h) (List.range' 1 n)
  | 0, _ => ⟨.nil, rfl, trivial, rfl, ⟨rfl, rfl, trivial⟩, by simp⟩
  | n + 1, hn => by
    have := insertBefore_null (new := n + 1) (fuel := 100) (rec := 3) (avlCostExample_inv h n (by omega)) (by simp [List.mem_range']; omega) (by omega)
      (by simp; omega) (by simp; omega) (le_refl _)
    rw [avlCostExample, List.range'_concat]
    simpa [Nat.add_comm] using this

/-- A tree of 63 nodes: any search takes at most 13 steps, and an insertion without its search at most 16. -/
example (h : AvlHeap) (c : ℕ → ℤ) : ∃ r, avlSearchClosest 100 (avlCostExample 63 h) c = some r ∧ Runs (avlSearchClosestT 100 (avlCostExample 63 h) c) r 13 := by
  have := C96_search_closest (fuel := 100) c (avlCostExample_inv h 63 (by omega)) (by simp)
  have e : Nat.log 2 63 = 5 := (Nat.log_eq_iff (by omega)).2 ⟨by norm_num, by norm_num⟩
  rw [List.length_range', e] at this
  exact this

example (h : AvlHeap) : Runs (avlUnlinkNodeT 100 (avlCostExample 63 h) 17) (avlUnlinkNode 100 (avlCostExample 63 h) 17) (2 * Nat.log 2 63 + 3) := by
  have := C96_unlink_node (fuel := 100) (x := 17) (avlCostExample_inv h 63 (by omega)) (by rw [List.mem_range'_1]; omega) (by simp) (by simp)
  rwa [List.length_range'] at this

end Moo
