import Verif.Lemmas.AvlRebalance

/-!
# Insertion and deletion
-/

set_option autoImplicit false

namespace Moo

open ATree

/-! ### The doubly linked list -/

theorem dseg_append (next prev : ℕ → ℕ) (l1 l2 : List ℕ) (a b : ℕ) :
    DSeg next prev a (l1 ++ l2) b ↔ DSeg next prev a l1 (l2.headD b) ∧ DSeg next prev (l1.getLastD a) l2 b := by
  induction l1 generalizing a with
  | nil => simp [DSeg]
  | cons x l1 ih =>
    simp only [List.cons_append, DSeg, ih]
    have e1 : (l1 ++ l2).headD b = l1.headD (l2.headD b) := by cases l1 <;> rfl
    have e2 : (x :: l1).getLastD a = l1.getLastD x := List.getLastD_cons ..
    rw [e1, e2]
    tauto

theorem dseg_congr {next prev next' prev' : ℕ → ℕ} {l : List ℕ} {a b : ℕ} (h : DSeg next prev a l b)
    (hn : ∀ j ∈ l, next' j = next j) (hp : ∀ j ∈ l, prev' j = prev j) : DSeg next' prev' a l b := by
  induction l generalizing a with
  | nil => trivial
  | cons x l ih =>
    obtain ⟨h1, h2, h3⟩ := h
    exact ⟨by rw [hp x (by simp)]; exact h1, by rw [hn x (by simp)]; exact h2,
      ih h3 (fun j hj => hn j (by simp [hj])) (fun j hj => hp j (by simp [hj]))⟩

/-- Change the pointer that follows the segment. -/
theorem dseg_last {next prev next' prev' : ℕ → ℕ} {l : List ℕ} {a b b' : ℕ} (h : DSeg next prev a l b) (hnd : l.Nodup)
    (hn : ∀ j ∈ l, j ≠ l.getLastD 0 → next' j = next j) (hp : ∀ j ∈ l, prev' j = prev j)
    (hl : l ≠ [] → next' (l.getLastD 0) = b') : DSeg next' prev' a l b' := by
  induction l generalizing a with
  | nil => trivial
  | cons x l ih =>
    obtain ⟨h1, h2, h3⟩ := h
    rw [List.nodup_cons] at hnd
    cases l with
    | nil => exact ⟨by rw [hp x (by simp)]; exact h1, hl (by simp), trivial⟩
    | cons y l =>
      have e : (x :: y :: l).getLastD 0 = (y :: l).getLastD 0 := by simp [List.getLastD]
      have hm : (y :: l).getLastD 0 ∈ y :: l := by
        rw [List.getLastD_eq_getLast?, List.getLast?_eq_some_getLast (by simp)]
        exact List.getLast_mem _
      rw [e] at hn hl
      refine ⟨by rw [hp x (by simp)]; exact h1, ?_, ih h3 hnd.2 (fun j hj hne => hn j (List.mem_cons_of_mem _ hj) hne)
        (fun j hj => hp j (List.mem_cons_of_mem _ hj)) (fun _ => hl (by simp))⟩
      rw [hn x (by simp) (fun e => hnd.1 (e ▸ hm))]
      exact h2

/-- Change the pointer that precedes the segment. -/
theorem dseg_first {next prev next' prev' : ℕ → ℕ} {l : List ℕ} {a a' b : ℕ} (h : DSeg next prev a l b) (hnd : l.Nodup)
    (hn : ∀ j ∈ l, next' j = next j) (hp : ∀ j ∈ l, j ≠ l.headD 0 → prev' j = prev j)
    (hl : l ≠ [] → prev' (l.headD 0) = a') : DSeg next' prev' a' l b := by
  cases l with
  | nil => trivial
  | cons x l =>
    obtain ⟨h1, h2, h3⟩ := h
    rw [List.nodup_cons] at hnd
    refine ⟨hl (by simp), by rw [hn x (by simp)]; exact h2, dseg_congr h3 (fun j hj => hn j (by simp [hj])) ?_⟩
    intro j hj
    exact hp j (by simp [hj]) (fun e => hnd.1 (by simp only [List.headD_cons] at e; exact e ▸ hj))

theorem avl_headD_mem {l : List ℕ} (h : l ≠ []) : l.headD 0 ∈ l := by cases l with | nil => exact absurd rfl h | cons x l => simp

theorem getLastD_mem {l : List ℕ} (h : l ≠ []) : l.getLastD 0 ∈ l := by
  rw [List.getLastD_eq_getLast?, List.getLast?_eq_some_getLast h]
  exact List.getLast_mem _

theorem headD_eq_zero {l : List ℕ} (h0 : 0 ∉ l) : l.headD 0 = 0 ↔ l = [] := by
  constructor
  · intro h
    by_contra hne
    exact h0 (h ▸ avl_headD_mem hne)
  · rintro rfl; rfl

theorem getLastD_eq_zero {l : List ℕ} (h0 : 0 ∉ l) : l.getLastD 0 = 0 ↔ l = [] := by
  constructor
  · intro h
    by_contra hne
    exact h0 (h ▸ getLastD_mem hne)
  · rintro rfl; rfl

theorem getLastD_append (l1 : List ℕ) (x : ℕ) (l2 : List ℕ) (d d' : ℕ) : (l1 ++ x :: l2).getLastD d = (x :: l2).getLastD d' := by
  simp [List.getLastD_eq_getLast?, List.getLast?_append]
  cases h : l2.getLast? with
  | none =>
    rw [List.getLast?_eq_none_iff] at h
    subst h
    simp
  | some y =>
    have : l2 ≠ [] := by rintro rfl; simp at h
    rw [List.getLast?_cons]
    simp

/-- The links of the nodes around a position. -/
theorem dlist_at {h : AvlHeap} {A B : List ℕ} {x : ℕ} (hd : DList h (A ++ x :: B)) : h.prev x = A.getLastD 0 ∧ h.next x = B.headD 0 := by
  have := (dseg_append _ _ A (x :: B) 0 0).1 hd.2.2
  exact ⟨this.2.1, this.2.2.1⟩

/-- Inserting `new` between two parts of the list. -/
theorem dlist_insert {h h' : AvlHeap} {A B : List ℕ} {new : ℕ} (hd : DList h (A ++ B)) (hnd : (A ++ B).Nodup)
    (h0 : 0 ∉ A ++ B) (hnew : new ∉ A ++ B)
    (p1 : h'.prev new = A.getLastD 0) (p2 : h'.next new = B.headD 0)
    (n1 : ∀ j ∈ A ++ B, j ≠ A.getLastD 0 → h'.next j = h.next j) (n2 : A ≠ [] → h'.next (A.getLastD 0) = new)
    (q1 : ∀ j ∈ A ++ B, j ≠ B.headD 0 → h'.prev j = h.prev j) (q2 : B ≠ [] → h'.prev (B.headD 0) = new)
    (e1 : h'.head = if A = [] then new else h.head) (e2 : h'.tail = if B = [] then new else h.tail) :
    DList h' (A ++ new :: B) := by
  rw [List.nodup_append] at hnd
  obtain ⟨nA, nB, nAB⟩ := hnd
  obtain ⟨d1, d2, d3⟩ := hd
  rw [dseg_append] at d3
  simp only [List.mem_append, not_or] at *
  have hAB : ∀ j ∈ A, B ≠ [] → j ≠ B.headD 0 := fun j hj hB => nAB j hj _ (avl_headD_mem hB)
  have hBA : ∀ j ∈ B, A ≠ [] → j ≠ A.getLastD 0 := fun j hj hA e => nAB _ (getLastD_mem hA) j hj e.symm
  refine ⟨?_, ?_, ?_⟩
  · rw [e1]
    cases A with
    | nil => simp
    | cons a A => simp at d1 ⊢; exact d1
  · rw [e2, getLastD_append A new B 0 0]
    cases B with
    | nil => simp
    | cons b B =>
      rw [if_neg (by simp), d2, getLastD_append A b B 0 0]
      exact (getLastD_append [new] b B 0 0).symm
  · rw [dseg_append]
    refine ⟨?_, p1, ?_, ?_⟩
    · refine dseg_last d3.1 nA (fun j hj hne => n1 j (Or.inl hj) hne) ?_ n2
      intro j hj
      by_cases hB : B = []
      · refine q1 j (Or.inl hj) ?_
        rw [hB]; intro e; exact h0.1 (by simpa [e] using hj)
      · exact q1 j (Or.inl hj) (hAB j hj hB)
    · exact p2
    · refine dseg_first d3.2 nB ?_ (fun j hj hne => q1 j (Or.inr hj) hne) q2
      intro j hj
      by_cases hA : A = []
      · refine n1 j (Or.inr hj) ?_
        rw [hA]; intro e; exact h0.2 (by simpa [e] using hj)
      · exact n1 j (Or.inr hj) (hBA j hj hA)

/-- Removing `x` from the list. -/
theorem dlist_remove {h h' : AvlHeap} {A B : List ℕ} {x : ℕ} (hd : DList h (A ++ x :: B)) (hnd : (A ++ x :: B).Nodup)
    (h0 : 0 ∉ A ++ x :: B)
    (n1 : ∀ j ∈ A ++ B, j ≠ A.getLastD 0 → h'.next j = h.next j) (n2 : A ≠ [] → h'.next (A.getLastD 0) = B.headD 0)
    (q1 : ∀ j ∈ A ++ B, j ≠ B.headD 0 → h'.prev j = h.prev j) (q2 : B ≠ [] → h'.prev (B.headD 0) = A.getLastD 0)
    (e1 : h'.head = if A = [] then B.headD 0 else h.head) (e2 : h'.tail = if B = [] then A.getLastD 0 else h.tail) :
    DList h' (A ++ B) := by
  rw [List.nodup_append, List.nodup_cons] at hnd
  obtain ⟨nA, nB, nAB⟩ := hnd
  obtain ⟨d1, d2, d3⟩ := hd
  rw [dseg_append] at d3
  simp only [List.mem_append, List.mem_cons, not_or] at *
  have hAB : ∀ j ∈ A, B ≠ [] → j ≠ B.headD 0 := fun j hj hB => nAB j hj _ (Or.inr (avl_headD_mem hB))
  have hBA : ∀ j ∈ B, A ≠ [] → j ≠ A.getLastD 0 := fun j hj hA e => nAB _ (getLastD_mem hA) j (Or.inr hj) e.symm
  refine ⟨?_, ?_, ?_⟩
  · rw [e1]
    cases A with
    | nil => simp
    | cons a A => simp at d1 ⊢; exact d1
  · rw [e2]
    cases B with
    | nil => simp
    | cons b B =>
      rw [if_neg (by simp), d2, getLastD_append A b B 0 0, getLastD_append A x (b :: B) 0 0]
      exact getLastD_append [x] b B 0 0
  · rw [dseg_append]
    refine ⟨?_, ?_⟩
    · refine dseg_last d3.1 nA (fun j hj hne => n1 j (Or.inl hj) hne) ?_ n2
      intro j hj
      by_cases hB : B = []
      · refine q1 j (Or.inl hj) ?_
        rw [hB]; intro e; exact h0.1 (by simpa [e] using hj)
      · exact q1 j (Or.inl hj) (hAB j hj hB)
    · refine dseg_first d3.2.2.2 nB.2 ?_ (fun j hj hne => q1 j (Or.inr hj) hne) q2
      intro j hj
      by_cases hA : A = []
      · refine n1 j (Or.inr hj) ?_
        rw [hA]; intro e; exact h0.2.2 (by simpa [e] using hj)
      · exact n1 j (Or.inr hj) (hBA j hj hA)

/-! ### Neighbours in the tree -/

theorem plugIds_eq (c : List Frame) (l : List ℕ) {a b : List ℕ} (h : ∀ l, plugIds c l = a ++ l ++ b) : plugIds c l = a ++ l ++ b := h l

theorem split_unique {A B A' B' : List ℕ} {x : ℕ} (h : A ++ x :: B = A' ++ x :: B') (hnd : (A ++ x :: B).Nodup) : A = A' ∧ B = B' := by
  induction A generalizing A' with
  | nil =>
    cases A' with
    | nil => simpa using h
    | cons y A' =>
      exfalso
      simp only [List.nil_append, List.cons_append, List.cons.injEq] at h hnd
      obtain ⟨rfl, rfl⟩ := h
      simp at hnd
  | cons z A ih =>
    cases A' with
    | nil =>
      exfalso
      simp only [List.nil_append, List.cons_append, List.cons.injEq] at h hnd
      obtain ⟨rfl, rfl⟩ := h
      simp at hnd
    | cons y A' =>
      simp only [List.cons_append, List.cons.injEq, List.nodup_cons] at h hnd
      obtain ⟨rfl, h⟩ := h
      obtain ⟨rfl, rfl⟩ := ih h hnd.2
      exact ⟨rfl, rfl⟩

theorem rep_nil {h : AvlHeap} {par : ℕ} {t : ATree} (hr : Rep h par 0 t) : t = .nil := by
  cases t with
  | nil => rfl
  | node l i r => obtain ⟨e, h0, _⟩ := hr; exact absurd e.symm h0

theorem ids_eq_nil {t : ATree} (h : t.ids = []) : t = .nil := by
  cases t with
  | nil => rfl
  | node l i r => simp [ids] at h

theorem plug_append (c1 c2 : List Frame) (t : ATree) : plug (c1 ++ c2) t = plug c2 (plug c1 t) := by
  induction c1 generalizing t with
  | nil => rfl
  | cons f c ih => exact ih _

theorem ids_plug_nodup {c : List Frame} {t : ATree} : (plug c t).ids.Nodup ↔ (ctxIds c ++ t.ids).Nodup := by
  rw [ids_plug]; exact (plugIds_perm c t.ids).nodup_iff

/-- The first node of a subtree has no left child. -/
theorem left_first {h : AvlHeap} {c : List Frame} {t : ATree} {y : ℕ} {rest : List ℕ} (hr : Rep h 0 h.top (plug c t))
    (hnd : t.ids.Nodup) (ht : t.ids = y :: rest) : h.left y = 0 := by
  obtain ⟨c', l, r, e⟩ := exists_plug' t y (by rw [ht]; simp)
  have hids : t.ids = plugIds c' (l.ids ++ y :: r.ids) := by rw [e, ids_plug]; rfl
  obtain ⟨a, b, hab⟩ := plugIds_split c'
  rw [hab] at hids
  have h1 : [] ++ y :: rest = (a ++ l.ids) ++ y :: (r.ids ++ b) := by
    rw [List.nil_append, ← ht, hids]; simp
  have h2 := (split_unique h1 (by rw [List.nil_append, ← ht]; exact hnd)).1
  have h3 : l.ids = [] := (List.append_eq_nil_iff.1 h2.symm).2
  rw [e, ← plug_append] at hr
  obtain ⟨par, p, h4, _⟩ := rep_plug _ _ hr
  obtain ⟨rfl, _, _, _, h5, _⟩ := h4
  rw [ids_eq_nil h3] at h5
  exact h5

/-- The last node of a subtree has no right child. -/
theorem right_last {h : AvlHeap} {c : List Frame} {t : ATree} {y : ℕ} {rest : List ℕ} (hr : Rep h 0 h.top (plug c t))
    (hnd : t.ids.Nodup) (ht : t.ids = rest ++ [y]) : h.right y = 0 := by
  obtain ⟨c', l, r, e⟩ := exists_plug' t y (by rw [ht]; simp)
  have hids : t.ids = plugIds c' (l.ids ++ y :: r.ids) := by rw [e, ids_plug]; rfl
  obtain ⟨a, b, hab⟩ := plugIds_split c'
  rw [hab] at hids
  have h1 : rest ++ y :: [] = (a ++ l.ids) ++ y :: (r.ids ++ b) := by
    rw [← ht, hids]; simp
  have h2 := (split_unique h1 (by rw [← ht]; exact hnd)).2
  have h3 : r.ids = [] := (List.append_eq_nil_iff.1 h2.symm).1
  rw [e, ← plug_append] at hr
  obtain ⟨par, p, h4, _⟩ := rep_plug _ _ hr
  obtain ⟨rfl, _, _, _, _, h5⟩ := h4
  rw [ids_eq_nil h3] at h5
  exact h5

/-- Of two neighbours, the first has no right child or the second has no left child. -/
theorem left_of_next {h : AvlHeap} {t : ATree} {x y : ℕ} {A B : List ℕ} (hr : Rep h 0 h.top t) (hnd : t.ids.Nodup)
    (ht : t.ids = A ++ x :: y :: B) (hx : h.right x ≠ 0) : h.left y = 0 := by
  obtain ⟨c, l, r, e⟩ := exists_plug' t x (by rw [ht]; simp)
  subst e
  obtain ⟨a, b, hab⟩ := plugIds_split c
  rw [ids_plug, hab] at ht
  rw [ids_plug, hab] at hnd
  have h1 : (a ++ l.ids) ++ x :: (r.ids ++ b) = A ++ x :: (y :: B) := by rw [← ht]; simp [ids]
  have h2 := (split_unique h1 (by rw [h1, ← ht]; exact hnd)).2
  obtain ⟨par, p, h4, _⟩ := rep_plug _ _ hr
  obtain ⟨rfl, _, _, _, _, h5⟩ := h4
  cases hrid : r.ids with
  | nil => rw [ids_eq_nil hrid] at h5; exact absurd h5 hx
  | cons z rest =>
    rw [hrid, List.cons_append] at h2
    obtain ⟨rfl, _⟩ := List.cons.inj h2
    have hr' : Rep h 0 h.top (plug (⟨false, p, l⟩ :: c) r) := hr
    refine left_first hr' ?_ hrid
    rw [List.nodup_append, List.nodup_append] at hnd
    have := hnd.1.2.1
    rw [ids, List.nodup_append, List.nodup_cons] at this
    exact this.2.1.2

theorem right_of_prev {h : AvlHeap} {t : ATree} {x y : ℕ} {A B : List ℕ} (hr : Rep h 0 h.top t) (hnd : t.ids.Nodup)
    (ht : t.ids = A ++ y :: x :: B) (hx : h.left x ≠ 0) : h.right y = 0 := by
  by_contra hy
  exact hx (left_of_next hr hnd ht hy)

end Moo
