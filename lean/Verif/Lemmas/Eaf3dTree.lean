import Verif.Model.Eaf3dTree
import Verif.Lemmas.AvlFrame
import Verif.Lemmas.HvTree
import Verif.Lemmas.Eaf3dIter

/-!
# The trees of `eaf3d`: the nodes of the trees against the sequences of nodes
-/

set_option autoImplicit false
set_option linter.unusedSectionVars false

namespace Moo

variable {α : Type*} [LinearOrder α]

/-! ### Searches -/

theorem deref_getLastD {A : List ℕ} (h : 0 ∉ A) : deref (A.getLastD 0) = A.getLast? := by
  unfold deref
  by_cases hA : A = []
  · subst hA; rfl
  · rw [if_neg (fun e => hA ((getLastD_eq_zero h).1 e)), List.getLastD_eq_getLast?, List.getLast?_eq_some_getLast hA]; rfl

theorem deref_headD {A : List ℕ} (h : 0 ∉ A) : deref (A.headD 0) = A.head? := by
  unfold deref
  cases A with
  | nil => rfl
  | cons a A => rw [if_neg (fun e => h (by simp at e; simp [e]))]; rfl

theorem deref_of_ne {n : ℕ} (h : n ≠ 0) : deref n = some n := if_neg h

theorem takeWhile_split {β : Type*} {p : β → Bool} : ∀ {A B : List β}, (∀ a ∈ A, p a = true) → (∀ b ∈ B, p b = false) →
    (A ++ B).takeWhile p = A ∧ (A ++ B).dropWhile p = B
  | [], [], _, _ => by simp
  | [], b :: B, _, hB => by simp [hB b (by simp)]
  | a :: A, B, hA, hB => by
    have ih := takeWhile_split (A := A) (B := B) (fun a ha => hA a (by simp [ha])) hB
    simp [hA a (by simp), ih.1, ih.2]

theorem compareAscX_pos {a b : α} : 0 < compareAscX a b ↔ b < a := by
  unfold compareAscX
  split_ifs with h1 h2
  · simp [not_lt.2 h1.le]
  · simpa using h2
  · simpa using h2

theorem compareAscX_neg {a b : α} : compareAscX a b < 0 ↔ a < b := by
  unfold compareAscX
  split_ifs with h1 h2
  · simpa using h1
  · simpa using h1
  · simpa using h1

theorem compareDescY_pos {a b : α} : 0 < compareDescY a b ↔ a < b := by
  unfold compareDescY
  split_ifs with h1 h2
  · simp [not_lt.2 (le_of_lt h1)]
  · simpa using h2
  · simpa using h2

theorem compareDescY_neg {a b : α} : compareDescY a b < 0 ↔ b < a := by
  unfold compareDescY
  split_ifs with h1 h2
  · simpa using h1
  · simpa using h1
  · simpa using h1

/-- `find_point_at_left` returns the last node of the tree whose first coordinate is at most `x`. -/
theorem treeAtLeft_eq {tf : ℕ} {h : AvlHeap} {l : List ℕ} {px : ℕ → α} (x : α) (hi : AvlInv h l) (hne : l ≠ []) (hf : l.length ≤ tf)
    (hs : l.Pairwise (fun a b => px a < px b)) :
    treeAtLeft tf h px x = (l.takeWhile (fun n => decide (px n ≤ x))).getLast? := by
  have hz := hi.zero_not_mem
  obtain ⟨-, A, n, B, hl, hA, hB, hsearch⟩ := searchClosest_spec (c := fun n => compareAscX x (px n)) (fuel := tf) hi hne hf (by
    refine hs.imp (fun {u v} huv => ⟨fun hc => ?_, fun hc => ?_⟩)
    · exact not_lt.1 (fun hc' => absurd (compareAscX_pos.2 (huv.trans (compareAscX_pos.1 hc'))) (not_lt.2 hc))
    · exact compareAscX_neg.2 ((compareAscX_neg.1 hc).trans huv))
  unfold treeAtLeft
  rw [hsearch]
  dsimp only
  subst hl
  have hn0 : n ≠ 0 := fun e => hz (by simp [e])
  have hsA := List.pairwise_append.1 hs
  by_cases hc : compareAscX x (px n) < 0
  · rw [if_pos hc, if_pos (by decide), deref_of_ne hn0, Option.bind_some, hi.prev, deref_getLastD (fun hm => hz (by simp [hm]))]
    rw [(takeWhile_split (A := A) (B := n :: B) (fun a ha => ?_) (fun b hb => ?_)).1]
    · have := (hA a ha).2 (ne_of_lt hc)
      exact decide_eq_true (compareAscX_pos.1 this).le
    · rcases List.mem_cons.1 hb with rfl | hb
      · exact decide_eq_false (not_le.2 (compareAscX_neg.1 hc))
      · exact decide_eq_false (not_le.2 (compareAscX_neg.1 ((hB b hb).2 (ne_of_lt hc))))
  · have hc2 : ¬ (if compareAscX x (px n) < 0 then (-1 : ℤ) else if compareAscX x (px n) > 0 then 1 else 0) < 0 := by
      rw [if_neg hc]; split_ifs <;> decide
    rw [if_neg hc2, deref_of_ne hn0]
    have hnx : px n ≤ x := not_lt.1 (fun h => hc (compareAscX_neg.2 h))
    have e : A ++ n :: B = (A ++ [n]) ++ B := by simp
    rw [e, (takeWhile_split (A := A ++ [n]) (B := B) (fun a ha => ?_) (fun b hb => ?_)).1]
    · simp
    · rcases List.mem_append.1 ha with ha | ha
      · exact decide_eq_true ((hsA.2.2 a ha n (by simp)).le.trans hnx)
      · simp at ha; subst ha; exact decide_eq_true hnx
    · refine decide_eq_false (not_le.2 ?_)
      by_cases h0 : compareAscX x (px n) = 0
      · have hxe : x ≤ px n := not_lt.1 (fun h => absurd h0 (ne_of_gt (compareAscX_pos.2 h)))
        exact hxe.trans_lt ((List.pairwise_cons.1 hsA.2.1).1 b hb)
      · exact compareAscX_neg.1 ((hB b hb).2 h0)

theorem desc_mono {y : α} {l : List ℕ} {py : ℕ → α} (hs : l.Pairwise (fun a b => py b < py a)) :
    l.Pairwise (fun u v => (compareDescY y (py u) ≤ 0 → compareDescY y (py v) ≤ 0) ∧ (compareDescY y (py u) < 0 → compareDescY y (py v) < 0)) := by
  refine hs.imp (fun {u v} huv => ⟨fun hc => ?_, fun hc => ?_⟩)
  · exact not_lt.1 (fun hc' => absurd (compareDescY_pos.2 ((compareDescY_pos.1 hc').trans huv)) (not_lt.2 hc))
  · exact compareDescY_neg.2 (huv.trans (compareDescY_neg.1 hc))

theorem find?_split {β : Type*} {p : β → Bool} {A B : List β} (hA : ∀ a ∈ A, p a = false) (hB : ∀ b ∈ B, p b = true) :
    (A ++ B).find? p = B.head? := by
  rw [List.find?_append, List.find?_eq_none.2 (fun a ha => by simp [hA a ha]), Option.none_or]
  cases B with
  | nil => rfl
  | cons b B => rw [List.find?_cons_of_pos (hB b (by simp))]; rfl

/-- `find_point_below` returns the first node of the tree whose second coordinate is less than `y`. -/
theorem treeBelow_eq {tf : ℕ} {h : AvlHeap} {l : List ℕ} {py : ℕ → α} (y : α) (hi : AvlInv h l) (hne : l ≠ []) (hf : l.length ≤ tf)
    (hs : l.Pairwise (fun a b => py b < py a)) :
    treeBelow tf h py y = l.find? (fun n => decide (py n < y)) := by
  have hz := hi.zero_not_mem
  obtain ⟨-, A, n, B, hl, hA, hB, hsearch⟩ := searchClosest_spec (c := fun n => compareDescY y (py n)) (fuel := tf) hi hne hf (desc_mono hs)
  unfold treeBelow
  rw [hsearch]
  dsimp only
  subst hl
  have hn0 : n ≠ 0 := fun e => hz (by simp [e])
  have hsA := List.pairwise_append.1 hs
  by_cases hc : compareDescY y (py n) < 0
  · rw [if_pos hc, if_neg (by decide), deref_of_ne hn0]
    rw [find?_split (A := A) (B := n :: B) (fun a ha => ?_) (fun b hb => ?_)]
    · rfl
    · exact decide_eq_false (not_lt.2 (compareDescY_pos.1 ((hA a ha).2 (ne_of_lt hc))).le)
    · rcases List.mem_cons.1 hb with rfl | hb
      · exact decide_eq_true (compareDescY_neg.1 hc)
      · exact decide_eq_true (compareDescY_neg.1 ((hB b hb).2 (ne_of_lt hc)))
  · have hc2 : (if compareDescY y (py n) < 0 then (-1 : ℤ) else if compareDescY y (py n) > 0 then 1 else 0) ≥ 0 := by
      rw [if_neg hc]; split_ifs <;> decide
    rw [if_pos hc2, deref_of_ne hn0, Option.bind_some, hi.next, deref_headD (fun hm => hz (by simp [hm]))]
    have hny : y ≤ py n := not_lt.1 (fun h => hc (compareDescY_neg.2 h))
    have e : A ++ n :: B = (A ++ [n]) ++ B := by simp
    rw [e, find?_split (A := A ++ [n]) (B := B) (fun a ha => ?_) (fun b hb => ?_)]
    · rcases List.mem_append.1 ha with ha | ha
      · exact decide_eq_false (not_lt.2 (hny.trans (hsA.2.2 a ha n (by simp)).le))
      · simp at ha; subst ha; exact decide_eq_false (not_lt.2 hny)
    · refine decide_eq_true ?_
      by_cases h0 : compareDescY y (py n) = 0
      · have hxe : py n ≤ y := not_lt.1 (fun h => absurd h0 (ne_of_gt (compareDescY_pos.2 h)))
        exact ((List.pairwise_cons.1 hsA.2.1).1 b hb).trans_le hxe
      · exact compareDescY_neg.1 ((hB b hb).2 h0)

/-! ### Nodes -/

/-- The number of a node in memory. -/
def LNode.num (n : LNode α) : ℕ := n.id + 1

/-- The pointer to a node, or `NULL`. -/
def optNum : Option (LNode α) → ℕ
  | none => 0
  | some n => n.num

theorem LNode.num_ne (n : LNode α) : n.num ≠ 0 := Nat.succ_ne_zero _

/-- The table of the nodes holds the node `n`, perhaps without its item. -/
structure Known (N : Nodes3 α) (n : LNode α) : Prop where
  lt : n.num < N.fresh
  set : 2 ≤ n.id → N.set n.num = n.set

/-- The table of the nodes holds the item of the node `n`; for the sentinels only the first two coordinates. -/
structure Held (N : Nodes3 α) (n : LNode α) : Prop where
  x : N.x n.num = n.x
  y : N.y n.num = n.y
  z : 2 ≤ n.id → N.z n.num = n.z

/-- `prevnode` of `add2level`: the last node of the first part of `levelSplit`. -/
theorem treePrevnode_eq {tf : ℕ} {h : AvlHeap} {L : List (LNode α)} {N : Nodes3 α} (x y : α) (hi : AvlInv h (L.map LNode.num)) (hne : L ≠ [])
    (hf : L.length ≤ tf) (hs : L.Pairwise LLt) (hk : ∀ n ∈ L, Held N n) :
    treePrevnode tf h N x y = ((levelSplit L x y).1.map LNode.num).getLast? := by
  have hz := hi.zero_not_mem
  have hs' : (L.map LNode.num).Pairwise (fun a b => N.y b < N.y a) := by
    rw [List.pairwise_map]
    refine hs.imp_of_mem (fun {a b} ha hb hab => ?_)
    rw [(hk a ha).y, (hk b hb).y]; exact hab.2
  obtain ⟨-, A, m, B, hl, hA, hB, hsearch⟩ := searchClosest_spec (c := fun n => compareDescY y (N.y n)) (fuel := tf) hi (by simpa using hne) (by simpa using hf)
    (desc_mono hs')
  obtain ⟨A', B', rfl, rfl, hB'⟩ := List.map_eq_append_iff.1 hl
  obtain ⟨n, B', rfl, rfl, rfl⟩ := List.map_eq_cons_iff.1 hB'
  rw [List.map_append, List.map_cons] at hi hz
  have hA2 : ∀ a ∈ A', y ≤ a.y ∧ (n.y ≠ y → y < a.y) := by
    intro a ha
    have := hA a.num (List.mem_map_of_mem ha)
    rw [(hk a (by simp [ha])).y, (hk n (by simp)).y] at this
    refine ⟨not_lt.1 (fun h => absurd (compareDescY_neg.2 h) (not_lt.2 this.1)), fun hne => compareDescY_pos.1 (this.2 (fun e => ?_))⟩
    rcases lt_or_gt_of_ne hne with h | h
    · exact absurd e (ne_of_lt (compareDescY_neg.2 h))
    · exact absurd e (ne_of_gt (compareDescY_pos.2 h))
  have hAn : ∀ a ∈ A', n.y < a.y := fun a ha => ((List.pairwise_append.1 hs).2.2 a ha n (by simp)).2
  have hBn : ∀ b ∈ B', b.y < n.y := fun b hb => ((List.pairwise_cons.1 (List.pairwise_append.1 hs).2.1).1 b hb).2
  have hB2 : ∀ b ∈ B', n.y ≠ y → b.y < y := by
    intro b hb hne
    have := hB b.num (List.mem_map_of_mem hb)
    rw [(hk b (by simp [hb])).y, (hk n (by simp)).y] at this
    refine compareDescY_neg.1 (this.2 (fun e => ?_))
    rcases lt_or_gt_of_ne hne with h | h
    · exact absurd e (ne_of_lt (compareDescY_neg.2 h))
    · exact absurd e (ne_of_gt (compareDescY_pos.2 h))
  unfold treePrevnode
  rw [hsearch]
  dsimp only
  rw [deref_of_ne n.num_ne, Option.bind_some, (hk n (by simp)).y, (hk n (by simp)).x, hi.prev]
  have hz' : 0 ∉ A'.map LNode.num := fun hm => hz (by rw [List.mem_append]; exact Or.inl hm)
  rcases lt_trichotomy n.y y with hny | hny | hny
  · have hc : compareDescY y n.y < 0 := compareDescY_neg.2 hny
    rw [if_pos hc, if_pos rfl, deref_getLastD hz']
    obtain ⟨e1, e2⟩ := takeWhile_split (p := fun m : LNode α => decide (y < m.y)) (A := A') (B := n :: B')
      (fun a ha => decide_eq_true ((hA2 a ha).2 (ne_of_lt hny)))
      (fun b hb => by
        rcases List.mem_cons.1 hb with rfl | hb
        · exact decide_eq_false (not_lt.2 hny.le)
        · exact decide_eq_false (not_lt.2 ((hBn b hb).trans hny).le))
    unfold levelSplit
    rw [e1, e2]
    dsimp only
    rw [if_neg (fun h => absurd h.1 (ne_of_lt hny))]
  · have hc0 : compareDescY y n.y = 0 := by
      rw [hny]
      exact le_antisymm (not_lt.1 (fun h => lt_irrefl _ (compareDescY_pos.1 h))) (not_lt.1 (fun h => lt_irrefl _ (compareDescY_neg.1 h)))
    rw [hc0, if_neg (lt_irrefl _), if_neg (lt_irrefl _), if_neg (by decide), if_pos rfl]
    obtain ⟨e1, e2⟩ := takeWhile_split (p := fun m : LNode α => decide (y < m.y)) (A := A') (B := n :: B')
      (fun a ha => decide_eq_true (hny ▸ hAn a ha))
      (fun b hb => by
        rcases List.mem_cons.1 hb with rfl | hb
        · exact decide_eq_false (not_lt.2 hny.le)
        · exact decide_eq_false (not_lt.2 (hny ▸ hBn b hb).le))
    unfold levelSplit
    rw [e1, e2]
    dsimp only
    by_cases hx : n.x > x
    · rw [if_pos hx, if_pos ⟨hny, hx⟩]; simp
    · rw [if_neg hx, if_neg (fun h => hx h.2), deref_getLastD hz']
  · have hc : 0 < compareDescY y n.y := compareDescY_pos.2 hny
    rw [if_neg (not_lt.2 hc.le), if_pos hc, if_neg (by decide), if_neg (by decide)]
    have e : A' ++ n :: B' = (A' ++ [n]) ++ B' := by simp
    obtain ⟨e1, e2⟩ := takeWhile_split (p := fun m : LNode α => decide (y < m.y)) (A := A' ++ [n]) (B := B')
      (fun a ha => by
        rcases List.mem_append.1 ha with ha | ha
        · exact decide_eq_true ((hA2 a ha).2 (ne_of_gt hny))
        · simp at ha; subst ha; exact decide_eq_true hny)
      (fun b hb => decide_eq_false (not_lt.2 (hB2 b hb (ne_of_gt hny)).le))
    unfold levelSplit
    rw [e, e1, e2]
    cases B' with
    | nil => simp
    | cons b B' =>
      dsimp only
      rw [if_neg (fun h => absurd h.1 (ne_of_lt (hB2 b (by simp) (ne_of_gt hny))))]
      simp

theorem levelSplit_append (L : List (LNode α)) (x y : α) : (levelSplit L x y).1 ++ (levelSplit L x y).2 = L := by
  have := List.takeWhile_append_dropWhile (p := fun n : LNode α => decide (y < n.y)) (l := L)
  unfold levelSplit
  dsimp only
  split
  · next h => rw [h] at this; simpa using this
  · next b bs h =>
    rw [h] at this
    split_ifs
    · simpa using this
    · exact this

/-! ### The list of the output -/

/-- The `next` field of every node of the list but the last is the node after it. -/
def NextChain (next : ℕ → ℕ) : List ℕ → Prop
  | [] => True
  | a :: l => (l ≠ [] → next a = l.headD 0) ∧ NextChain next l

/-- The nodes of `output[k]`: linked by `next` from `head` to `tail`. -/
structure OutOk (next : ℕ → ℕ) (o : OutTree) (l : List ℕ) : Prop where
  chain : NextChain next l
  head : o.head = l.headD 0
  tail : o.tail = l.getLastD 0
  top : o.top = 0 ↔ l = []

theorem nextChain_congr {next next' : ℕ → ℕ} {l : List ℕ} (h : NextChain next l) (hn : ∀ j ∈ l, next' j = next j) : NextChain next' l := by
  induction l with
  | nil => trivial
  | cons a l ih =>
    refine ⟨fun hl => ?_, ih h.2 (fun j hj => hn j (by simp [hj]))⟩
    rw [hn a (by simp)]; exact h.1 hl

theorem OutOk.frame {next next' : ℕ → ℕ} {o : OutTree} {l : List ℕ} (h : OutOk next o l) (hn : ∀ j ∈ l, next' j = next j) : OutOk next' o l :=
  ⟨nextChain_congr h.chain hn, h.head, h.tail, h.top⟩

/-- `output->tail->next` is set to the first node of a second list. -/
theorem nextChain_append {next : ℕ → ℕ} {l m : List ℕ} (hl : NextChain next l) (hm : NextChain next m) (h : l ≠ [] → m ≠ [] → next (l.getLastD 0) = m.headD 0) :
    NextChain next (l ++ m) := by
  induction l with
  | nil => exact hm
  | cons a l ih =>
    cases l with
    | nil => exact ⟨fun hne => h (by simp) hne, hm⟩
    | cons b l =>
      refine ⟨fun _ => hl.1 (by simp), ih hl.2 (fun _ hne => ?_)⟩
      have hlast : (a :: b :: l).getLastD 0 = (b :: l).getLastD 0 := getLastD_append [a] b l 0 0
      rw [← hlast]; exact h (by simp) hne

/-- All but the last `next` fields count. -/
theorem nextChain_last {next : ℕ → ℕ} {l : List ℕ} {v : ℕ} (hl : NextChain next l) (hnd : l.Nodup) : NextChain (upd next (l.getLastD 0) v) l := by
  induction l with
  | nil => trivial
  | cons a l ih =>
    cases l with
    | nil => exact ⟨fun h => absurd rfl h, trivial⟩
    | cons b l =>
      have hlast : (a :: b :: l).getLastD 0 = (b :: l).getLastD 0 := getLastD_append [a] b l 0 0
      rw [List.nodup_cons] at hnd
      rw [hlast]
      refine ⟨fun h => ?_, ih hl.2 hnd.2⟩
      have hm : (b :: l).getLastD 0 ∈ b :: l := getLastD_mem (by simp)
      rw [upd_ne _ _ (fun e : a = (b :: l).getLastD 0 => hnd.1 (by rw [e]; exact hm))]
      exact hl.1 h

/-- `output->tail->next = n`. -/
theorem nextChain_snoc {next : ℕ → ℕ} {l : List ℕ} {n : ℕ} (hc : NextChain next l) (hnd : l.Nodup) :
    NextChain (upd next (l.getLastD 0) n) (l ++ [n]) :=
  nextChain_append (nextChain_last hc hnd) ⟨fun h => absurd rfl h, trivial⟩ (fun _ _ => upd_same ..)

theorem getLastD_snoc (l : List ℕ) (n : ℕ) : (l ++ [n]).getLastD 0 = n := getLastD_append l n [] 0 0

/-- `add2output` puts the node at the end of the output and does not touch the level. -/
theorem treeAdd2output_spec {h : AvlHeap} {lv : List ℕ} {o : OutTree} {l : List ℕ} {n : ℕ} (hi : AvlInv h lv) (ho : OutOk h.next o l) (hnd : l.Nodup)
    (hn0 : n ≠ 0) (hnlv : n ∉ lv) (hnl : n ∉ l) (hdis : ∀ j ∈ lv, j ∉ l) (h0 : 0 ∉ l) :
    AvlInv (treeAdd2output h o n).1 lv ∧ OutOk (treeAdd2output h o n).1.next (treeAdd2output h o n).2 (l ++ [n]) ∧
    ∀ j, j ∉ l → j ≠ n → (treeAdd2output h o n).1.next j = h.next j := by
  unfold treeAdd2output
  by_cases ht : o.top = 0
  · have hl := ho.top.1 ht
    subst hl
    rw [if_neg (by simpa using ht)]
    dsimp only [avlInsertTop, avlClearNode, AvlHeap.setPrev, AvlHeap.setNext, AvlHeap.setParent]
    refine ⟨hi.frame ?_ ?_ ?_ ?_ ?_ ?_ rfl rfl rfl, ⟨⟨fun h => absurd rfl h, trivial⟩, rfl, rfl, by simp [hn0]⟩, fun j _ hj => upd_ne _ _ hj⟩ <;>
      exact fun j hj => upd_ne _ _ (fun e => hnlv (e ▸ hj))
  · rw [if_pos ht]
    have hl : l ≠ [] := fun e => ht (ho.top.2 e)
    dsimp only [AvlHeap.setNext]
    rw [ho.tail]
    have htl : l.getLastD 0 ∈ l := getLastD_mem hl
    refine ⟨hi.frame (fun _ _ => rfl) (fun _ _ => rfl) (fun _ _ => rfl) ?_ (fun _ _ => rfl) (fun _ _ => rfl) rfl rfl rfl, ⟨nextChain_snoc ho.chain hnd, ?_, ?_, ?_⟩, ?_⟩
    · exact fun j hj => upd_ne _ _ (fun e => hdis j hj (e ▸ htl))
    · rw [ho.head]; cases l with
      | nil => exact absurd rfl hl
      | cons a l => rfl
    · exact (getLastD_snoc l n).symm
    · simp [ht]
    · exact fun j hj _ => upd_ne _ _ (fun e => hj (e ▸ htl))

/-! ### `add2level` -/

/-- A table of pointers of the nodes, against the table of the model with sequences; not for the sentinels. -/
def PtrOk (N : Nodes3 α) (f : ℕ → Option (LNode α)) (g : ℕ → ℕ) : Prop :=
  ∀ i, 2 ≤ i → i + 1 < N.fresh → g (i + 1) = optNum (f i) ∧ ∀ n, f i = some n → Known N n ∧ 2 ≤ n.id

theorem PtrOk.upd {N : Nodes3 α} {f : ℕ → Option (LNode α)} {g : ℕ → ℕ} (h : PtrOk N f g) (i : ℕ) {v : Option (LNode α)}
    (hv : ∀ n, v = some n → Known N n ∧ 2 ≤ n.id) : PtrOk N (upd f i v) (upd g (i + 1) (optNum v)) := by
  intro j h1 h2
  by_cases e : j = i
  · subst e
    rw [upd_same, upd_same]; exact ⟨rfl, hv⟩
  · rw [upd_ne _ _ e, upd_ne _ _ (by omega)]; exact h j h1 h2

/-- The list that `levelRemove` returns is a part of the old one. -/
theorem levelRemove_form {nn : LNode α} : ∀ {l out : List (LNode α)} {rem : ℕ → Option (LNode α)} {left out' : List (LNode α)} {rem' : ℕ → Option (LNode α)},
    levelRemove nn l out rem = some (left, out', rem') →
    ∃ rm : List (LNode α), l = rm ++ left ∧ left ≠ [] ∧ out' = out ++ rm.filter (fun n => decide (n.z < nn.z)) ∧ (∀ n ∈ rm, nn.x ≤ n.x) ∧
      ∀ n, left.head? = some n → n.x < nn.x
  | [], _, _, _, _, _, h => by simp [levelRemove] at h
  | n :: l, out, rem, left, out', rem', h => by
    rw [levelRemove] at h
    by_cases hx : n.x ≥ nn.x
    · rw [if_pos hx] at h
      by_cases hz : n.z < nn.z
      · rw [if_pos hz] at h
        obtain ⟨rm, h1, h2, h3, h4, h5⟩ := levelRemove_form h
        refine ⟨n :: rm, by rw [h1]; rfl, h2, by rw [h3]; simp [hz], ?_, h5⟩
        intro m hm
        rcases List.mem_cons.1 hm with rfl | hm
        · exact hx
        · exact h4 m hm
      · rw [if_neg hz] at h
        obtain ⟨rm, h1, h2, h3, h4, h5⟩ := levelRemove_form h
        refine ⟨n :: rm, by rw [h1]; rfl, h2, by rw [h3]; simp [hz], ?_, h5⟩
        intro m hm
        rcases List.mem_cons.1 hm with rfl | hm
        · exact hx
        · exact h4 m hm
    · rw [if_neg hx] at h
      simp only [Option.some.injEq, Prod.mk.injEq] at h
      obtain ⟨rfl, rfl, rfl⟩ := h
      exact ⟨[], rfl, by simp, by simp, by simp, fun m hm => by simp at hm; subst hm; exact not_le.1 hx⟩

/-- Pointers to nodes do not depend on the items. -/
theorem PtrOk.congr {N N' : Nodes3 α} {f : ℕ → Option (LNode α)} {g : ℕ → ℕ} (h : PtrOk N f g) (hf : N'.fresh = N.fresh) (hs : N'.set = N.set) : PtrOk N' f g := by
  intro i h1 h2
  obtain ⟨a1, a2⟩ := h i h1 (by omega)
  exact ⟨a1, fun n hn => ⟨⟨by rw [hf]; exact (a2 n hn).1.lt, by rw [hs]; exact (a2 n hn).1.set⟩, (a2 n hn).2⟩⟩

/-- The item number `j` is the same in two tables. -/
def ItemsAt (N N' : Nodes3 α) (j : ℕ) : Prop := N'.x j = N.x j ∧ N'.y j = N.y j ∧ N'.z j = N.z j

theorem Held.congr {N N' : Nodes3 α} {n : LNode α} (h : Held N n) (hi : ItemsAt N N' n.num) : Held N' n :=
  ⟨by rw [hi.1]; exact h.x, by rw [hi.2.1]; exact h.y, fun e => by rw [hi.2.2]; exact h.z e⟩

theorem itemsAt_poison (N : Nodes3 α) (n j : ℕ) (g : α × α × α) (h : j ≠ n) : ItemsAt N (N.poison n g) j :=
  ⟨upd_ne _ _ h, upd_ne _ _ h, upd_ne _ _ h⟩

theorem Live3.free_of {live : Live3} {b : Blk3} (h : live b = true) : live.free b = some (fun b' => if b' = b then false else live b') := by
  unfold Live3.free; rw [if_pos h]

theorem levelItemBlk_real {k : ℕ} {n : LNode α} (h : 2 ≤ n.id) : levelItemBlk k n.num = .levelItem n.num := by
  unfold levelItemBlk LNode.num; rw [if_neg (by omega)]

/-- The items that `add2level` releases. -/
def releasedNums (nn : LNode α) (rm : List (LNode α)) : List ℕ := (rm.filter (fun n => !decide (n.z < nn.z))).map LNode.num

/-- The loop that removes the dominated nodes of a level, on the nodes. -/
theorem treeLevelRemove_spec {tf : ℕ} {F : Freed3 α} {k : ℕ} {nn : LNode α} (hnn2 : 2 ≤ nn.id) (post : List (LNode α)) :
    ∀ (l : List (LNode α)) (fuel : ℕ) (h : AvlHeap) (o : OutTree) (N : Nodes3 α) (removed : ℕ) (live : Live3) (out : List (LNode α)) (rem : ℕ → Option (LNode α))
      (left out' : List (LNode α)) (rem' : ℕ → Option (LNode α)),
      levelRemove nn l out rem = some (left, out', rem') → AvlInv h ((l.reverse ++ nn :: post).map LNode.num) → OutOk h.next o (out.map LNode.num) →
      ((l.reverse ++ nn :: post ++ out).map LNode.num).Nodup → Known N nn → Held N nn → (∀ n ∈ l, Held N n) → (∀ n ∈ l, nn.x ≤ n.x → 2 ≤ n.id) →
      (∀ n ∈ l, 2 ≤ n.id → live (.levelItem n.num) = true) → l.length < fuel →
      (l.reverse ++ nn :: post).length < 2 ^ 125 → (l.reverse ++ nn :: post).length < tf → PtrOk N rem N.rem →
      ∃ (h' : AvlHeap) (o' : OutTree) (N' : Nodes3 α) (removed' : ℕ) (live' : Live3) (rm : List (LNode α)),
        treeLevelRemove tf F k nn.num fuel ((l.map LNode.num).headD 0) h o N removed live = some (h', o', N', removed', live') ∧
        AvlInv h' ((left.reverse ++ nn :: post).map LNode.num) ∧ OutOk h'.next o' (out'.map LNode.num) ∧ PtrOk N' rem' N'.rem ∧
        l = rm ++ left ∧ out' = out ++ rm.filter (fun n => decide (n.z < nn.z)) ∧ N'.fresh = N.fresh ∧ N'.set = N.set ∧ N'.prom = N.prom ∧ N'.eql = N.eql ∧
        (∀ j, j ∉ releasedNums nn rm → ItemsAt N N' j) ∧ (∀ b, live' b = true ↔ live b = true ∧ ∀ j ∈ releasedNums nn rm, b ≠ .levelItem j) := by
  intro l
  induction l with
  | nil => intro fuel h o N removed live out rem left out' rem' he; simp [levelRemove] at he
  | cons n l ih =>
    intro fuel h o N removed live out rem left out' rem' he hi ho hnd hnn hnnH hk hreal hlv hf hl ht hrem
    obtain ⟨fuel, rfl⟩ : ∃ f, fuel = f + 1 := ⟨fuel - 1, by omega⟩
    rw [levelRemove] at he
    have hsp : (n :: l).reverse ++ nn :: post = l.reverse ++ n :: nn :: post := by rw [List.reverse_cons]; simp
    rw [treeLevelRemove, List.map_cons, List.headD_cons, if_neg n.num_ne, (hk n (by simp)).x, hnnH.x]
    by_cases hx : n.x ≥ nn.x
    · rw [if_pos hx] at he ⊢
      have hn2 : 2 ≤ n.id := hreal n (by simp) hx
      rw [hsp] at hi hl ht hnd
      have hi0 := hi
      rw [List.map_append, List.map_cons] at hi
      have hlen : (l.map LNode.num ++ n.num :: (nn :: post).map LNode.num).length = (l.reverse ++ n :: nn :: post).length := by simp
      have hlen' : ((l.reverse.map LNode.num) ++ n.num :: (nn :: post).map LNode.num).length = (l.reverse ++ n :: nn :: post).length := by simp
      have hun := unlink_spec (fuel := tf) hi (by rw [hlen']; exact hl) (by rw [hlen']; exact ht)
      rw [← List.map_append] at hun
      have hprev : (avlUnlinkNode tf h n.num).prev n.num = (l.map LNode.num).headD 0 := by
        rw [unlink_prev_self hi, List.map_reverse]
        cases l with
        | nil => rfl
        | cons a l => rw [List.map_cons, getLastD_reverse_cons]; rfl
      -- disjointness
      have hnd1 : (l.reverse ++ nn :: post ++ out).map LNode.num |>.Nodup := by
        refine hnd.sublist (List.Sublist.map _ ?_)
        simp only [List.append_assoc, List.cons_append]
        exact List.Sublist.append_left (List.sublist_cons_self _ _) _
      have hndo : (out.map LNode.num).Nodup := by
        rw [List.map_append] at hnd
        exact (List.nodup_append.1 hnd).2.1
      have hperm : ((l.reverse ++ n :: nn :: post ++ out).map LNode.num).Perm (n.num :: (l.reverse ++ nn :: post ++ out).map LNode.num) := by
        simp only [List.map_append, List.map_cons, List.append_assoc, List.cons_append]
        exact List.perm_middle
      have hnd2 := List.nodup_cons.1 (hperm.nodup_iff.1 hnd)
      have hnlv : n.num ∉ (l.reverse ++ nn :: post).map LNode.num := fun hm => hnd2.1 (by rw [List.map_append]; exact List.mem_append_left _ hm)
      have hnl : n.num ∉ out.map LNode.num := fun hm => hnd2.1 (by rw [List.map_append]; exact List.mem_append_right _ hm)
      have hdis : ∀ j ∈ (l.reverse ++ nn :: post).map LNode.num, j ∉ out.map LNode.num := by
        intro j hj hj'
        rw [List.map_append] at hnd1
        exact (List.nodup_append.1 hnd1).2.2 j hj j hj' rfl
      have h0 : 0 ∉ out.map LNode.num := by
        intro hm
        obtain ⟨m, _, hm⟩ := List.mem_map.1 hm
        exact m.num_ne hm
      have ho1 : OutOk (avlUnlinkNode tf h n.num).next o (out.map LNode.num) := by
        refine ho.frame (fun j hj => unlink_next hi ?_ (fun e => h0 (e ▸ hj)))
        intro hm
        exact hdis j (by rw [List.map_append]; exact List.mem_append_left _ hm) hj
      have hl1 : (l.reverse ++ nn :: post).length < 2 ^ 125 := by
        simp only [List.length_append, List.length_cons] at hl ⊢; omega
      have ht1 : (l.reverse ++ nn :: post).length < tf := by
        simp only [List.length_append, List.length_cons] at ht ⊢; omega
      have hf1 : l.length < fuel := by simp only [List.length_cons] at hf; omega
      have hk1 : ∀ m ∈ l, Held N m := fun m hm => hk m (by simp [hm])
      have hr1 : ∀ m ∈ l, nn.x ≤ m.x → 2 ≤ m.id := fun m hm => hreal m (by simp [hm])
      dsimp only
      have hlv1 : ∀ m ∈ l, 2 ≤ m.id → live (.levelItem m.num) = true := fun m hm => hlv m (by simp [hm])
      rw [hprev, (hk n (by simp)).z hn2, hnnH.z hnn2]
      by_cases hz : n.z < nn.z
      · rw [if_pos hz] at he ⊢
        obtain ⟨a1, a2, a3⟩ := treeAdd2output_spec hun ho1 hndo n.num_ne hnlv hnl hdis h0
        have e : out.map LNode.num ++ [n.num] = (out ++ [n]).map LNode.num := by simp
        rw [e] at a2
        obtain ⟨h', o', N', removed', live', rm, r1, r2, r3, r4, r5, r6, r7, r8, r9, r10, r11, r12⟩ :=
          ih fuel _ _ N removed live (out ++ [n]) rem left out' rem' he a1 a2 (by
            refine (List.Perm.nodup_iff ?_).1 hnd
            refine List.Perm.map _ ?_
            simp only [List.append_assoc, List.cons_append]
            refine List.Perm.append_left _ ?_
            have : (n :: (nn :: (post ++ out))).Perm ((nn :: (post ++ out)) ++ [n]) := (List.perm_append_singleton _ _).symm
            simpa using this) hnn hnnH hk1 hr1 hlv1 hf1 hl1 ht1 hrem
        have hrel : releasedNums nn (n :: rm) = releasedNums nn rm := by simp [releasedNums, hz]
        refine ⟨h', o', N', removed', live', n :: rm, r1, r2, r3, r4, by rw [r5]; rfl, by rw [r6]; simp [hz], r7, r8, r9, r10, ?_, ?_⟩
        · rw [hrel]; exact r11
        · rw [hrel]; exact r12
      · rw [if_neg hz] at he ⊢
        rw [levelItemBlk_real hn2, Live3.free_of (hlv n (by simp) hn2)]
        dsimp only
        have hneq : ∀ m ∈ l, m.num ≠ n.num := by
          intro m hm e
          exact hnlv (by rw [← e]; exact List.mem_map_of_mem (by simp [hm]))
        have hnnn : nn.num ≠ n.num := fun e => hnlv (by rw [← e]; exact List.mem_map_of_mem (by simp))
        obtain ⟨h', o', N', removed', live', rm, r1, r2, r3, r4, r5, r6, r7, r8, r9, r10, r11, r12⟩ :=
          ih fuel ((avlUnlinkNode tf h n.num).setNext n.num (F.head n.num removed)) o
            { N.poison n.num (F.item n.num) with rem := upd N.rem n.num nn.num } n.num (fun b' => if b' = .levelItem n.num then false else live b') out _ left out' rem' he
            (by
              refine hun.frame (fun _ _ => rfl) (fun _ _ => rfl) (fun _ _ => rfl) ?_ (fun _ _ => rfl) (fun _ _ => rfl) rfl rfl rfl
              exact fun j hj => upd_ne _ _ (fun e => hnlv (e ▸ hj)))
            (ho1.frame (fun j hj => upd_ne _ _ (fun e => hnl (e ▸ hj)))) hnd1 ⟨hnn.lt, hnn.set⟩
            (hnnH.congr (itemsAt_poison N n.num nn.num _ hnnn)) (fun m hm => (hk1 m hm).congr (itemsAt_poison N n.num m.num _ (hneq m hm))) hr1
            (fun m hm hm2 => by
              rw [if_neg (by simpa using hneq m hm)]; exact hlv1 m hm hm2) hf1 hl1 ht1
            ((hrem.upd n.id (v := some nn) (fun m hm => by simp at hm; subst hm; exact ⟨hnn, hnn2⟩)).congr rfl rfl)
        have hrel : releasedNums nn (n :: rm) = n.num :: releasedNums nn rm := by simp [releasedNums, hz]
        refine ⟨h', o', N', removed', live', n :: rm, r1, r2, r3, r4, by rw [r5]; rfl, by rw [r6]; simp [hz], r7, r8, r9, r10, ?_, ?_⟩
        · intro j hj
          rw [hrel, List.mem_cons, not_or] at hj
          obtain ⟨b1, b2, b3⟩ := r11 j hj.2
          obtain ⟨c1, c2, c3⟩ := itemsAt_poison N n.num j (F.item n.num) hj.1
          exact ⟨b1.trans c1, b2.trans c2, b3.trans c3⟩
        · intro b
          rw [hrel, r12 b]
          simp only [List.mem_cons, forall_eq_or_imp]
          by_cases e : b = .levelItem n.num
          · simp [e]
          · simp [e]
    · rw [if_neg hx] at he ⊢
      simp only [Option.some.injEq, Prod.mk.injEq] at he
      obtain ⟨rfl, rfl, rfl⟩ := he
      exact ⟨h, o, N, removed, live, [], rfl, hi, ho, hrem, rfl, by simp, rfl, rfl, rfl, rfl, fun j _ => ⟨rfl, rfl, rfl⟩, fun b => by simp [releasedNums]⟩

end Moo
