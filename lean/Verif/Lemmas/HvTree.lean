import Verif.Model.HvTree
import Verif.Lemmas.AvlDelete

/-!
# The tree of the hypervolume code: the nodes of the tree against the list of its items
-/

set_option autoImplicit false
set_option linter.unusedSectionVars false

namespace Moo

/-! ### `prev` fields -/

theorem rotateRight_prev (h : AvlHeap) (n p : ℕ) (s : AvlSuper) : (avlRotateRight h n p s).prev = h.prev := by
  unfold avlRotateRight
  dsimp only
  split_ifs <;> simp [setSuper_prev]

theorem rotateLeft_prev (h : AvlHeap) (n p : ℕ) (s : AvlSuper) : (avlRotateLeft h n p s).prev = h.prev := by
  unfold avlRotateLeft
  dsimp only
  split_ifs <;> simp [setSuper_prev]

theorem rebalanceStep_prev (h : AvlHeap) (n : ℕ) : (avlRebalanceStep h n).prev = h.prev := by
  unfold avlRebalanceStep
  dsimp only
  split_ifs
  · exact rotateRight_prev ..
  · exact rotateLeft_prev ..
  · rfl

theorem rebalance_prev : ∀ (fuel : ℕ) (h : AvlHeap) (n : ℕ), (avlRebalance fuel h n).prev = h.prev
  | 0, _, _ => rfl
  | fuel + 1, h, n => by
    rw [avlRebalance]
    split_ifs
    · rw [rebalance_prev fuel, rebalanceStep_prev]
    · rfl

theorem unlinkNode_prev (fuel : ℕ) (h : AvlHeap) (n : ℕ) : (avlUnlinkNode fuel h n).prev = (avlUnlinkList h n).prev := by
  unfold avlUnlinkNode
  dsimp only
  split_ifs <;> simp [rebalance_prev, setSuper_prev]

/-- The `prev` field of a node is still there after the node has been removed. -/
theorem unlink_prev_self {h : AvlHeap} {A B : List ℕ} {x fuel : ℕ} (hi : AvlInv h (A ++ x :: B)) :
    (avlUnlinkNode fuel h x).prev x = A.getLastD 0 := by
  have hz := hi.zero_not_mem
  obtain ⟨t, hr, hb, hids, hd, hnd⟩ := hi
  have hat := dlist_at hd
  have hx0 : x ≠ 0 := fun e => hz (by simp [e])
  have hndA := List.nodup_append.1 hnd
  have hndB := List.nodup_cons.1 hndA.2.1
  have hpx : h.prev x ≠ x := by
    rw [hat.1]
    intro e
    by_cases hA : A = []
    · subst hA; exact hx0 e.symm
    · have := getLastD_mem hA; rw [e] at this; exact hndA.2.2 x this x (by simp) rfl
  have hnx : x ≠ h.next x := by
    rw [hat.2]
    intro e
    by_cases hB : B = []
    · subst hB; exact hx0 e
    · have := avl_headD_mem hB; rw [← e] at this; exact hndB.1 this
  rw [unlinkNode_prev, (unlinkList_fields h x hpx).2.2.2.2.2.2.1, updIf_ne _ _ hnx, hat.1]

theorem AvlInv.prev {h : AvlHeap} {A B : List ℕ} {x : ℕ} (hi : AvlInv h (A ++ x :: B)) : h.prev x = A.getLastD 0 := by
  obtain ⟨_, _, _, _, hd, _⟩ := hi; exact (dlist_at hd).1

theorem AvlInv.next {h : AvlHeap} {A B : List ℕ} {x : ℕ} (hi : AvlInv h (A ++ x :: B)) : h.next x = B.headD 0 := by
  obtain ⟨_, _, _, _, hd, _⟩ := hi; exact (dlist_at hd).2

theorem AvlInv.nodup {h : AvlHeap} {l : List ℕ} (hi : AvlInv h l) : l.Nodup := by
  obtain ⟨_, _, _, _, _, hnd⟩ := hi; exact hnd

variable {K : Type*} [CommRing K] [LinearOrder K]

/-- The order of the items in the tree: second coordinate decreasing, then first coordinate decreasing. -/
def HvLex (x : ℕ → ℕ → K) (a b : ℕ) : Prop := x b 1 < x a 1 ∨ x a 1 = x b 1 ∧ x b 0 ≤ x a 0

theorem compareTreeAsc_pos {x : ℕ → ℕ → K} {p t : ℕ} :
    0 < compareTreeAsc (x p) (x t) ↔ x p 1 < x t 1 ∨ x p 1 = x t 1 ∧ x p 0 < x t 0 := by
  unfold compareTreeAsc
  rcases lt_trichotomy (x p 1) (x t 1) with h | h | h
  · rw [if_neg (not_lt.2 h.le), if_pos h]; simp [h]
  · rw [if_neg (by rw [h]; exact lt_irrefl _), if_neg (by rw [h]; exact lt_irrefl _)]
    by_cases h2 : x p 0 ≥ x t 0
    · rw [if_pos h2]; simp [h, not_lt.2 h2]
    · rw [if_neg h2]; simp [h, not_le.1 h2]
  · rw [if_pos h]; simp [not_lt.2 h.le, ne_of_gt h]

theorem compareTreeAsc_ne_zero {x : ℕ → ℕ → K} {p t : ℕ} : compareTreeAsc (x p) (x t) ≠ 0 := by
  unfold compareTreeAsc
  split_ifs <;> decide

theorem compareTreeAsc_neg {x : ℕ → ℕ → K} {p t : ℕ} (h : ¬ 0 < compareTreeAsc (x p) (x t)) : HvLex x p t := by
  rw [compareTreeAsc_pos] at h
  push Not at h
  rcases lt_or_eq_of_le h.1 with h1 | h1
  · exact Or.inl h1
  · exact Or.inr ⟨h1.symm, h.2 h1.symm⟩

/-- The sign of the comparison with `p` does not grow along the tree. -/
theorem compareTreeAsc_mono {x : ℕ → ℕ → K} {p u v : ℕ} (h : HvLex x u v) (hv : 0 < compareTreeAsc (x p) (x v)) :
    0 < compareTreeAsc (x p) (x u) := by
  rw [compareTreeAsc_pos] at hv ⊢
  rcases h with h | ⟨h1, h2⟩
  · rcases hv with hv | ⟨hv, _⟩
    · exact Or.inl (hv.trans h)
    · exact Or.inl (hv ▸ h)
  · rw [h1]
    rcases hv with hv | ⟨hv, hv'⟩
    · exact Or.inl hv
    · exact Or.inr ⟨hv, hv'.trans_le h2⟩

/-- A split of a list into items that satisfy a test and items that do not is the one that `takeWhile` and `dropWhile` give. -/
theorem takeWhile_dropWhile_split {p : ℕ → Bool} : ∀ {A B : List ℕ}, (∀ a ∈ A, p a = true) → (∀ b ∈ B, p b = false) →
    (A ++ B).takeWhile p = A ∧ (A ++ B).dropWhile p = B
  | [], [], _, _ => by simp
  | [], b :: B, _, hB => by simp [hB b (by simp)]
  | a :: A, B, hA, hB => by
    have ih := takeWhile_dropWhile_split (A := A) (B := B) (fun a ha => hA a (by simp [ha])) hB
    simp [hA a (by simp), ih.1, ih.2]

/-! ### The removal loop -/

theorem getLastD_reverse_cons (p : ℕ) (l : List ℕ) : ((p :: l).reverse).getLastD 0 = p := by
  rw [List.reverse_cons, getLastD_append l.reverse p [] 0 0]; rfl

/-- c/hv.c:971-986 on the nodes of the tree: the loop followed by the removal of the last node. -/
theorem hv3dTreePop_spec (tf : ℕ) (x : ℕ → ℕ → K) (ref : ℕ → K) (pp : ℕ) (nxt : ℕ → K) (after : List ℕ) :
    ∀ (rest : List ℕ) (cur fuel : ℕ) (hypera : K) (prv : ℕ → K) (h : AvlHeap),
      AvlInv h ((cur :: rest).reverse ++ pp :: after) → rest.length < fuel → ((cur :: rest).reverse ++ pp :: after).length < 2 ^ 125 →
      ((cur :: rest).reverse ++ pp :: after).length < tf →
      let v := hv3dTreePop tf x pp nxt fuel ⟨hypera, cur, x cur, prv, h⟩
      let h' := avlUnlinkNode tf v.tree v.tnode
      let r := hv3dPop x ref pp (nxt 0) (cur :: rest) hypera
      AvlInv h' (r.1.reverse ++ pp :: after) ∧
      (if h'.prev v.tnode = 0 then (v.hypera - (ref 1 - v.cur 1) * (nxt 0 - v.cur 0), ref 1) else (v.hypera, v.prv 1)) = (r.2.1, r.2.2) := by
  intro rest
  induction rest with
  | nil =>
    intro cur fuel hypera prv h hi hf hl ht
    obtain ⟨fuel, rfl⟩ : ∃ f, fuel = f + 1 := ⟨fuel - 1, by omega⟩
    have hi' : AvlInv h ([] ++ cur :: pp :: after) := hi
    have hprev : h.prev cur = 0 := hi'.prev
    have hpop : hv3dTreePop tf x pp nxt (fuel + 1) ⟨hypera, cur, x cur, prv, h⟩ = ⟨hypera, cur, x cur, prv, h⟩ := by
      rw [hv3dTreePop, if_pos hprev]
    dsimp only
    rw [hpop]
    dsimp only
    refine ⟨unlink_spec hi' hl ht, ?_⟩
    rw [unlink_prev_self hi']
    rfl
  | cons p rest ih =>
    intro cur fuel hypera prv h hi hf hl ht
    obtain ⟨fuel, rfl⟩ : ∃ f, fuel = f + 1 := ⟨fuel - 1, by omega⟩
    have hsp : (cur :: p :: rest).reverse ++ pp :: after = (p :: rest).reverse ++ cur :: pp :: after := by
      rw [List.reverse_cons]; simp
    rw [hsp] at hi hl ht
    have hp0 : p ≠ 0 := fun e => hi.zero_not_mem (by simp [e])
    have hprev : h.prev cur = p := by rw [hi.prev, getLastD_reverse_cons]
    have hun := unlink_spec (fuel := tf) hi hl ht
    have hup : (avlUnlinkNode tf h cur).prev cur = p := by rw [unlink_prev_self hi, getLastD_reverse_cons]
    dsimp only
    rw [hv3dTreePop, if_neg (by rw [hprev]; exact hp0), hprev]
    dsimp only
    rw [hv3dPop]
    by_cases hc : x p 0 < x pp 0
    · rw [if_pos hc, if_pos hc]
      dsimp only
      exact ⟨hun, by rw [hup, if_neg hp0]⟩
    · rw [if_neg hc, if_neg hc, hup]
      refine ih p fuel _ (x p) _ hun (by simp only [List.length_cons] at hf; omega) ?_ ?_
      · simp only [List.length_append, List.length_cons] at hl ⊢; omega
      · simp only [List.length_append, List.length_cons] at ht ⊢; omega

/-- What remains after the removal loop is the older part of the list. -/
theorem hv3dPop_suffix (x : ℕ → ℕ → K) (ref : ℕ → K) (pp : ℕ) (nxt0 : K) :
    ∀ (l : List ℕ) (hypera : K), (hv3dPop x ref pp nxt0 l hypera).1 <:+ l
  | [], _ => List.suffix_refl _
  | [_], _ => by rw [hv3dPop]; exact List.nil_suffix
  | cur :: prv :: rest, hypera => by
    rw [hv3dPop]
    split_ifs
    · exact List.suffix_cons ..
    · exact (hv3dPop_suffix x ref pp nxt0 (prv :: rest) _).trans (List.suffix_cons ..)

/-! ### One point -/

/-- The outcome of one step on the nodes against the outcome on the list of items. -/
def HvTreeSim (x : ℕ → ℕ → K) (T : List ℕ) (pp : ℕ) : Option (AvlHeap × K) → Option (List ℕ × K) → Prop
  | none, none => True
  | some (h', a'), some (T', a) => a' = a ∧ AvlInv h' T' ∧ T'.Pairwise (HvLex x) ∧ T' ≠ [] ∧ (∀ t ∈ T', t = pp ∨ t ∈ T) ∧ T'.length ≤ T.length + 1
  | _, _ => False

theorem nextX_headD (x : ℕ → ℕ → K) (ref : ℕ → K) (B : List ℕ) (h0 : 0 ∉ B) :
    (if B.headD 0 ≠ 0 then x (B.headD 0) else ref) 0 = nextX x ref B := by
  cases B with
  | nil => simp [nextX]
  | cons b B =>
    have : b ≠ 0 := fun e => h0 (by simp [e])
    simp [nextX, this]

/-- c/hv.c:948-993: the step on the nodes of the tree does what the step on the list of items does. -/
theorem hv3dTreeUpdate_spec (tf : ℕ) (x : ℕ → ℕ → K) (ref : ℕ → K) (h : AvlHeap) (T : List ℕ) (pp : ℕ) (hypera : K) (hi : AvlInv h T)
    (hs : T.Pairwise (HvLex x)) (hne : T ≠ []) (hpp : pp ∉ T) (hpp0 : pp ≠ 0) (hlen : T.length + 1 < 2 ^ 125) (htf : T.length + 1 < tf) :
    HvTreeSim x T pp (hv3dTreeUpdate tf x ref h pp hypera) (hv3dUpdate x ref T pp hypera) := by
  have hz := hi.zero_not_mem
  obtain ⟨-, A0, y, B0, hT, hA0, hB0, hsearch⟩ := searchClosest_spec (c := fun n => compareTreeAsc (x pp) (x n)) (fuel := tf) hi hne (by omega) (by
    refine hs.imp (fun {u v} huv => ⟨fun hc => ?_, fun hc => ?_⟩)
    · by_contra hcon
      exact absurd (compareTreeAsc_mono huv (not_le.1 hcon)) (not_lt.2 hc)
    · have h1 : ¬ 0 < compareTreeAsc (x pp) (x v) := fun hcon => absurd (compareTreeAsc_mono huv hcon) (not_lt.2 hc.le)
      exact lt_of_le_of_ne (not_lt.1 h1) compareTreeAsc_ne_zero)
  -- the split
  obtain ⟨A, B, hAB, hA, hB, hnt⟩ : ∃ A B : List ℕ, T = A ++ B ∧ (∀ a ∈ A, 0 < compareTreeAsc (x pp) (x a)) ∧
      (∀ b ∈ B, ¬ 0 < compareTreeAsc (x pp) (x b)) ∧
      ∃ nx : ℕ → K, nx 0 = nextX x ref B ∧
        (let s := (avlSearchClosest tf h (fun n => compareTreeAsc (x pp) (x n))).getD (0, 0)
         (if s.2 ≤ 0 then (x s.1, h.prev s.1) else (if h.next s.1 ≠ 0 then x (h.next s.1) else ref, s.1) : (ℕ → K) × ℕ)) =
          (nx, A.getLastD 0) := by
    subst hT
    rw [hsearch]
    dsimp only [Option.getD_some]
    by_cases hc : 0 < compareTreeAsc (x pp) (x y)
    · refine ⟨A0 ++ [y], B0, by simp, ?_, fun b hb => not_lt.2 (hB0 b hb).1, _, nextX_headD x ref B0 (fun hm => hz (by simp [hm])), ?_⟩
      · intro a ha
        rcases List.mem_append.1 ha with ha | ha
        · exact (hA0 a ha).2 compareTreeAsc_ne_zero
        · simp at ha; subst ha; exact hc
      · rw [if_neg (not_lt.2 hc.le), if_pos hc, if_neg (by decide), hi.next, getLastD_append A0 y [] 0 0]; rfl
    · have hneg : compareTreeAsc (x pp) (x y) < 0 := lt_of_le_of_ne (not_lt.1 hc) compareTreeAsc_ne_zero
      refine ⟨A0, y :: B0, rfl, fun a ha => (hA0 a ha).2 compareTreeAsc_ne_zero, ?_, x y, rfl, ?_⟩
      · intro b hb
        rcases List.mem_cons.1 hb with rfl | hb
        · exact hc
        · exact not_lt.2 (hB0 b hb).1
      · rw [if_pos hneg, if_pos (by decide), hi.prev]
  obtain ⟨nx, hnx, hnt⟩ := hnt
  have hsplit := takeWhile_dropWhile_split (p := fun t => decide (0 < compareTreeAsc (x pp) (x t))) (A := A) (B := B)
    (fun a ha => decide_eq_true (hA a ha)) (fun b hb => decide_eq_false (hB b hb))
  rw [← hAB] at hsplit
  have hsB : B.Pairwise (HvLex x) := (List.pairwise_append.1 (hAB ▸ hs)).2.1
  have hsA : A.Pairwise (HvLex x) := (List.pairwise_append.1 (hAB ▸ hs)).1
  have hsAB := (List.pairwise_append.1 (hAB ▸ hs)).2.2
  have hApp : ∀ a ∈ A, HvLex x a pp := by
    intro a ha
    rcases compareTreeAsc_pos.1 (hA a ha) with h | ⟨h1, h2⟩
    · exact Or.inl h
    · exact Or.inr ⟨h1.symm, h2.le⟩
  have hppB : ∀ b ∈ B, HvLex x pp b := fun b hb => compareTreeAsc_neg (hB b hb)
  have hsorted : ∀ A' : List ℕ, A'.Sublist A → (A' ++ pp :: B).Pairwise (HvLex x) := by
    intro A' hsub
    rw [List.pairwise_append, List.pairwise_cons]
    refine ⟨hsA.sublist hsub, ⟨hppB, hsB⟩, ?_⟩
    intro a ha b hb
    rcases List.mem_cons.1 hb with rfl | hb
    · exact hApp a (hsub.subset ha)
    · exact hsAB a (hsub.subset ha) b hb
  have hmemT : ∀ A' : List ℕ, A'.Sublist A → ∀ t ∈ A' ++ pp :: B, t = pp ∨ t ∈ T := by
    intro A' hsub t ht
    rw [hAB]
    rcases List.mem_append.1 ht with ht | ht
    · exact Or.inr (List.mem_append_left _ (hsub.subset ht))
    · rcases List.mem_cons.1 ht with ht | ht
      · exact Or.inl ht
      · exact Or.inr (List.mem_append_right _ ht)
  have hlenT : ∀ A' : List ℕ, A'.Sublist A → (A' ++ pp :: B).length ≤ T.length + 1 := by
    intro A' hsub
    have := hsub.length_le
    rw [hAB]
    simp only [List.length_append, List.length_cons]; omega
  unfold hv3dTreeUpdate hv3dUpdate
  dsimp only at hnt ⊢
  rw [hnt, hsplit.1, hsplit.2]
  dsimp only
  by_cases hgt : nextX x ref B > x pp 0
  · rw [if_pos (show nx 0 > x pp 0 by rw [hnx]; exact hgt), if_pos hgt]
    rcases hrev : A.reverse with _ | ⟨t, rest⟩
    · -- no item before
      have hA0 : A = [] := by simpa using hrev
      subst hA0
      have hins := insertAfter_null (fuel := tf) (rec := 3) hi hpp hpp0 hlen (by omega) (le_refl _)
      have hB' : T = B := by simpa using hAB
      rw [hB'] at hins
      dsimp only [List.getLastD_nil]
      simp only [ne_eq, not_true_eq_false, if_false]
      exact ⟨by rw [hnx], hins, hsorted [] (List.Sublist.refl _), by simp, hmemT [] (List.Sublist.refl _), hlenT [] (List.Sublist.refl _)⟩
    · have hAr : A = (t :: rest).reverse := by rw [← hrev, List.reverse_reverse]
      have hTr : T = rest.reverse ++ t :: B := by rw [hAB, hAr, List.reverse_cons]; simp
      have ht0 : t ≠ 0 := fun e => hz (by rw [hTr]; simp [e])
      have hlast : A.getLastD 0 = t := by rw [hAr, getLastD_reverse_cons]
      have hins : AvlInv (avlInsertAfter 3 tf h t pp) ((t :: rest).reverse ++ pp :: B) := by
        have := insertAfter_spec (h := h) (A := rest.reverse) (B := B) (x := t) (new := pp) (fuel := tf) (rec := 3) (hTr ▸ hi)
          (by rw [← hTr]; exact hpp) hpp0 (by rw [← hTr]; exact hlen) (by rw [← hTr]; omega) (by omega)
        rw [List.reverse_cons]; simpa using this
      have hlen2 : ((t :: rest).reverse ++ pp :: B).length = T.length + 1 := by
        rw [hTr]; simp only [List.length_append, List.length_cons, List.length_reverse]; omega
      rw [hlast]
      dsimp only
      rw [if_pos ht0]
      by_cases hdom : x t 0 > x pp 0
      · rw [if_pos hdom, if_pos hdom]
        have hprev : (avlInsertAfter 3 tf h t pp).prev pp = t := by rw [hins.prev, getLastD_reverse_cons]
        rw [hprev]
        have hpop := hv3dTreePop_spec tf x ref pp nx B rest t tf hypera (x t) _ hins
          (by rw [hTr] at htf; simp only [List.length_append, List.length_cons, List.length_reverse] at htf; omega)
          (by rw [hlen2]; exact hlen) (by rw [hlen2]; exact htf)
        dsimp only at hpop
        obtain ⟨p1, p2⟩ := hpop
        rw [hnx] at p1 p2
        have hsub : (hv3dPop x ref pp (nextX x ref B) (t :: rest) hypera).1.reverse.Sublist A := by
          rw [hAr]
          exact (hv3dPop_suffix x ref pp (nextX x ref B) (t :: rest) hypera).sublist.reverse
        by_cases hp : (avlUnlinkNode tf (hv3dTreePop tf x pp nx tf ⟨hypera, t, x t, x t, avlInsertAfter 3 tf h t pp⟩).tree
            (hv3dTreePop tf x pp nx tf ⟨hypera, t, x t, x t, avlInsertAfter 3 tf h t pp⟩).tnode).prev
            (hv3dTreePop tf x pp nx tf ⟨hypera, t, x t, x t, avlInsertAfter 3 tf h t pp⟩).tnode = 0
        · rw [if_pos hp] at p2 ⊢
          refine ⟨?_, p1, hsorted _ hsub, by simp, hmemT _ hsub, hlenT _ hsub⟩
          have e1 := congrArg Prod.fst p2
          have e2 := congrArg Prod.snd p2
          dsimp only at e1 e2 ⊢
          rw [hnx, e1, e2]
        · rw [if_neg hp] at p2 ⊢
          refine ⟨?_, p1, hsorted _ hsub, by simp, hmemT _ hsub, hlenT _ hsub⟩
          have e1 := congrArg Prod.fst p2
          have e2 := congrArg Prod.snd p2
          dsimp only at e1 e2 ⊢
          rw [hnx, e1, e2]
      · rw [if_neg hdom, if_neg hdom]
        refine ⟨by dsimp only; rw [hnx], ?_, hsorted A (List.Sublist.refl _), by simp, hmemT A (List.Sublist.refl _), hlenT A (List.Sublist.refl _)⟩
        rw [hAr]; exact hins
  · rw [if_neg (show ¬ nx 0 > x pp 0 by rw [hnx]; exact hgt), if_neg hgt]
    trivial

end Moo
