import Verif.Lemmas.AvlUnlink

/-!
# Specifications of deletion, of the insert functions and of the search
-/

set_option autoImplicit false

namespace Moo

open ATree

theorem unlink_finish {h h2 : AvlHeap} {A B : List ℕ} {x bal fuel : ℕ} (hd : DList h (A ++ x :: B)) (hnd : (A ++ x :: B).Nodup)
    (h0 : 0 ∉ A ++ x :: B) (hlen : (A ++ x :: B).length < 2 ^ 125) (hfuel : (A ++ x :: B).length < fuel)
    (hu : UnlinkRes (avlUnlinkList h x) h2 bal A B) : AvlInv (avlRebalance fuel h2 bal) (A ++ B) := by
  have hat := dlist_at hd
  have hndA := List.nodup_append.1 hnd
  have hndB := List.nodup_cons.1 hndA.2.1
  have hA0 : 0 ∉ A := fun hm => h0 (by simp [hm])
  have hB0 : 0 ∉ B := fun hm => h0 (by simp [hm])
  have hx0 : x ≠ 0 := fun e => h0 (by simp [e])
  have hpx : h.prev x ≠ x := by
    rw [hat.1]
    intro e
    by_cases hA : A = []
    · subst hA; exact hx0 e.symm
    · have := getLastD_mem hA; rw [e] at this; exact hndA.2.2 x this x (by simp) rfl
  obtain ⟨-, -, -, -, -, fN, fP, fH, fT⟩ := unlinkList_fields h x hpx
  have hndAB : (A ++ B).Nodup := by
    rw [List.nodup_append]; exact ⟨hndA.1, hndB.2, fun a ha b hb => hndA.2.2 a ha b (by simp [hb])⟩
  obtain ⟨⟨c, p, k, t, hc, hr, hb, hcb, k1, k2, hids⟩, eN, ePr, eH, eTl⟩ := hu
  have hperm := plugIds_perm c t.ids
  rw [hids] at hperm
  have hle : (ctxIds c ++ t.ids).length = (A ++ B).length := hperm.length_eq.symm
  obtain ⟨t', r1, r2, r3, r4, r5, r6, r7⟩ := rebalance_spec c h2 bal p k fuel t hc hr hb hcb k1 k2 (hperm.nodup_iff.1 hndAB)
    (by rw [hle]; simp at hlen ⊢; omega)
    (by have := ctx_length_le c; simp at hfuel hle ⊢; omega)
  refine ⟨t', r1, r2, by rw [r3, hids], ?_, hndAB⟩
  have hAp : h.prev x ≠ 0 ↔ A ≠ [] := by rw [hat.1, Ne, getLastD_eq_zero hA0]
  have hBp : h.next x ≠ 0 ↔ B ≠ [] := by rw [hat.2, Ne, headD_eq_zero hB0]
  refine dlist_remove (h := h) hd hnd h0 ?_ ?_ ?_ ?_ ?_ ?_
  · intro j hj hne; rw [r4, eN, fN, hat.1, updIf_ne _ _ hne]
  · intro hA; rw [r4, eN, fN, hat.1, updIf_same _ _ (by rw [← hat.1]; exact hAp.2 hA), hat.2]
  · intro j hj hne; rw [r5, ePr, fP, hat.2, updIf_ne _ _ hne]
  · intro hB; rw [r5, ePr, fP, hat.2, updIf_same _ _ (by rw [← hat.2]; exact hBp.2 hB), hat.1]
  · rw [r6, eH, fH]
    by_cases hA : A = []
    · rw [if_neg (by rw [hAp]; simpa using hA), if_pos hA, hat.2]
    · rw [if_pos (hAp.2 hA), if_neg hA]
  · rw [r7, eTl, fT]
    by_cases hB : B = []
    · rw [if_neg (by rw [hBp]; simpa using hB), if_pos hB, hat.1]
    · rw [if_pos (hBp.2 hB), if_neg hB]

theorem AvlInv.zero_not_mem' {h : AvlHeap} {l : List ℕ} (hi : AvlInv h l) : 0 ∉ l := hi.zero_not_mem

/-- `avl_unlink_node` removes exactly the given node. -/
theorem unlink_spec {h : AvlHeap} {A B : List ℕ} {x fuel : ℕ} (hi : AvlInv h (A ++ x :: B))
    (hlen : (A ++ x :: B).length < 2 ^ 125) (hfuel : (A ++ x :: B).length < fuel) :
    AvlInv (avlUnlinkNode fuel h x) (A ++ B) := by
  have hz := hi.zero_not_mem
  obtain ⟨t, hr, hb, hids, hd, hnd⟩ := hi
  have hat := dlist_at hd
  have hx0 : x ≠ 0 := fun e => hz (by simp [e])
  have hndA := List.nodup_append.1 hnd
  have hndB := List.nodup_cons.1 hndA.2.1
  have hpx : h.prev x ≠ x := by
    rw [hat.1]
    intro e
    by_cases hA : A = []
    · subst hA; exact hx0 e.symm
    · have := getLastD_mem hA; rw [e] at this; exact hndA.2.2 x this x (by simp) rfl
  have hnx : h.next x ≠ x := by
    rw [hat.2]
    intro e
    by_cases hB : B = []
    · subst hB; exact hx0 e.symm
    · have := avl_headD_mem hB; rw [e] at this; exact hndB.1 this
  obtain ⟨fL, fR, fPa, fD, fTop, fN, fP, fH, fT⟩ := unlinkList_fields h x hpx
  unfold avlUnlinkNode
  have fin := fun (h2 : AvlHeap) (bal : ℕ) => unlink_finish (h2 := h2) (bal := bal) hd hnd hz hlen hfuel
  have hsub : (avlUnlinkList h x).prev x = A.getLastD 0 := by rw [fP, updIf_ne _ _ (Ne.symm hnx), hat.1]
  have hr0 : Rep (avlUnlinkList h x) 0 (avlUnlinkList h x).top t := by
    rw [fTop]
    exact hr.congr' (by rw [hids]; exact hnd) (fun _ _ => by rw [fL]) (fun _ _ => by rw [fR]) (fun _ _ => by rw [fD]) (fun _ _ => by rw [fPa])
  clear hr hd hat hpx hnx fL fR fPa fD fTop fN fP fH fT
  generalize avlUnlinkList h x = h0 at *
  obtain ⟨c, l, r, rfl⟩ := exists_plug' t x (by rw [hids]; simp)
  have hr0' := hr0
  obtain ⟨par, p, h4, h5⟩ := rep_plug _ _ hr0
  obtain ⟨rfl, _, hxp, hxd, hl, hrr⟩ := h4
  obtain ⟨b1, b2⟩ := bal_plug _ _ hb
  obtain ⟨a, b, hab⟩ := plugIds_split c
  have hsplit : A = a ++ l.ids ∧ B = r.ids ++ b := by
    have : A ++ p :: B = (a ++ l.ids) ++ p :: (r.ids ++ b) := by
      rw [← hids, ids_plug, hab]; simp [ids]
    exact split_unique this hnd
  have hnd2 : (ctxIds c ++ (ATree.node l p r).ids).Nodup := by rw [← ids_plug_nodup, hids]; exact hnd
  have hndp := List.nodup_append.1 hnd2
  have hndlr := hndp.2.1
  rw [ids, List.nodup_append, List.nodup_cons] at hndlr
  simp only [hxp]
  by_cases hl0 : h0.left p = 0
  · rw [if_pos hl0]
    rw [hl0] at hl
    obtain rfl := rep_nil hl
    refine fin _ par ?_
    rw [hsplit.1, hsplit.2]
    have := unlink_one_child (h2 := (h0.setSuper (avlSuper h0 p par) (h0.right p)).setParentIf (h0.right p) par) (J := (ATree.node nil p r).ids)
      h5 hx0 hrr hab hnd2 (by simp [ids]) (by intro j hj; simp [ids, hj]) hndlr.2.1.2 b1.2.1
      (by have := b2; simpa [height] using this)
      (by unfold AvlHeap.setParentIf; split <;> simp [AvlHeap.setParent])
      (by unfold AvlHeap.setParentIf; split <;> simp [AvlHeap.setParent])
      (by unfold AvlHeap.setParentIf; split <;> simp [AvlHeap.setParent])
      (by unfold AvlHeap.setParentIf updIf; split <;> simp [AvlHeap.setParent])
      (by unfold AvlHeap.setParentIf; split <;> simp [AvlHeap.setParent])
      (by unfold AvlHeap.setParentIf; split <;> simp [AvlHeap.setParent])
      (by unfold AvlHeap.setParentIf; split <;> simp [AvlHeap.setParent])
      (by unfold AvlHeap.setParentIf; split <;> simp [AvlHeap.setParent])
      (by unfold AvlHeap.setParentIf; split <;> simp [AvlHeap.setParent])
    obtain ⟨⟨c', p', k', t', q1, q2, q3, q4, q5, q6, q7⟩, w1, w2, w3, w4⟩ := this
    exact ⟨⟨c', p', k', t', q1, q2, q3, q4, q5, q6, by rw [q7]; simp [ids]⟩, w1, w2, w3, w4⟩
  rw [if_neg hl0]
  by_cases hr0c : h0.right p = 0
  · rw [if_pos hr0c]
    rw [hr0c] at hrr
    obtain rfl := rep_nil hrr
    refine fin _ par ?_
    rw [hsplit.1, hsplit.2]
    have := unlink_one_child (h2 := (h0.setSuper (avlSuper h0 p par) (h0.left p)).setParent (h0.left p) par) (J := (ATree.node l p nil).ids)
      h5 hx0 hl hab hnd2 (by simp [ids]) (by intro j hj; simp [ids, hj]) hndlr.1 b1.1
      (by have := b2; simpa [height] using this)
      (by simp [AvlHeap.setParent]) (by simp [AvlHeap.setParent]) (by simp [AvlHeap.setParent]) (by simp [AvlHeap.setParent, updIf, hl0])
      (by simp [AvlHeap.setParent]) (by simp [AvlHeap.setParent]) (by simp [AvlHeap.setParent]) (by simp [AvlHeap.setParent])
      (by simp [AvlHeap.setParent])
    obtain ⟨⟨c', p', k', t', q1, q2, q3, q4, q5, q6, q7⟩, w1, w2, w3, w4⟩ := this
    exact ⟨⟨c', p', k', t', q1, q2, q3, q4, q5, q6, by rw [q7]; simp [ids]⟩, w1, w2, w3, w4⟩
  rw [if_neg hr0c]
  -- the predecessor
  have hlne : l.ids ≠ [] := by
    intro e
    obtain rfl := ids_eq_nil e
    exact hl0 hl
  obtain ⟨s, hs⟩ : ∃ s, h0.prev p = s := ⟨_, rfl⟩
  rw [hs]
  have hslast : ∃ rest, l.ids = rest ++ [s] := by
    refine ⟨l.ids.dropLast, ?_⟩
    have e1 : l.ids.getLast hlne = s := by
      rw [← hs, hsub, hsplit.1, List.getLastD_eq_getLast?, List.getLast?_append_of_ne_nil _ hlne,
        List.getLast?_eq_some_getLast hlne]
      rfl
    rw [← e1, List.dropLast_append_getLast]
  obtain ⟨rest, hrest⟩ := hslast
  obtain ⟨d, la, lb, hle⟩ := exists_plug' l s (by rw [hrest]; simp)
  obtain ⟨a', b', hab'⟩ := plugIds_split d
  have hlsplit : rest = a' ++ la.ids ∧ [] = lb.ids ++ b' := by
    have : rest ++ s :: [] = (a' ++ la.ids) ++ s :: (lb.ids ++ b') := by
      rw [← hrest, hle, ids_plug, hab']; simp [ids]
    exact split_unique this (by rw [← hrest]; exact hndlr.1)
  have hlbn : lb = .nil := ids_eq_nil (List.append_eq_nil_iff.1 hlsplit.2.symm).1
  have hb'n : b' = [] := (List.append_eq_nil_iff.1 hlsplit.2.symm).2
  subst hlbn
  subst hb'n
  have hwhole : plug c (.node l p r) = plug (d ++ ⟨true, p, r⟩ :: c) (.node la s nil) := by
    rw [plug_append, ← hle]; rfl
  obtain ⟨bl, br, k1, k2⟩ := b1
  have b1' : (plug c (ATree.node l p r)).Bal := hb
  rw [hwhole] at b1' hr0'
  obtain ⟨bs, bctx⟩ := bal_plug _ _ b1'
  obtain ⟨m, s', q1, q2⟩ := rep_plug _ _ hr0'
  have hs' : s' = s := q1.1
  subst hs'
  have hms : h0.parent s' = m := q1.2.2.1
  cases d with
  | nil =>
    simp only [plug] at hle
    have hls : s' = h0.left p := by rw [hl.root, hle]; rfl
    rw [if_pos hls]
    refine fin _ s' ?_
    rw [hsplit.1, hsplit.2]
    subst hle
    have := unlink_subst_left
      (h2 := (((h0.setRight s' (h0.right p)).setParent s' par).setParent (h0.right p) s').setSuper (avlSuper h0 p par) s')
      h5 hx0 hl hrr hr0c hab (by simpa [ids] using hnd2) bl br k1 k2 b2
      (by simp [AvlHeap.setParent, AvlHeap.setRight]) (by simp [AvlHeap.setParent, AvlHeap.setRight]) (by simp [AvlHeap.setParent, AvlHeap.setRight])
      (by simp [AvlHeap.setParent, AvlHeap.setRight]) (by simp [AvlHeap.setParent, AvlHeap.setRight]) (by simp [AvlHeap.setParent, AvlHeap.setRight])
      (by simp [AvlHeap.setParent, AvlHeap.setRight]) (by simp [AvlHeap.setParent, AvlHeap.setRight]) (by simp [AvlHeap.setParent, AvlHeap.setRight])
    exact this
  | cons f d =>
    -- the first frame goes to the right
    have hf : f.isLeft = false := by
      by_contra hne
      have hft : f.isLeft = true := by simpa using hne
      obtain ⟨a2, b2', hab2⟩ := plugIds_split d
      have e1 := hab' [s']
      rw [plugIds, if_pos hft, hab2] at e1
      have e2 : a2 ++ s' :: (f.i :: f.s.ids ++ b2') = a' ++ s' :: [] := by simpa using e1
      have hnd' : (a2 ++ s' :: (f.i :: f.s.ids ++ b2')).Nodup := by
        rw [e2]
        have h1 : rest ++ [s'] = a' ++ (la.ids ++ [s']) := by rw [hlsplit.1]; simp
        have h2 := hndlr.1
        rw [hrest, h1] at h2
        rw [List.nodup_append] at h2 ⊢
        refine ⟨h2.1, by simp, ?_⟩
        intro u hu v hv
        exact h2.2.2 u hu v (by simp only [List.mem_append]; right; exact hv)
      have := (split_unique e2 hnd').2
      simp at this
    obtain ⟨fl, m', lm⟩ := f
    simp only at hf
    subst hf
    have hmm : m = m' := q2.1
    subst hmm
    have hsl : s' ≠ h0.left p := by
      intro e
      have h1 : s' = l.root := by rw [e]; exact hl.root
      have h2 : ∀ (e : List Frame) (t : ATree), e ≠ [] → (plug e t).root ∈ ctxIds e := by
        intro e
        induction e with
        | nil => intro _ h; exact absurd rfl h
        | cons f e ih =>
          intro t _
          rw [plug]
          by_cases he : e = []
          · subst he
            rw [plug]
            split <;> simp [ATree.root, ctxIds]
          · have := ih (if f.isLeft then .node t f.i f.s else .node f.s f.i t) he
            simp [ctxIds, this]
      have h3 := h2 (⟨false, m, lm⟩ :: d) (.node la s' nil) (by simp)
      rw [← hle, ← h1] at h3
      have h4 : (ctxIds (⟨false, m, lm⟩ :: d) ++ (ATree.node la s' nil).ids).Nodup := by
        rw [← ids_plug_nodup, ← hle]; exact hndlr.1
      rw [List.nodup_append] at h4
      exact h4.2.2 s' h3 s' (by simp [ids]) rfl
    rw [if_neg hsl, hms]
    refine fin _ m ?_
    rw [hsplit.1, hsplit.2]
    have hndd : (ctxIds (⟨false, m, lm⟩ :: d ++ ⟨true, p, r⟩ :: c) ++ (la.ids ++ [s'])).Nodup := by
      have : (plug (⟨false, m, lm⟩ :: d ++ ⟨true, p, r⟩ :: c) (.node la s' nil)).ids.Nodup := by
        rw [← hwhole, hids]; exact hnd
      rw [ids_plug_nodup] at this
      exact this
    have hm_s : m ≠ s' := by
      intro e
      have h1 := hndd
      rw [List.nodup_append] at h1
      exact h1.2.2 m (by simp [ctxIds]) s' (by simp) e
    have key := unlink_subst_deep
      (h2 := (((((((h0.setRight m (h0.left s')).setParentIf (h0.left s') m).setLeft s' (h0.left p)).setParent (h0.left p) s').setRight s' (h0.right p)).setParent s' par).setParent (h0.right p) s').setSuper (avlSuper h0 p par) s')
      h5 hx0 q2 q1 hr0c hab hndd bs bctx
      (by unfold AvlHeap.setParentIf; split <;> simp [AvlHeap.setParent, AvlHeap.setRight, AvlHeap.setLeft])
      (by unfold AvlHeap.setParentIf; split <;> simp [AvlHeap.setParent, AvlHeap.setRight, AvlHeap.setLeft])
      (by unfold AvlHeap.setParentIf; split <;> simp [AvlHeap.setParent, AvlHeap.setRight, AvlHeap.setLeft])
      (by unfold AvlHeap.setParentIf updIf; split <;> simp [AvlHeap.setParent, AvlHeap.setRight, AvlHeap.setLeft])
      (by unfold AvlHeap.setParentIf; split <;> simp [AvlHeap.setParent, AvlHeap.setRight, AvlHeap.setLeft])
      (by unfold AvlHeap.setParentIf; split <;> simp [AvlHeap.setParent, AvlHeap.setRight, AvlHeap.setLeft])
      (by unfold AvlHeap.setParentIf; split <;> simp [AvlHeap.setParent, AvlHeap.setRight, AvlHeap.setLeft])
      (by unfold AvlHeap.setParentIf; split <;> simp [AvlHeap.setParent, AvlHeap.setRight, AvlHeap.setLeft])
      (by unfold AvlHeap.setParentIf; split <;> simp [AvlHeap.setParent, AvlHeap.setRight, AvlHeap.setLeft])
    rcases key with key | key
    · have e1 : plugIds (⟨false, m, lm⟩ :: d) (la.ids ++ [s']) = l.ids := by rw [hle, ids_plug]; rfl
      rw [e1] at key
      have e2 : (h0.setRight m (h0.left s')).left s' = h0.left s' := rfl
      have e3 : (h0.setRight m (h0.left s')).right m = h0.left s' := by simp [AvlHeap.setRight]
      rw [e3]
      exact key
    · exfalso
      apply key
      rw [hab', hab']; simp

theorem insertTop_spec (h : AvlHeap) (new : ℕ) (hnew0 : new ≠ 0) : AvlInv (avlInsertTop h new) [new] := by
  refine ⟨.node .nil new .nil, ?_, ?_, rfl, ?_, by simp⟩
  · simp [Rep, avlInsertTop, avlClearNode, AvlHeap.setPrev, AvlHeap.setNext, AvlHeap.setParent, hnew0, height]
  · simp [Bal, height]
  · simp [DList, DSeg, avlInsertTop, avlClearNode, AvlHeap.setPrev, AvlHeap.setNext, AvlHeap.setParent]

theorem AvlInv.head {h : AvlHeap} {l : List ℕ} (hi : AvlInv h l) : h.head = l.headD 0 := by
  obtain ⟨_, _, _, _, hd, _⟩ := hi; exact hd.1

theorem AvlInv.tail {h : AvlHeap} {l : List ℕ} (hi : AvlInv h l) : h.tail = l.getLastD 0 := by
  obtain ⟨_, _, _, _, hd, _⟩ := hi; exact hd.2.1

theorem insertAfter_spec {h : AvlHeap} {A B : List ℕ} {x new fuel rec : ℕ} (hi : AvlInv h (A ++ x :: B))
    (hnew : new ∉ A ++ x :: B) (hnew0 : new ≠ 0) (hlen : (A ++ x :: B).length + 1 < 2 ^ 125) (hfuel : (A ++ x :: B).length < fuel)
    (hrec : 2 ≤ rec) : AvlInv (avlInsertAfter rec fuel h x new) (A ++ x :: new :: B) := by
  obtain ⟨rec, rfl⟩ : ∃ k, rec = k + 2 := ⟨rec - 2, by omega⟩
  have hx0 : x ≠ 0 := fun e => hi.zero_not_mem (by simp [e])
  rw [avlInsertAfter, if_neg hx0]
  by_cases hr : h.right x = 0
  · rw [if_neg (by simpa using hr)]
    exact attachRight_spec hi hr hnew hnew0 hlen hfuel
  rw [if_pos hr]
  obtain ⟨t, hrep, hb, hids, hd, hnd⟩ := hi
  have hz : 0 ∉ A ++ x :: B := hids ▸ hrep.zero_not_mem
  have hat := dlist_at hd
  cases B with
  | nil =>
    exfalso
    exact hr (right_last (c := []) hrep (by rw [hids]; exact hnd) hids)
  | cons y B =>
    have hy0 : y ≠ 0 := fun e => hz (by simp [e])
    have hly : h.left y = 0 := left_of_next hrep (by rw [hids]; exact hnd) hids hr
    have hnx : h.next x = y := hat.2
    rw [hnx, avlInsertBefore, if_neg hy0, if_neg (by simpa using hly)]
    have e1 : A ++ x :: y :: B = (A ++ [x]) ++ y :: B := by simp
    have e2 : A ++ x :: new :: y :: B = (A ++ [x]) ++ new :: y :: B := by simp
    rw [e2]
    refine attachLeft_spec ?_ hly (by rw [← e1]; exact hnew) hnew0 (by rw [← e1]; exact hlen) (by rw [← e1]; exact hfuel)
    rw [← e1]
    exact ⟨t, hrep, hb, hids, hd, hnd⟩

theorem insertBefore_spec {h : AvlHeap} {A B : List ℕ} {x new fuel rec : ℕ} (hi : AvlInv h (A ++ x :: B))
    (hnew : new ∉ A ++ x :: B) (hnew0 : new ≠ 0) (hlen : (A ++ x :: B).length + 1 < 2 ^ 125) (hfuel : (A ++ x :: B).length < fuel)
    (hrec : 2 ≤ rec) : AvlInv (avlInsertBefore rec fuel h x new) (A ++ new :: x :: B) := by
  obtain ⟨rec, rfl⟩ : ∃ k, rec = k + 2 := ⟨rec - 2, by omega⟩
  have hx0 : x ≠ 0 := fun e => hi.zero_not_mem (by simp [e])
  rw [avlInsertBefore, if_neg hx0]
  by_cases hl : h.left x = 0
  · rw [if_neg (by simpa using hl)]
    exact attachLeft_spec hi hl hnew hnew0 hlen hfuel
  rw [if_pos hl]
  obtain ⟨t, hrep, hb, hids, hd, hnd⟩ := hi
  have hz : 0 ∉ A ++ x :: B := hids ▸ hrep.zero_not_mem
  have hat := dlist_at hd
  rcases List.eq_nil_or_concat A with rfl | ⟨A', y, rfl⟩
  · exfalso
    exact hl (left_first (c := []) hrep (by rw [hids]; exact hnd) hids)
  · simp only [List.concat_eq_append] at *
    have hids' : t.ids = A' ++ y :: x :: B := by rw [hids]; simp
    have hy0 : y ≠ 0 := fun e => hz (by simp [e])
    have hry : h.right y = 0 := right_of_prev hrep (by rw [hids]; exact hnd) hids' hl
    have hpx : h.prev x = y := by rw [hat.1, getLastD_append A' y [] 0 0]; rfl
    rw [hpx, avlInsertAfter, if_neg hy0, if_neg (by simpa using hry)]
    have e1 : A' ++ [y] ++ x :: B = A' ++ y :: x :: B := by simp
    have e2 : A' ++ [y] ++ new :: x :: B = A' ++ y :: new :: x :: B := by simp
    rw [e2]
    refine attachRight_spec ?_ hry (by rw [← e1]; exact hnew) hnew0 (by rw [← e1]; exact hlen) (by rw [← e1]; exact hfuel)
    rw [← e1]
    exact ⟨t, hrep, hb, hids, hd, hnd⟩

theorem insertAfter_null {h : AvlHeap} {l : List ℕ} {new fuel rec : ℕ} (hi : AvlInv h l)
    (hnew : new ∉ l) (hnew0 : new ≠ 0) (hlen : l.length + 1 < 2 ^ 125) (hfuel : l.length < fuel) (hrec : 3 ≤ rec) :
    AvlInv (avlInsertAfter rec fuel h 0 new) (new :: l) := by
  obtain ⟨rec, rfl⟩ : ∃ k, rec = k + 1 := ⟨rec - 1, by omega⟩
  rw [avlInsertAfter, if_pos rfl, hi.head]
  cases l with
  | nil => simpa using insertTop_spec h new hnew0
  | cons y l =>
    have hy0 : y ≠ 0 := fun e => hi.zero_not_mem (by simp [e])
    rw [if_pos (show List.headD (y :: l) 0 ≠ 0 from hy0)]
    exact insertBefore_spec (A := []) hi hnew hnew0 hlen hfuel (by omega)

theorem insertBefore_null {h : AvlHeap} {l : List ℕ} {new fuel rec : ℕ} (hi : AvlInv h l)
    (hnew : new ∉ l) (hnew0 : new ≠ 0) (hlen : l.length + 1 < 2 ^ 125) (hfuel : l.length < fuel) (hrec : 3 ≤ rec) :
    AvlInv (avlInsertBefore rec fuel h 0 new) (l ++ [new]) := by
  obtain ⟨rec, rfl⟩ : ∃ k, rec = k + 1 := ⟨rec - 1, by omega⟩
  rw [avlInsertBefore, if_pos rfl, hi.tail]
  rcases List.eq_nil_or_concat l with rfl | ⟨A, y, rfl⟩
  · simpa using insertTop_spec h new hnew0
  · simp only [List.concat_eq_append] at *
    have hy0 : y ≠ 0 := fun e => hi.zero_not_mem (by simp [e])
    have e : (A ++ [y]).getLastD 0 = y := by rw [getLastD_append A y [] 0 0]; rfl
    rw [e, if_pos hy0]
    have := insertAfter_spec (A := A) (B := []) (rec := rec) hi hnew hnew0 hlen hfuel (by omega)
    simpa using this

theorem height_le_length (t : ATree) : t.height ≤ t.ids.length := by
  induction t with
  | nil => simp [height]
  | node l i r ihl ihr => simp only [height, ids, List.length_append, List.length_cons]; omega

/-- The search loop from a subtree `t` of the tree. -/
theorem searchLoop_spec {h : AvlHeap} {c : ℕ → ℤ} (t : ATree) : ∀ {par p fuel : ℕ}, Rep h par p t → p ≠ 0 → t.height ≤ fuel →
    t.ids.Pairwise (fun u v => (c u ≤ 0 → c v ≤ 0) ∧ (c u < 0 → c v < 0)) →
    ∃ A x B, t.ids = A ++ x :: B ∧ (∀ j ∈ A, 0 ≤ c j ∧ (c x ≠ 0 → 0 < c j)) ∧ (∀ j ∈ B, c j ≤ 0 ∧ (c x ≠ 0 → c j < 0)) ∧
      avlSearchLoop h c fuel p = some (x, if c x < 0 then -1 else if c x > 0 then 1 else 0) := by
  induction t with
  | nil => intro par p fuel hr hp; exact absurd hr hp
  | node l i r ihl ihr =>
    intro par p fuel hr hp hf hs
    obtain ⟨rfl, h0, _, _, hl, hrr⟩ := hr
    obtain ⟨fuel, rfl⟩ : ∃ k, fuel = k + 1 := ⟨fuel - 1, by simp [height] at hf; omega⟩
    simp only [height] at hf
    rw [ids, List.pairwise_append, List.pairwise_cons] at hs
    obtain ⟨hsl, ⟨hir, hsr⟩, hlr⟩ := hs
    have hposl : 0 < c p → ∀ j ∈ l.ids, 0 < c j := fun hc j hj => by
      by_contra hn
      have := (hlr j hj p (by simp)).1 (by omega)
      omega
    have hnegr : c p < 0 → ∀ j ∈ r.ids, c j < 0 := fun hc j hj => (hir j hj).2 hc
    rw [avlSearchLoop]
    rcases lt_trichotomy (c p) 0 with hc | hc | hc
    · rw [if_pos hc]
      by_cases hl0 : h.left p = 0
      · rw [if_neg (by simpa using hl0)]
        rw [hl0] at hl
        obtain rfl := rep_nil hl
        exact ⟨[], p, r.ids, by simp [ids], by simp, fun j hj => ⟨(hnegr hc j hj).le, fun _ => hnegr hc j hj⟩, by rw [if_pos hc]⟩
      · rw [if_pos hl0]
        obtain ⟨A, x, B, e, h1, h2, h3⟩ := ihl (fuel := fuel) hl hl0 (by omega) hsl
        refine ⟨A, x, B ++ p :: r.ids, by rw [ids, e]; simp, h1, ?_, h3⟩
        intro j hj
        rw [List.mem_append, List.mem_cons] at hj
        rcases hj with hj | rfl | hj
        · exact h2 j hj
        · exact ⟨hc.le, fun _ => hc⟩
        · exact ⟨(hnegr hc j hj).le, fun _ => hnegr hc j hj⟩
    · rw [if_neg (by omega), if_neg (by omega)]
      refine ⟨l.ids, p, r.ids, rfl, ?_, ?_, by rw [if_neg (by omega), if_neg (by omega)]⟩
      · intro j hj
        refine ⟨?_, fun hne => absurd hc hne⟩
        by_contra hn
        have := (hlr j hj p (by simp)).2 (by omega)
        omega
      · intro j hj
        exact ⟨(hir j hj).1 hc.le, fun hne => absurd hc hne⟩
    · rw [if_neg (by omega), if_pos hc]
      by_cases hr0 : h.right p = 0
      · rw [if_neg (by simpa using hr0)]
        rw [hr0] at hrr
        obtain rfl := rep_nil hrr
        exact ⟨l.ids, p, [], by simp [ids], fun j hj => ⟨(hposl hc j hj).le, fun _ => hposl hc j hj⟩, by simp, by rw [if_neg (by omega), if_pos hc]⟩
      · rw [if_pos hr0]
        obtain ⟨A, x, B, e, h1, h2, h3⟩ := ihr (fuel := fuel) hrr hr0 (by omega) hsr
        refine ⟨l.ids ++ p :: A, x, B, by rw [ids, e]; simp, ?_, h2, h3⟩
        intro j hj
        rw [List.mem_append, List.mem_cons] at hj
        rcases hj with hj | rfl | hj
        · exact ⟨(hposl hc j hj).le, fun _ => hposl hc j hj⟩
        · exact ⟨hc.le, fun _ => hc⟩
        · exact h1 j hj

theorem searchClosest_spec {h : AvlHeap} {c : ℕ → ℤ} {l : List ℕ} {fuel : ℕ} (hi : AvlInv h l) (hne : l ≠ []) (hf : l.length ≤ fuel)
    (hs : l.Pairwise (fun u v => (c u ≤ 0 → c v ≤ 0) ∧ (c u < 0 → c v < 0))) :
    h.top ≠ 0 ∧ ∃ A x B, l = A ++ x :: B ∧ (∀ j ∈ A, 0 ≤ c j ∧ (c x ≠ 0 → 0 < c j)) ∧ (∀ j ∈ B, c j ≤ 0 ∧ (c x ≠ 0 → c j < 0)) ∧
      avlSearchClosest fuel h c = some (x, if c x < 0 then -1 else if c x > 0 then 1 else 0) := by
  obtain ⟨t, hr, hb, rfl, hd, hnd⟩ := hi
  have htop : h.top ≠ 0 := by
    intro e
    rw [e] at hr
    obtain rfl := rep_nil hr
    exact hne rfl
  refine ⟨htop, ?_⟩
  obtain ⟨A, x, B, h1, h2, h3, h4⟩ := searchLoop_spec (c := c) t hr htop ((height_le_length t).trans hf) hs
  exact ⟨A, x, B, h1, h2, h3, by rw [avlSearchClosest, if_neg htop]; exact h4⟩

theorem top_eq_zero {h : AvlHeap} {l : List ℕ} (hi : AvlInv h l) : h.top = 0 ↔ l = [] := by
  obtain ⟨t, hr, hb, rfl, hd, hnd⟩ := hi
  constructor
  · intro e
    rw [e] at hr
    rw [rep_nil hr]; rfl
  · intro e
    rw [ids_eq_nil e] at hr
    exact hr

end Moo
