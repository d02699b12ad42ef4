import Verif.Lemmas.AvlOps

/-!
# Insertion into an AVL tree
-/

set_option autoImplicit false

namespace Moo

open ATree

theorem ctx_length_le (c : List Frame) : c.length ≤ (ctxIds c).length := by
  induction c with
  | nil => simp [ctxIds]
  | cons f c ih => simp only [ctxIds, List.length_cons, List.length_append]; omega

theorem AvlInv.zero_not_mem {h : AvlHeap} {l : List ℕ} (hi : AvlInv h l) : 0 ∉ l := by
  obtain ⟨t, h1, _, rfl, _⟩ := hi
  exact h1.zero_not_mem

theorem avlAttachRight_fields (h : AvlHeap) (x new : ℕ) (hx : x ≠ new) : ∃ h1 : AvlHeap, (∀ fuel, avlAttachRight fuel h x new = avlRebalance fuel h1 x) ∧
    h1.left = upd h.left new 0 ∧ h1.right = upd (upd h.right new 0) x new ∧ h1.depth = upd h.depth new 1 ∧
    h1.parent = upd h.parent new x ∧ h1.prev = updIf (upd h.prev new x) (h.next x) new ∧
    h1.next = upd (upd h.next new (h.next x)) x new ∧ h1.top = h.top ∧ h1.head = h.head ∧
    h1.tail = if h.next x ≠ 0 then h.tail else new := by
  refine ⟨_, fun fuel => rfl, ?_⟩
  simp only [avlClearNode, AvlHeap.setPrev, AvlHeap.setNext, setParent_next, upd_ne _ _ hx]
  by_cases h0 : h.next x = 0
  · simp [h0, updIf]
  · simp [h0, updIf]

theorem avlAttachLeft_fields (h : AvlHeap) (x new : ℕ) (hx : x ≠ new) : ∃ h1 : AvlHeap, (∀ fuel, avlAttachLeft fuel h x new = avlRebalance fuel h1 x) ∧
    h1.right = upd h.right new 0 ∧ h1.left = upd (upd h.left new 0) x new ∧ h1.depth = upd h.depth new 1 ∧
    h1.parent = upd h.parent new x ∧ h1.next = updIf (upd h.next new x) (h.prev x) new ∧
    h1.prev = upd (upd h.prev new (h.prev x)) x new ∧ h1.top = h.top ∧ h1.tail = h.tail ∧
    h1.head = if h.prev x ≠ 0 then h.head else new := by
  refine ⟨_, fun fuel => rfl, ?_⟩
  simp only [avlClearNode, AvlHeap.setPrev, AvlHeap.setNext, setParent_prev, upd_ne _ _ hx]
  by_cases h0 : h.prev x = 0
  · simp [h0, updIf]
  · simp [h0, updIf]

theorem attachRight_spec {h : AvlHeap} {A B : List ℕ} {x new fuel : ℕ} (hi : AvlInv h (A ++ x :: B)) (hx : h.right x = 0)
    (hnew : new ∉ A ++ x :: B) (hnew0 : new ≠ 0) (hlen : (A ++ x :: B).length + 1 < 2 ^ 125) (hfuel : (A ++ x :: B).length < fuel) :
    AvlInv (avlAttachRight fuel h x new) (A ++ x :: new :: B) := by
  have hz := hi.zero_not_mem
  obtain ⟨t, hr, hb, hids, hd, hnd⟩ := hi
  obtain ⟨c, l, r, rfl⟩ := exists_plug' t x (by rw [hids]; simp)
  obtain ⟨par, p, h4, h5⟩ := rep_plug _ _ hr
  obtain ⟨rfl, hx0, hxp, hxd, hl, hrr⟩ := h4
  rw [hx] at hrr
  obtain rfl := rep_nil hrr
  obtain ⟨b1, b2⟩ := bal_plug _ _ hb
  have hxnew : p ≠ new := fun e => hnew (by simp [e])
  obtain ⟨h1, e0, eL, eR, eD, eP, ePr, eN, eT, eH, eTl⟩ := avlAttachRight_fields h p new hxnew
  rw [e0 fuel]
  have hnd2 : (ctxIds c ++ (ATree.node l p nil).ids).Nodup := by rw [← ids_plug_nodup, hids]; exact hnd
  have hmem : ∀ j, j ∈ ctxIds c ++ (ATree.node l p nil).ids ↔ j ∈ A ++ p :: B := by
    intro j; rw [← hids, ids_plug]; exact (plugIds_perm c _).mem_iff.symm
  have hnewc : new ∉ ctxIds c := fun hm => hnew ((hmem new).1 (by simp [hm]))
  have hnewl : new ∉ l.ids := fun hm => hnew ((hmem new).1 (by simp [ids, hm]))
  have hndp := List.nodup_append.1 hnd2
  have hpc : p ∉ ctxIds c := fun hm => hndp.2.2 p hm p (by simp [ids]) rfl
  have hpl : p ∉ l.ids := by
    have := hndp.2.1
    rw [ids, List.nodup_append] at this
    exact fun hm => this.2.2 p hm p (by simp) rfl
  have ne : ∀ (L : List ℕ) (y : ℕ), y ∉ L → ∀ j ∈ L, j ≠ y := fun L y hy j hj e => hy (e ▸ hj)
  have hcr : CtxRep h1 c par p := by
    refine ctxRep_congr c _ _ h5 hndp.1 eT ?_ ?_ ?_ ?_
    · intro j hj; rw [eL, upd_ne _ _ (ne _ _ hnewc j hj)]
    · intro j hj; rw [eR, upd_ne _ _ (ne _ _ hpc j hj), upd_ne _ _ (ne _ _ hnewc j hj)]
    · intro j hj; rw [eD, upd_ne _ _ (ne _ _ hnewc j hj)]
    · intro j hj; rw [eP, upd_ne _ _ (ne _ _ hnewc j hj)]
  have hrl : Rep h1 p (h1.left p) l := by
    have : h1.left p = h.left p := by rw [eL, upd_ne _ _ hxnew]
    rw [this]
    have nl : l.ids.Nodup := by have := hndp.2.1; rw [ids, List.nodup_append] at this; exact this.1
    refine hl.congr' nl ?_ ?_ ?_ ?_
    · intro j hj; rw [eL, upd_ne _ _ (ne _ _ hnewl j hj)]
    · intro j hj; rw [eR, upd_ne _ _ (ne _ _ hpl j hj), upd_ne _ _ (ne _ _ hnewl j hj)]
    · intro j hj; rw [eD, upd_ne _ _ (ne _ _ hnewl j hj)]
    · intro j hj; rw [eP, upd_ne _ _ (ne _ _ hnewl j hj)]
  have hctx : CtxRep h1 (⟨false, p, l⟩ :: c) p new := by
    refine ⟨rfl, hx0, ?_, ?_⟩
    · simp only [Bool.false_eq_true, if_false]
      exact ⟨by rw [eR, upd_same], hrl⟩
    · rw [eP, upd_ne _ _ hxnew, hxp]; exact hcr
  have hnewrep : Rep h1 p new (.node nil new nil) := by
    refine ⟨rfl, hnew0, by rw [eP, upd_same], by rw [eD, upd_same]; rfl, ?_, ?_⟩
    · rw [eL, upd_same]; rfl
    · rw [eR, upd_ne _ _ (Ne.symm hxnew), upd_same]; rfl
  have hcb : CtxBal (⟨false, p, l⟩ :: c) 0 := by
    obtain ⟨bl, _, k1, k2⟩ := b1
    refine ⟨bl, ?_, Nat.zero_le _, ?_⟩
    · exact k1
    · rw [Nat.max_comm]; exact b2
  have hplen : (ctxIds c ++ (ATree.node l p nil).ids).length = (A ++ p :: B).length := by
    rw [← (plugIds_perm c _).length_eq, ← ids_plug, hids]
  have hperm : (ctxIds (⟨false, p, l⟩ :: c) ++ [new]).Perm (new :: (ctxIds c ++ (ATree.node l p nil).ids)) := by
    refine (List.perm_append_singleton new _).trans (List.Perm.cons _ ?_)
    simp only [ctxIds, ids]
    refine List.Perm.trans ?_ List.perm_append_comm
    rw [List.append_assoc, List.cons_append]
    simp only [List.nil_append]
    exact (List.perm_middle).symm
  obtain ⟨t', r1, r2, r3, r4, r5, r6, r7⟩ := rebalance_spec (⟨false, p, l⟩ :: c) h1 p new 0 fuel (.node nil new nil) hctx hnewrep
    ⟨trivial, trivial, by simp [height], by simp [height]⟩ hcb (by simp [height]) (by omega)
    (by
      have : (ATree.node nil new nil).ids = [new] := rfl
      rw [this, hperm.nodup_iff, List.nodup_cons]
      exact ⟨fun hm => hnew ((hmem new).1 hm), hnd2⟩)
    (by
      have : (ATree.node nil new nil).ids = [new] := rfl
      rw [this, hperm.length_eq, List.length_cons, hplen]
      exact hlen)
    (by
      have := ctx_length_le (⟨false, p, l⟩ :: c)
      have h2 : (ctxIds (⟨false, p, l⟩ :: c)).length = (A ++ p :: B).length := by
        have := hperm.length_eq
        simp only [List.length_append, List.length_cons, List.length_nil] at this hplen ⊢
        omega
      omega)
  obtain ⟨a, b, hab⟩ := plugIds_split c
  have hsplit : A = a ++ l.ids ∧ B = b := by
    have : A ++ p :: B = (a ++ l.ids) ++ p :: b := by
      rw [← hids, ids_plug, hab]; simp [ids]
    exact split_unique this hnd
  have hfin : plugIds (⟨false, p, l⟩ :: c) (ATree.node nil new nil).ids = A ++ p :: new :: B := by
    rw [plugIds, hab, hsplit.1, hsplit.2]; simp [ids]
  refine ⟨t', r1, r2, by rw [r3, hfin], ?_, ?_⟩
  · have hz' : 0 ∉ (A ++ [p]) ++ B := by simpa using hz
    have hat := dlist_at hd
    have hl1 : (A ++ [p]).getLastD 0 = p := by rw [getLastD_append A p [] 0 0]; rfl
    have heq : A ++ p :: new :: B = (A ++ [p]) ++ new :: B := by simp
    rw [heq]
    have hB : h.next p ≠ 0 ↔ B ≠ [] := by
      rw [hat.2, Ne, headD_eq_zero (fun hm => hz (by simp [hm]))]
    have hpB : p ∉ B := by
      have h1 := (List.nodup_append.1 hnd).2.1
      rw [List.nodup_cons] at h1; exact h1.1
    have hpHead : B ≠ [] → B.headD 0 ≠ new := fun hb e => hnew (by have := avl_headD_mem hb; rw [e] at this; simp [this])
    refine dlist_insert (h := h) (by simpa using hd) (by simpa using hnd) hz' (by simpa using hnew) ?_ ?_ ?_ ?_ ?_ ?_ ?_ ?_
    · rw [r5, ePr, hl1, hat.2]
      by_cases hb : B = []
      · simp [hb, updIf]
      · rw [updIf_ne _ _ (Ne.symm (hpHead hb)), upd_same]
    · rw [r4, eN, upd_ne _ _ (Ne.symm hxnew), upd_same, hat.2]
    · intro j hj hne
      have hjn : j ≠ new := fun e => hnew (by rw [← e]; simpa using hj)
      rw [hl1] at hne
      rw [r4, eN, upd_ne _ _ hne, upd_ne _ _ hjn]
    · intro _; rw [hl1, r4, eN, upd_same]
    · intro j hj hne
      have hjn : j ≠ new := fun e => hnew (by rw [← e]; simpa using hj)
      rw [r5, ePr, hat.2, updIf_ne _ _ hne, upd_ne _ _ hjn]
    · intro hb
      rw [r5, ePr, hat.2, updIf_same]
      rw [← hat.2, hB]; exact hb
    · rw [r6, eH, if_neg (by simp)]
    · rw [r7, eTl]
      by_cases hb : B = []
      · rw [if_pos hb, if_neg (by rw [hB]; simpa using hb)]
      · rw [if_neg hb, if_pos (hB.2 hb)]
  · have : (A ++ p :: new :: B).Perm (new :: (A ++ p :: B)) := by
      have h1 : A ++ p :: new :: B = (A ++ [p]) ++ new :: B := by simp
      have h2 : A ++ p :: B = (A ++ [p]) ++ B := by simp
      rw [h1, h2]; exact List.perm_middle
    rw [this.nodup_iff, List.nodup_cons]
    exact ⟨hnew, hnd⟩

theorem attachLeft_spec {h : AvlHeap} {A B : List ℕ} {x new fuel : ℕ} (hi : AvlInv h (A ++ x :: B)) (hx : h.left x = 0)
    (hnew : new ∉ A ++ x :: B) (hnew0 : new ≠ 0) (hlen : (A ++ x :: B).length + 1 < 2 ^ 125) (hfuel : (A ++ x :: B).length < fuel) :
    AvlInv (avlAttachLeft fuel h x new) (A ++ new :: x :: B) := by
  have hz := hi.zero_not_mem
  obtain ⟨t, hr, hb, hids, hd, hnd⟩ := hi
  obtain ⟨c, l, r, rfl⟩ := exists_plug' t x (by rw [hids]; simp)
  obtain ⟨par, p, h4, h5⟩ := rep_plug _ _ hr
  obtain ⟨rfl, hx0, hxp, hxd, hl, hrr⟩ := h4
  rw [hx] at hl
  obtain rfl := rep_nil hl
  obtain ⟨b1, b2⟩ := bal_plug _ _ hb
  have hxnew : p ≠ new := fun e => hnew (by simp [e])
  obtain ⟨h1, e0, eR, eL, eD, eP, eN, ePr, eT, eTl, eH⟩ := avlAttachLeft_fields h p new hxnew
  rw [e0 fuel]
  have hnd2 : (ctxIds c ++ (ATree.node nil p r).ids).Nodup := by rw [← ids_plug_nodup, hids]; exact hnd
  have hmem : ∀ j, j ∈ ctxIds c ++ (ATree.node nil p r).ids ↔ j ∈ A ++ p :: B := by
    intro j; rw [← hids, ids_plug]; exact (plugIds_perm c _).mem_iff.symm
  have hnewc : new ∉ ctxIds c := fun hm => hnew ((hmem new).1 (by simp [hm]))
  have hnewl : new ∉ r.ids := fun hm => hnew ((hmem new).1 (by simp [ids, hm]))
  have hndp := List.nodup_append.1 hnd2
  have hpc : p ∉ ctxIds c := fun hm => hndp.2.2 p hm p (by simp [ids]) rfl
  have hpl : p ∉ r.ids := by
    have := hndp.2.1
    simp only [ids, List.nil_append, List.nodup_cons] at this
    exact this.1
  have ne : ∀ (L : List ℕ) (y : ℕ), y ∉ L → ∀ j ∈ L, j ≠ y := fun L y hy j hj e => hy (e ▸ hj)
  have hcr : CtxRep h1 c par p := by
    refine ctxRep_congr c _ _ h5 hndp.1 eT ?_ ?_ ?_ ?_
    · intro j hj; rw [eL, upd_ne _ _ (ne _ _ hpc j hj), upd_ne _ _ (ne _ _ hnewc j hj)]
    · intro j hj; rw [eR, upd_ne _ _ (ne _ _ hnewc j hj)]
    · intro j hj; rw [eD, upd_ne _ _ (ne _ _ hnewc j hj)]
    · intro j hj; rw [eP, upd_ne _ _ (ne _ _ hnewc j hj)]
  have hrl : Rep h1 p (h1.right p) r := by
    have : h1.right p = h.right p := by rw [eR, upd_ne _ _ hxnew]
    rw [this]
    have nl : r.ids.Nodup := by have := hndp.2.1; simp only [ids, List.nil_append, List.nodup_cons] at this; exact this.2
    refine hrr.congr' nl ?_ ?_ ?_ ?_
    · intro j hj; rw [eL, upd_ne _ _ (ne _ _ hpl j hj), upd_ne _ _ (ne _ _ hnewl j hj)]
    · intro j hj; rw [eR, upd_ne _ _ (ne _ _ hnewl j hj)]
    · intro j hj; rw [eD, upd_ne _ _ (ne _ _ hnewl j hj)]
    · intro j hj; rw [eP, upd_ne _ _ (ne _ _ hnewl j hj)]
  have hctx : CtxRep h1 (⟨true, p, r⟩ :: c) p new := by
    refine ⟨rfl, hx0, ?_, ?_⟩
    · simp only [if_true]
      exact ⟨by rw [eL, upd_same], hrl⟩
    · rw [eP, upd_ne _ _ hxnew, hxp]; exact hcr
  have hnewrep : Rep h1 p new (.node nil new nil) := by
    refine ⟨rfl, hnew0, by rw [eP, upd_same], by rw [eD, upd_same]; rfl, ?_, ?_⟩
    · rw [eL, upd_ne _ _ (Ne.symm hxnew), upd_same]; rfl
    · rw [eR, upd_same]; rfl
  have hcb : CtxBal (⟨true, p, r⟩ :: c) 0 := by
    obtain ⟨_, br, k1, k2⟩ := b1
    exact ⟨br, k2, Nat.zero_le _, b2⟩
  have hplen : (ctxIds c ++ (ATree.node nil p r).ids).length = (A ++ p :: B).length := by
    rw [← (plugIds_perm c _).length_eq, ← ids_plug, hids]
  have hperm : (ctxIds (⟨true, p, r⟩ :: c) ++ [new]).Perm (new :: (ctxIds c ++ (ATree.node nil p r).ids)) := by
    refine (List.perm_append_singleton new _).trans (List.Perm.cons _ ?_)
    simp only [ctxIds, ids, List.nil_append]
    rw [← List.cons_append]
    exact List.perm_append_comm
  obtain ⟨t', r1, r2, r3, r4, r5, r6, r7⟩ := rebalance_spec (⟨true, p, r⟩ :: c) h1 p new 0 fuel (.node nil new nil) hctx hnewrep
    ⟨trivial, trivial, by simp [height], by simp [height]⟩ hcb (by simp [height]) (by omega)
    (by
      have : (ATree.node nil new nil).ids = [new] := rfl
      rw [this, hperm.nodup_iff, List.nodup_cons]
      exact ⟨fun hm => hnew ((hmem new).1 hm), hnd2⟩)
    (by
      have : (ATree.node nil new nil).ids = [new] := rfl
      rw [this, hperm.length_eq, List.length_cons, hplen]
      exact hlen)
    (by
      have := ctx_length_le (⟨true, p, r⟩ :: c)
      have h2 : (ctxIds (⟨true, p, r⟩ :: c)).length = (A ++ p :: B).length := by
        have := hperm.length_eq
        simp only [List.length_append, List.length_cons, List.length_nil] at this hplen ⊢
        omega
      omega)
  obtain ⟨a, b, hab⟩ := plugIds_split c
  have hsplit : A = a ∧ B = r.ids ++ b := by
    have : A ++ p :: B = a ++ p :: (r.ids ++ b) := by
      rw [← hids, ids_plug, hab]; simp [ids]
    exact split_unique this hnd
  have hfin : plugIds (⟨true, p, r⟩ :: c) (ATree.node nil new nil).ids = A ++ new :: p :: B := by
    rw [plugIds, hab, hsplit.1, hsplit.2]; simp [ids]
  refine ⟨t', r1, r2, by rw [r3, hfin], ?_, ?_⟩
  · have hat := dlist_at hd
    have hA : h.prev p ≠ 0 ↔ A ≠ [] := by
      rw [hat.1, Ne, getLastD_eq_zero (fun hm => hz (by simp [hm]))]
    have hLast : A ≠ [] → A.getLastD 0 ≠ new := fun hb e => hnew (by have := getLastD_mem hb; rw [e] at this; simp [this])
    refine dlist_insert (h := h) hd hnd hz hnew ?_ ?_ ?_ ?_ ?_ ?_ ?_ ?_
    · rw [r5, ePr, upd_ne _ _ (Ne.symm hxnew), upd_same, hat.1]
    · rw [r4, eN, hat.1]
      by_cases hb : A = []
      · simp [hb, updIf]
      · rw [updIf_ne _ _ (Ne.symm (hLast hb)), upd_same]; rfl
    · intro j hj hne
      have hjn : j ≠ new := fun e => hnew (by rw [← e]; simpa using hj)
      rw [r4, eN, hat.1, updIf_ne _ _ hne, upd_ne _ _ hjn]
    · intro hb
      rw [r4, eN, hat.1, updIf_same]
      rw [← hat.1, hA]; exact hb
    · intro j hj hne
      have hjn : j ≠ new := fun e => hnew (by rw [← e]; simpa using hj)
      have hne' : j ≠ p := hne
      rw [r5, ePr, upd_ne _ _ hne', upd_ne _ _ hjn]
    · intro _; rw [r5, ePr]; exact upd_same ..
    · rw [r6, eH]
      by_cases hb : A = []
      · rw [if_pos hb, if_neg (by rw [hA]; simpa using hb)]
      · rw [if_neg hb, if_pos (hA.2 hb)]
    · rw [r7, eTl, if_neg (by simp)]
  · rw [(List.perm_middle (a := new) (l₁ := A) (l₂ := p :: B)).nodup_iff, List.nodup_cons]
    exact ⟨hnew, hnd⟩

end Moo
