import Verif.Lemmas.AvlRotate

/-!
# `avl_rebalance` restores the balance along the path to the top
-/

set_option autoImplicit false

namespace Moo

open ATree

/-- The path survives a change of the subtree in the hole. -/
theorem ctxRep_sameOutside {h h' : AvlHeap} {c : List Frame} {par p v : ℕ} {I : List ℕ} (hc : CtxRep h c par p)
    (hnd : (ctxIds c ++ I).Nodup) (hp : p ∈ I) (hp0 : p ≠ 0) (hs : SameOutside h h' (avlSuper h p par) v I) :
    CtxRep h' c par v := by
  rw [List.nodup_append] at hnd
  obtain ⟨n1, _, n3⟩ := hnd
  have hout : ∀ j ∈ ctxIds c, j ∉ I := fun j hj hm => n3 j hj j hm rfl
  have h1 := ctxRep_setSuper c par p v hc n1 hp0 (fun hm => hout p hm hp)
  have h0 := ctxRep_zero hc
  refine ctxRep_congr c _ _ h1 n1 hs.top ?_ ?_ ?_ ?_
  · intro j hj; exact hs.left j (hout j hj)
  · intro j hj; exact hs.right j (hout j hj)
  · intro j hj; rw [setSuper_depth]; exact hs.depth j (hout j hj)
  · intro j hj; rw [setSuper_parent]; exact hs.parent j (hout j hj) (fun e => h0 (e ▸ hj))

theorem rebalanceStep_spec {h : AvlHeap} {c : List Frame} {n par : ℕ} {l r : ATree} (hc : CtxRep h c par n) (hn0 : n ≠ 0)
    (hpar : h.parent n = par) (hl : Rep h n (h.left n) l) (hr : Rep h n (h.right n) r)
    (hnd : (ctxIds c ++ (l.ids ++ n :: r.ids)).Nodup) (bl : l.Bal) (br : r.Bal) (hlh : l.height < 253) (hrh : r.height < 253)
    (d1 : l.height ≤ r.height + 2) (d2 : r.height ≤ l.height + 2) :
    ∃ t, Rep (avlRebalanceStep h n) par t.root t ∧ CtxRep (avlRebalanceStep h n) c par t.root ∧ t.ids = l.ids ++ n :: r.ids ∧
      t.Bal ∧ max l.height r.height ≤ t.height ∧ t.height ≤ max l.height r.height + 1 ∧
      (l.height ≤ r.height + 1 → r.height ≤ l.height + 1 → t.height = max l.height r.height + 1) ∧
      (avlRebalanceStep h n).next = h.next ∧ (avlRebalanceStep h n).prev = h.prev ∧
      (avlRebalanceStep h n).head = h.head ∧ (avlRebalanceStep h n).tail = h.tail := by
  have hsn : (avlSuper h n par).node ∉ l.ids ++ n :: r.ids := by
    rw [avlSuper_node]
    rcases ctxRep_par hc with rfl | hm
    · simp only [List.mem_append, List.mem_cons, not_or]
      exact ⟨hl.zero_not_mem, fun e => hn0 e.symm, hr.zero_not_mem⟩
    · intro hm'
      exact (List.nodup_append.1 hnd).2.2 par hm par hm' rfl
  have hndI := (List.nodup_append.1 hnd).2.1
  have hnI : n ∈ l.ids ++ n :: r.ids := by simp
  have hbal : avlCheckBalance h n = if (r.height : ℤ) - l.height < -1 then -1 else if (r.height : ℤ) - l.height > 1 then 1 else 0 := by
    unfold avlCheckBalance AvlHeap.lDepth AvlHeap.rDepth
    rw [hl.nodeDepth, hr.nodeDepth]
  unfold avlRebalanceStep
  simp only [hpar]
  by_cases c1 : (r.height : ℤ) - l.height < -1
  · rw [if_pos (by rw [hbal, if_pos c1])]
    cases l with
    | nil => simp only [height] at c1; omega
    | node a c' b =>
      by_cases hab : b.height ≤ a.height
      · simp only [height] at *
        obtain ⟨ba, bb, b1, b2⟩ := bl
        have := rotateRight_single (p := par) (s := avlSuper h n par) hl hr hndI hn0 hsn hab (by omega) (by omega) hrh
        refine ⟨ATree.node a c' (.node b n r), this.1, ctxRep_sameOutside hc hnd hnI hn0 this.2, ?_, ?_, ?_, ?_, ?_, this.2.next, this.2.prev, this.2.head, this.2.tail⟩
        · simp [ids]
        · refine ⟨ba, ⟨bb, br, ?_, ?_⟩, ?_, ?_⟩ <;> (try simp only [height]) <;> omega
        · simp only [height]; omega
        · simp only [height]; omega
        · intro _ _; omega
      · cases b with
        | nil => simp only [height] at hab; omega
        | node e g f =>
          simp only [height] at *
          obtain ⟨ba, ⟨be, bf, b3, b4⟩, b1, b2⟩ := bl
          simp only [height] at *
          have := rotateRight_double (p := par) (s := avlSuper h n par) hl hr hndI hn0 hsn (by simp only [height]; omega)
            (by omega) (by omega) (by omega) hrh
          refine ⟨ATree.node (.node a c' e) g (.node f n r), this.1, ctxRep_sameOutside hc hnd hnI hn0 this.2, ?_, ?_, ?_, ?_, ?_, this.2.next, this.2.prev, this.2.head, this.2.tail⟩
          · simp [ids]
          · refine ⟨⟨ba, be, ?_, ?_⟩, ⟨bf, br, ?_, ?_⟩, ?_, ?_⟩ <;> (try simp only [height]) <;> omega
          · simp only [height]; omega
          · simp only [height]; omega
          · intro _ _; omega
  · by_cases c2 : (r.height : ℤ) - l.height > 1
    · rw [if_neg (by rw [hbal, if_neg c1, if_pos c2]; omega), if_pos (by rw [hbal, if_neg c1, if_pos c2])]
      cases r with
      | nil => simp only [height] at c2; omega
      | node b c' a =>
        by_cases hab : b.height ≤ a.height
        · simp only [height] at *
          obtain ⟨bb, ba, b1, b2⟩ := br
          have := rotateLeft_single (p := par) (s := avlSuper h n par) hl hr hndI hn0 hsn hab (by omega) (by omega) hlh
          refine ⟨ATree.node (.node l n b) c' a, this.1, ctxRep_sameOutside hc hnd hnI hn0 this.2, ?_, ?_, ?_, ?_, ?_, this.2.next, this.2.prev, this.2.head, this.2.tail⟩
          · simp [ids]
          · refine ⟨⟨bl, bb, ?_, ?_⟩, ba, ?_, ?_⟩ <;> (try simp only [height]) <;> omega
          · simp only [height]; omega
          · simp only [height]; omega
          · intro _ _; omega
        · cases b with
          | nil => simp only [height] at hab; omega
          | node f g e =>
            simp only [height] at *
            obtain ⟨⟨bf, be, b3, b4⟩, ba, b1, b2⟩ := br
            simp only [height] at *
            have := rotateLeft_double (p := par) (s := avlSuper h n par) hl hr hndI hn0 hsn (by simp only [height]; omega)
              (by omega) (by omega) (by omega) hlh
            refine ⟨ATree.node (.node l n f) g (.node e c' a), this.1, ctxRep_sameOutside hc hnd hnI hn0 this.2, ?_, ?_, ?_, ?_, ?_, this.2.next, this.2.prev, this.2.head, this.2.tail⟩
            · simp [ids]
            · refine ⟨⟨bl, bf, ?_, ?_⟩, ⟨be, ba, ?_, ?_⟩, ?_, ?_⟩ <;> (try simp only [height]) <;> omega
            · simp only [height]; omega
            · simp only [height]; omega
            · intro _ _; omega
    · rw [if_neg (by rw [hbal, if_neg c1, if_neg c2]; omega), if_neg (by rw [hbal, if_neg c1, if_neg c2]; omega)]
      have hd : h.calcDepth n = max l.height r.height + 1 := calcDepth_eq h n _ _ hl.nodeDepth hr.nodeDepth (by omega) (by omega)
      simp only [List.nodup_append, List.nodup_cons, List.mem_cons] at hndI
      refine ⟨.node l n r, ⟨rfl, hn0, hpar, by rw [fixDepth_depth, upd_same, hd]; rfl, ?_, ?_⟩, ?_, rfl, ⟨bl, br, by omega, by omega⟩,
        by simp only [height]; omega, by simp only [height]; omega, fun _ _ => rfl, rfl, rfl, rfl, rfl⟩
      · refine hl.congr' hndI.1 (fun _ _ => rfl) (fun _ _ => rfl) ?_ (fun _ _ => rfl)
        intro j hj
        rw [fixDepth_depth, upd_ne _ _ (hndI.2.2 j hj n (Or.inl rfl))]
      · refine hr.congr' hndI.2.1.2 (fun _ _ => rfl) (fun _ _ => rfl) ?_ (fun _ _ => rfl)
        intro j hj
        have hjn : j ≠ n := fun e => hndI.2.1.1 (e ▸ hj)
        rw [fixDepth_depth, upd_ne _ _ hjn]
      · have n1 := (List.nodup_append.1 hnd).1
        refine ctxRep_congr c _ _ hc n1 rfl (fun _ _ => rfl) (fun _ _ => rfl) ?_ (fun _ _ => rfl)
        intro j hj
        rw [fixDepth_depth, upd_ne _ _ ((List.nodup_append.1 hnd).2.2 j hj n hnI)]

/-- `avl_rebalance`, started at the parent `par` of a hole filled with a balanced tree `t`, whose height differs by at most one from the height `k` of
the subtree for which the path was balanced, gives a balanced tree with the same nodes in the same order. -/
theorem rebalance_spec (c : List Frame) : ∀ (h : AvlHeap) (par p k fuel : ℕ) (t : ATree), CtxRep h c par p → Rep h par p t → t.Bal →
    CtxBal c k → t.height ≤ k + 1 → k ≤ t.height + 1 → (ctxIds c ++ t.ids).Nodup → (ctxIds c ++ t.ids).length < 2 ^ 125 →
    c.length < fuel →
    ∃ t', Rep (avlRebalance fuel h par) 0 (avlRebalance fuel h par).top t' ∧ t'.Bal ∧ t'.ids = plugIds c t.ids ∧
      (avlRebalance fuel h par).next = h.next ∧ (avlRebalance fuel h par).prev = h.prev ∧
      (avlRebalance fuel h par).head = h.head ∧ (avlRebalance fuel h par).tail = h.tail := by
  induction c with
  | nil =>
    intro h par p k fuel t hc hr hb _ _ _ _ _ hf
    obtain ⟨rfl, htop⟩ := hc
    obtain ⟨f, rfl⟩ : ∃ f, fuel = f + 1 := ⟨fuel - 1, by simp at hf; omega⟩
    have : avlRebalance (f + 1) h 0 = h := by simp [avlRebalance]
    rw [this, htop]
    exact ⟨t, hr, hb, rfl, rfl, rfl, rfl, rfl⟩
  | cons fr c ih =>
    intro h par p k fuel t hc hr hb hcb h1 h2 hnd hlen hf
    obtain ⟨rfl, h0, h3, h4⟩ := hc
    obtain ⟨f, rfl⟩ : ∃ f, fuel = f + 1 := ⟨fuel - 1, by omega⟩
    have hstep : avlRebalance (f + 1) h fr.i = avlRebalance f (avlRebalanceStep h fr.i) (h.parent fr.i) := by
      rw [avlRebalance, if_pos h0]
    obtain ⟨bs, k1, k2, hcb'⟩ := hcb
    have hlen' : fr.s.ids.length < 2 ^ 125 ∧ t.ids.length < 2 ^ 125 := by
      simp only [ctxIds, List.length_append, List.length_cons] at hlen
      omega
    have ht := height_lt t hb hlen'.2
    have hsh := height_lt fr.s bs hlen'.1
    rw [hstep]
    by_cases hfl : fr.isLeft
    · rw [if_pos hfl] at h3
      obtain ⟨rfl, hs⟩ := h3
      have hperm : (ctxIds (fr :: c) ++ t.ids).Perm (ctxIds c ++ (t.ids ++ fr.i :: fr.s.ids)) := by
        have e1 := plugIds_perm (fr :: c) t.ids
        have e2 := plugIds_perm c (t.ids ++ fr.i :: fr.s.ids)
        rw [plugIds, if_pos hfl] at e1
        exact e1.symm.trans e2
      obtain ⟨t1, r1, r2, r3, r4, r5, r6, r7, r8, r9, r10, r11⟩ := rebalanceStep_spec (c := c) (par := h.parent fr.i) h4 h0 rfl hr hs
        (hperm.nodup_iff.1 hnd) hb bs (by omega) (by omega) (by omega) (by omega)
      obtain ⟨t', q1, q2, q3, q4, q5, q6, q7⟩ := ih (avlRebalanceStep h fr.i) (h.parent fr.i) t1.root (max k fr.s.height + 1) f t1 r2 r1 r4 hcb'
        (by omega) (by omega) (by rw [r3]; exact hperm.nodup_iff.1 hnd) (by rw [r3, ← hperm.length_eq]; exact hlen)
        (by simp at hf; omega)
      refine ⟨t', q1, q2, ?_, q4.trans r8, q5.trans r9, q6.trans r10, q7.trans r11⟩
      rw [q3, r3, plugIds, if_pos hfl]
    · rw [if_neg hfl] at h3
      obtain ⟨rfl, hs⟩ := h3
      have hperm : (ctxIds (fr :: c) ++ t.ids).Perm (ctxIds c ++ (fr.s.ids ++ fr.i :: t.ids)) := by
        have e1 := plugIds_perm (fr :: c) t.ids
        have e2 := plugIds_perm c (fr.s.ids ++ fr.i :: t.ids)
        rw [plugIds, if_neg hfl] at e1
        exact e1.symm.trans e2
      obtain ⟨t1, r1, r2, r3, r4, r5, r6, r7, r8, r9, r10, r11⟩ := rebalanceStep_spec (c := c) (par := h.parent fr.i) h4 h0 rfl hs hr
        (hperm.nodup_iff.1 hnd) bs hb (by omega) (by omega) (by omega) (by omega)
      obtain ⟨t', q1, q2, q3, q4, q5, q6, q7⟩ := ih (avlRebalanceStep h fr.i) (h.parent fr.i) t1.root (max k fr.s.height + 1) f t1 r2 r1 r4 hcb'
        (by omega) (by omega) (by rw [r3]; exact hperm.nodup_iff.1 hnd) (by rw [r3, ← hperm.length_eq]; exact hlen)
        (by simp at hf; omega)
      refine ⟨t', q1, q2, ?_, q4.trans r8, q5.trans r9, q6.trans r10, q7.trans r11⟩
      rw [q3, r3, plugIds, if_neg hfl]

end Moo
