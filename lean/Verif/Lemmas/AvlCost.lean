import Verif.Model.AvlCost
import Verif.Lemmas.AvlDelete
import Mathlib.Data.Nat.Log

/-!
# Number of steps of the functions of the AVL tree library
-/

set_option autoImplicit false
set_option linter.unusedSectionVars false

namespace Moo

/-! ### Runs -/

section
variable {α β : Type}

theorem Runs.ret (a : α) : Runs (Tm.ret a) a 0 := ⟨0, le_refl _, rfl⟩

theorem Runs.ticks (k : ℕ) : Runs (ticks k) () k := ⟨k, le_refl _, rfl⟩

theorem Runs.tick : Runs tick () 1 := ⟨1, le_refl _, rfl⟩

theorem Runs.lift {o : Option α} {a : α} (h : o = some a) : Runs (Tm.lift o) a 0 := ⟨0, le_refl _, by rw [h]; rfl⟩

theorem Runs.mono {m : Tm α} {a : α} {B B' : ℕ} (h : Runs m a B) (hB : B ≤ B') : Runs m a B' := by
  obtain ⟨t, h1, h2⟩ := h; exact ⟨t, h1.trans hB, h2⟩

theorem Runs.bind {m : Tm α} {f : α → Tm β} {a : α} {b : β} {B1 B2 : ℕ} (h1 : Runs m a B1) (h2 : Runs (f a) b B2) :
    Runs (m >>= f) b (B1 + B2) := by
  obtain ⟨t, ht, rfl⟩ := h1
  obtain ⟨u, hu, e⟩ := h2
  refine ⟨t + u, by omega, ?_⟩
  show Tm.andThen _ f = _
  unfold Tm.andThen
  simp only [e]
  rfl

/-- A bound for the whole. -/
theorem Runs.bind' {m : Tm α} {f : α → Tm β} {a : α} {b : β} {B1 B2 B : ℕ} (h1 : Runs m a B1) (h2 : Runs (f a) b B2) (hB : B1 + B2 ≤ B) :
    Runs (m >>= f) b B := (h1.bind h2).mono hB

end

open ATree

/-! ### Lengths of paths -/

/-- The path from a node of a balanced tree to the top is short. -/
theorem ctxBal_length : ∀ (c : List Frame) (k : ℕ), CtxBal c k → c ≠ [] → 2 ^ ((k + c.length - 2) / 2) ≤ (ctxIds c).length
  | [], _, _, h => absurd rfl h
  | f :: c, k, h, _ => by
    obtain ⟨hb, h1, h2, h3⟩ := h
    have hs := height_le_of_bal f.s hb
    simp only [ctxIds, List.length_cons, List.length_append]
    by_cases hc : c = []
    · subst hc
      have e : 2 ^ ((k + (([] : List Frame).length + 1) - 2) / 2) ≤ 2 ^ (f.s.height / 2) :=
        Nat.pow_le_pow_right (by omega) (by simp only [List.length_nil]; omega)
      omega
    · have ih := ctxBal_length c _ h3 hc
      have e : 2 ^ ((k + (c.length + 1) - 2) / 2) ≤ 2 ^ ((max k f.s.height + 1 + c.length - 2) / 2) :=
        Nat.pow_le_pow_right (by omega) (by omega)
      omega

theorem ctxBal_length_le {c : List Frame} {k L : ℕ} (h : CtxBal c k) (hL : (ctxIds c).length < 2 ^ L) : c.length ≤ 2 * L + 1 := by
  by_cases hc : c = []
  · subst hc; simp
  · have h1 := lt_of_le_of_lt (ctxBal_length c k h hc) hL
    have h2 := (Nat.pow_lt_pow_iff_right (by omega : 1 < 2)).1 h1
    omega

theorem bal_height_le {t : ATree} {L : ℕ} (h : t.Bal) (hL : t.ids.length < 2 ^ L) : t.height ≤ 2 * L + 1 := by
  have h1 := height_le_of_bal t h
  have h2 := (Nat.pow_le_pow_iff_right (by omega : 1 < 2)).1 (h1.trans (Nat.succ_le_of_lt hL))
  omega

/-! ### Rebalancing -/

/-- `avl_rebalance` makes one step for each node on the path to the top. -/
theorem rebalanceT_runs (c : List Frame) : ∀ (h : AvlHeap) (par p k fuel : ℕ) (t : ATree), CtxRep h c par p → Rep h par p t → t.Bal →
    CtxBal c k → t.height ≤ k + 1 → k ≤ t.height + 1 → (ctxIds c ++ t.ids).Nodup → (ctxIds c ++ t.ids).length < 2 ^ 125 →
    c.length < fuel → Runs (avlRebalanceT fuel h par) (avlRebalance fuel h par) c.length := by
  induction c with
  | nil =>
    intro h par p k fuel t hc hr hb _ _ _ _ _ hf
    obtain ⟨rfl, htop⟩ := hc
    obtain ⟨f, rfl⟩ : ∃ f, fuel = f + 1 := ⟨fuel - 1, by simp at hf; omega⟩
    have : avlRebalance (f + 1) h 0 = h := by simp [avlRebalance]
    rw [this, avlRebalanceT, if_neg (by simp)]
    exact Runs.ret h
  | cons fr c ih =>
    intro h par p k fuel t hc hr hb hcb h1 h2 hnd hlen hf
    obtain ⟨rfl, h0, h3, h4⟩ := hc
    obtain ⟨f, rfl⟩ : ∃ f, fuel = f + 1 := ⟨fuel - 1, by omega⟩
    have hstep : avlRebalance (f + 1) h fr.i = avlRebalance f (avlRebalanceStep h fr.i) (h.parent fr.i) := by
      rw [avlRebalance, if_pos h0]
    obtain ⟨bs, k1, k2, hcb'⟩ := hcb
    have hlen' : fr.s.ids.length < 2 ^ 125 ∧ t.ids.length < 2 ^ 125 := by
      simp only [ctxIds, List.length_append, List.length_cons] at hlen
      omega
    have ht := height_lt t hb hlen'.2
    have hsh := height_lt fr.s bs hlen'.1
    rw [hstep, avlRebalanceT, if_pos h0]
    refine Runs.bind' (B1 := 1) (B2 := c.length) Runs.tick ?_ (by simp; omega)
    by_cases hfl : fr.isLeft
    · rw [if_pos hfl] at h3
      obtain ⟨rfl, hs⟩ := h3
      have hperm : (ctxIds (fr :: c) ++ t.ids).Perm (ctxIds c ++ (t.ids ++ fr.i :: fr.s.ids)) := by
        have e1 := plugIds_perm (fr :: c) t.ids
        have e2 := plugIds_perm c (t.ids ++ fr.i :: fr.s.ids)
        rw [plugIds, if_pos hfl] at e1
        exact e1.symm.trans e2
      obtain ⟨t1, r1, r2, r3, r4, r5, r6, r7, -⟩ := rebalanceStep_spec (c := c) (par := h.parent fr.i) h4 h0 rfl hr hs
        (hperm.nodup_iff.1 hnd) hb bs (by omega) (by omega) (by omega) (by omega)
      exact ih (avlRebalanceStep h fr.i) (h.parent fr.i) t1.root (max k fr.s.height + 1) f t1 r2 r1 r4 hcb'
        (by omega) (by omega) (by rw [r3]; exact hperm.nodup_iff.1 hnd) (by rw [r3, ← hperm.length_eq]; exact hlen)
        (by simp at hf; omega)
    · rw [if_neg hfl] at h3
      obtain ⟨rfl, hs⟩ := h3
      have hperm : (ctxIds (fr :: c) ++ t.ids).Perm (ctxIds c ++ (fr.s.ids ++ fr.i :: t.ids)) := by
        have e1 := plugIds_perm (fr :: c) t.ids
        have e2 := plugIds_perm c (fr.s.ids ++ fr.i :: t.ids)
        rw [plugIds, if_neg hfl] at e1
        exact e1.symm.trans e2
      obtain ⟨t1, r1, r2, r3, r4, r5, r6, r7, -⟩ := rebalanceStep_spec (c := c) (par := h.parent fr.i) h4 h0 rfl hs hr
        (hperm.nodup_iff.1 hnd) bs hb (by omega) (by omega) (by omega) (by omega)
      exact ih (avlRebalanceStep h fr.i) (h.parent fr.i) t1.root (max k fr.s.height + 1) f t1 r2 r1 r4 hcb'
        (by omega) (by omega) (by rw [r3]; exact hperm.nodup_iff.1 hnd) (by rw [r3, ← hperm.length_eq]; exact hlen)
        (by simp at hf; omega)

/-! ### The trees that are rebalanced -/

theorem attachRight_pre {h : AvlHeap} {A B : List ℕ} {x new : ℕ} (hi : AvlInv h (A ++ x :: B)) (hx : h.right x = 0)
    (hnew : new ∉ A ++ x :: B) (hnew0 : new ≠ 0) :
    ∃ (c : List Frame) (p k : ℕ) (t : ATree), CtxRep (avlAttachRight 0 h x new) c x p ∧ Rep (avlAttachRight 0 h x new) x p t ∧ t.Bal ∧ CtxBal c k ∧
      t.height ≤ k + 1 ∧ k ≤ t.height + 1 ∧ (ctxIds c ++ t.ids).Nodup ∧ (ctxIds c ++ t.ids).length = (A ++ x :: B).length + 1 ∧ t.ids.length = 1 := by
  have hz := hi.zero_not_mem
  obtain ⟨t, hr, hb, hids, hd, hnd⟩ := hi
  obtain ⟨c, l, r, rfl⟩ := exists_plug' t x (by rw [hids]; simp)
  obtain ⟨par, p, h4, h5⟩ := rep_plug _ _ hr
  obtain ⟨rfl, hx0, hxp, hxd, hl, hrr⟩ := h4
  rw [hx] at hrr
  obtain rfl := rep_nil hrr
  obtain ⟨b1, b2⟩ := bal_plug _ _ hb
  have hxnew : p ≠ new := fun e => hnew (by simp [e])
  obtain ⟨h1, e0, eL, eR, eD, eP, ePr, eN, eT, eH, eTl⟩ := avlAttachRight_fields h p new hxnew
  have e00 : avlAttachRight 0 h p new = h1 := e0 0
  rw [e00]
  have hnd2 : (ctxIds c ++ (ATree.node l p nil).ids).Nodup := by rw [← ids_plug_nodup, hids]; exact hnd
  have hmem : ∀ j, j ∈ ctxIds c ++ (ATree.node l p nil).ids ↔ j ∈ A ++ p :: B := by
    intro j; rw [← hids, ids_plug]; exact (plugIds_perm c _).mem_iff.symm
  have hnewc : new ∉ ctxIds c := fun hm => hnew ((hmem new).1 (by simp [hm]))
  have hnewl : new ∉ l.ids := fun hm => hnew ((hmem new).1 (by simp [ids, hm]))
  have hndp := List.nodup_append.1 hnd2
  have hpc : p ∉ ctxIds c := fun hm => hndp.2.2 p hm p (by simp [ids]) rfl
  have hpl : p ∉ l.ids := by
    have := hndp.2.1
    rw [ids, List.nodup_append] at this
    exact fun hm => this.2.2 p hm p (by simp) rfl
  have ne : ∀ (L : List ℕ) (y : ℕ), y ∉ L → ∀ j ∈ L, j ≠ y := fun L y hy j hj e => hy (e ▸ hj)
  have hcr : CtxRep h1 c par p := by
    refine ctxRep_congr c _ _ h5 hndp.1 eT ?_ ?_ ?_ ?_
    · intro j hj; rw [eL, upd_ne _ _ (ne _ _ hnewc j hj)]
    · intro j hj; rw [eR, upd_ne _ _ (ne _ _ hpc j hj), upd_ne _ _ (ne _ _ hnewc j hj)]
    · intro j hj; rw [eD, upd_ne _ _ (ne _ _ hnewc j hj)]
    · intro j hj; rw [eP, upd_ne _ _ (ne _ _ hnewc j hj)]
  have hrl : Rep h1 p (h1.left p) l := by
    have : h1.left p = h.left p := by rw [eL, upd_ne _ _ hxnew]
    rw [this]
    have nl : l.ids.Nodup := by have := hndp.2.1; rw [ids, List.nodup_append] at this; exact this.1
    refine hl.congr' nl ?_ ?_ ?_ ?_
    · intro j hj; rw [eL, upd_ne _ _ (ne _ _ hnewl j hj)]
    · intro j hj; rw [eR, upd_ne _ _ (ne _ _ hpl j hj), upd_ne _ _ (ne _ _ hnewl j hj)]
    · intro j hj; rw [eD, upd_ne _ _ (ne _ _ hnewl j hj)]
    · intro j hj; rw [eP, upd_ne _ _ (ne _ _ hnewl j hj)]
  have hctx : CtxRep h1 (⟨false, p, l⟩ :: c) p new := by
    refine ⟨rfl, hx0, ?_, ?_⟩
    · simp only [Bool.false_eq_true, if_false]
      exact ⟨by rw [eR, upd_same], hrl⟩
    · rw [eP, upd_ne _ _ hxnew, hxp]; exact hcr
  have hnewrep : Rep h1 p new (.node nil new nil) := by
    refine ⟨rfl, hnew0, by rw [eP, upd_same], by rw [eD, upd_same]; rfl, ?_, ?_⟩
    · rw [eL, upd_same]; rfl
    · rw [eR, upd_ne _ _ (Ne.symm hxnew), upd_same]; rfl
  have hcb : CtxBal (⟨false, p, l⟩ :: c) 0 := by
    obtain ⟨bl, _, k1, k2⟩ := b1
    refine ⟨bl, ?_, Nat.zero_le _, ?_⟩
    · exact k1
    · rw [Nat.max_comm]; exact b2
  have hplen : (ctxIds c ++ (ATree.node l p nil).ids).length = (A ++ p :: B).length := by
    rw [← (plugIds_perm c _).length_eq, ← ids_plug, hids]
  have hperm : (ctxIds (⟨false, p, l⟩ :: c) ++ [new]).Perm (new :: (ctxIds c ++ (ATree.node l p nil).ids)) := by
    refine (List.perm_append_singleton new _).trans (List.Perm.cons _ ?_)
    simp only [ctxIds, ids]
    refine List.Perm.trans ?_ List.perm_append_comm
    rw [List.append_assoc, List.cons_append]
    simp only [List.nil_append]
    exact (List.perm_middle).symm
  refine ⟨⟨false, p, l⟩ :: c, new, 0, .node nil new nil, hctx, hnewrep, ⟨trivial, trivial, by simp [height], by simp [height]⟩, hcb, by simp [height], by omega, ?_, ?_, rfl⟩
  · have : (ATree.node nil new nil).ids = [new] := rfl
    rw [this, hperm.nodup_iff, List.nodup_cons]
    exact ⟨fun hm => hnew ((hmem new).1 hm), hnd2⟩
  · have : (ATree.node nil new nil).ids = [new] := rfl
    rw [this, hperm.length_eq, List.length_cons, hplen]

theorem attachLeft_pre {h : AvlHeap} {A B : List ℕ} {x new : ℕ} (hi : AvlInv h (A ++ x :: B)) (hx : h.left x = 0)
    (hnew : new ∉ A ++ x :: B) (hnew0 : new ≠ 0) :
    ∃ (c : List Frame) (p k : ℕ) (t : ATree), CtxRep (avlAttachLeft 0 h x new) c x p ∧ Rep (avlAttachLeft 0 h x new) x p t ∧ t.Bal ∧ CtxBal c k ∧
      t.height ≤ k + 1 ∧ k ≤ t.height + 1 ∧ (ctxIds c ++ t.ids).Nodup ∧ (ctxIds c ++ t.ids).length = (A ++ x :: B).length + 1 ∧ t.ids.length = 1 := by
  have hz := hi.zero_not_mem
  obtain ⟨t, hr, hb, hids, hd, hnd⟩ := hi
  obtain ⟨c, l, r, rfl⟩ := exists_plug' t x (by rw [hids]; simp)
  obtain ⟨par, p, h4, h5⟩ := rep_plug _ _ hr
  obtain ⟨rfl, hx0, hxp, hxd, hl, hrr⟩ := h4
  rw [hx] at hl
  obtain rfl := rep_nil hl
  obtain ⟨b1, b2⟩ := bal_plug _ _ hb
  have hxnew : p ≠ new := fun e => hnew (by simp [e])
  obtain ⟨h1, e0, eR, eL, eD, eP, eN, ePr, eT, eTl, eH⟩ := avlAttachLeft_fields h p new hxnew
  have e00 : avlAttachLeft 0 h p new = h1 := e0 0
  rw [e00]
  have hnd2 : (ctxIds c ++ (ATree.node nil p r).ids).Nodup := by rw [← ids_plug_nodup, hids]; exact hnd
  have hmem : ∀ j, j ∈ ctxIds c ++ (ATree.node nil p r).ids ↔ j ∈ A ++ p :: B := by
    intro j; rw [← hids, ids_plug]; exact (plugIds_perm c _).mem_iff.symm
  have hnewc : new ∉ ctxIds c := fun hm => hnew ((hmem new).1 (by simp [hm]))
  have hnewl : new ∉ r.ids := fun hm => hnew ((hmem new).1 (by simp [ids, hm]))
  have hndp := List.nodup_append.1 hnd2
  have hpc : p ∉ ctxIds c := fun hm => hndp.2.2 p hm p (by simp [ids]) rfl
  have hpl : p ∉ r.ids := by
    have := hndp.2.1
    simp only [ids, List.nil_append, List.nodup_cons] at this
    exact this.1
  have ne : ∀ (L : List ℕ) (y : ℕ), y ∉ L → ∀ j ∈ L, j ≠ y := fun L y hy j hj e => hy (e ▸ hj)
  have hcr : CtxRep h1 c par p := by
    refine ctxRep_congr c _ _ h5 hndp.1 eT ?_ ?_ ?_ ?_
    · intro j hj; rw [eL, upd_ne _ _ (ne _ _ hpc j hj), upd_ne _ _ (ne _ _ hnewc j hj)]
    · intro j hj; rw [eR, upd_ne _ _ (ne _ _ hnewc j hj)]
    · intro j hj; rw [eD, upd_ne _ _ (ne _ _ hnewc j hj)]
    · intro j hj; rw [eP, upd_ne _ _ (ne _ _ hnewc j hj)]
  have hrl : Rep h1 p (h1.right p) r := by
    have : h1.right p = h.right p := by rw [eR, upd_ne _ _ hxnew]
    rw [this]
    have nl : r.ids.Nodup := by have := hndp.2.1; simp only [ids, List.nil_append, List.nodup_cons] at this; exact this.2
    refine hrr.congr' nl ?_ ?_ ?_ ?_
    · intro j hj; rw [eL, upd_ne _ _ (ne _ _ hpl j hj), upd_ne _ _ (ne _ _ hnewl j hj)]
    · intro j hj; rw [eR, upd_ne _ _ (ne _ _ hnewl j hj)]
    · intro j hj; rw [eD, upd_ne _ _ (ne _ _ hnewl j hj)]
    · intro j hj; rw [eP, upd_ne _ _ (ne _ _ hnewl j hj)]
  have hctx : CtxRep h1 (⟨true, p, r⟩ :: c) p new := by
    refine ⟨rfl, hx0, ?_, ?_⟩
    · simp only [if_true]
      exact ⟨by rw [eL, upd_same], hrl⟩
    · rw [eP, upd_ne _ _ hxnew, hxp]; exact hcr
  have hnewrep : Rep h1 p new (.node nil new nil) := by
    refine ⟨rfl, hnew0, by rw [eP, upd_same], by rw [eD, upd_same]; rfl, ?_, ?_⟩
    · rw [eL, upd_ne _ _ (Ne.symm hxnew), upd_same]; rfl
    · rw [eR, upd_same]; rfl
  have hcb : CtxBal (⟨true, p, r⟩ :: c) 0 := by
    obtain ⟨_, br, k1, k2⟩ := b1
    exact ⟨br, k2, Nat.zero_le _, b2⟩
  have hplen : (ctxIds c ++ (ATree.node nil p r).ids).length = (A ++ p :: B).length := by
    rw [← (plugIds_perm c _).length_eq, ← ids_plug, hids]
  have hperm : (ctxIds (⟨true, p, r⟩ :: c) ++ [new]).Perm (new :: (ctxIds c ++ (ATree.node nil p r).ids)) := by
    refine (List.perm_append_singleton new _).trans (List.Perm.cons _ ?_)
    simp only [ctxIds, ids, List.nil_append]
    rw [← List.cons_append]
    exact List.perm_append_comm
  refine ⟨⟨true, p, r⟩ :: c, new, 0, .node nil new nil, hctx, hnewrep, ⟨trivial, trivial, by simp [height], by simp [height]⟩, hcb, by simp [height], by omega, ?_, ?_, rfl⟩
  · have : (ATree.node nil new nil).ids = [new] := rfl
    rw [this, hperm.nodup_iff, List.nodup_cons]
    exact ⟨fun hm => hnew ((hmem new).1 hm), hnd2⟩
  · have : (ATree.node nil new nil).ids = [new] := rfl
    rw [this, hperm.length_eq, List.length_cons, hplen]

/-- What `avl_unlink_node` rebalances. -/
theorem unlink_pre {h : AvlHeap} {A B : List ℕ} {x : ℕ} (hi : AvlInv h (A ++ x :: B)) :
    ∃ h2 bal, (∀ fuel, avlUnlinkNode fuel h x = avlRebalance fuel h2 bal) ∧ (∀ fuel, avlUnlinkNodeT fuel h x = avlRebalanceT fuel h2 bal) ∧
      UnlinkRes (avlUnlinkList h x) h2 bal A B := by
  have hz := hi.zero_not_mem
  obtain ⟨t, hr, hb, hids, hd, hnd⟩ := hi
  have hat := dlist_at hd
  have hx0 : x ≠ 0 := fun e => hz (by simp [e])
  have hndA := List.nodup_append.1 hnd
  have hndB := List.nodup_cons.1 hndA.2.1
  have hpx : h.prev x ≠ x := by
    rw [hat.1]
    intro e
    by_cases hA : A = []
    · subst hA; exact hx0 e.symm
    · have := getLastD_mem hA; rw [e] at this; exact hndA.2.2 x this x (by simp) rfl
  have hnx : h.next x ≠ x := by
    rw [hat.2]
    intro e
    by_cases hB : B = []
    · subst hB; exact hx0 e.symm
    · have := avl_headD_mem hB; rw [e] at this; exact hndB.1 this
  obtain ⟨fL, fR, fPa, fD, fTop, fN, fP, fH, fT⟩ := unlinkList_fields h x hpx
  unfold avlUnlinkNode avlUnlinkNodeT
  have hsub : (avlUnlinkList h x).prev x = A.getLastD 0 := by rw [fP, updIf_ne _ _ (Ne.symm hnx), hat.1]
  have hr0 : Rep (avlUnlinkList h x) 0 (avlUnlinkList h x).top t := by
    rw [fTop]
    exact hr.congr' (by rw [hids]; exact hnd) (fun _ _ => by rw [fL]) (fun _ _ => by rw [fR]) (fun _ _ => by rw [fD]) (fun _ _ => by rw [fPa])
  clear hr hd hat hpx hnx fL fR fPa fD fTop fN fP fH fT
  generalize avlUnlinkList h x = h0 at *
  obtain ⟨c, l, r, rfl⟩ := exists_plug' t x (by rw [hids]; simp)
  have hr0' := hr0
  obtain ⟨par, p, h4, h5⟩ := rep_plug _ _ hr0
  obtain ⟨rfl, _, hxp, hxd, hl, hrr⟩ := h4
  obtain ⟨b1, b2⟩ := bal_plug _ _ hb
  obtain ⟨a, b, hab⟩ := plugIds_split c
  have hsplit : A = a ++ l.ids ∧ B = r.ids ++ b := by
    have : A ++ p :: B = (a ++ l.ids) ++ p :: (r.ids ++ b) := by
      rw [← hids, ids_plug, hab]; simp [ids]
    exact split_unique this hnd
  have hnd2 : (ctxIds c ++ (ATree.node l p r).ids).Nodup := by rw [← ids_plug_nodup, hids]; exact hnd
  have hndp := List.nodup_append.1 hnd2
  have hndlr := hndp.2.1
  rw [ids, List.nodup_append, List.nodup_cons] at hndlr
  simp only [hxp]
  by_cases hl0 : h0.left p = 0
  · simp only [if_pos hl0]
    rw [hl0] at hl
    obtain rfl := rep_nil hl
    refine ⟨_, par, fun _ => rfl, fun _ => rfl, ?_⟩
    rw [hsplit.1, hsplit.2]
    have := unlink_one_child (h2 := (h0.setSuper (avlSuper h0 p par) (h0.right p)).setParentIf (h0.right p) par) (J := (ATree.node nil p r).ids)
      h5 hx0 hrr hab hnd2 (by simp [ids]) (by intro j hj; simp [ids, hj]) hndlr.2.1.2 b1.2.1
      (by have := b2; simpa [height] using this)
      (by unfold AvlHeap.setParentIf; split <;> simp [AvlHeap.setParent])
      (by unfold AvlHeap.setParentIf; split <;> simp [AvlHeap.setParent])
      (by unfold AvlHeap.setParentIf; split <;> simp [AvlHeap.setParent])
      (by unfold AvlHeap.setParentIf updIf; split <;> simp [AvlHeap.setParent])
      (by unfold AvlHeap.setParentIf; split <;> simp [AvlHeap.setParent])
      (by unfold AvlHeap.setParentIf; split <;> simp [AvlHeap.setParent])
      (by unfold AvlHeap.setParentIf; split <;> simp [AvlHeap.setParent])
      (by unfold AvlHeap.setParentIf; split <;> simp [AvlHeap.setParent])
      (by unfold AvlHeap.setParentIf; split <;> simp [AvlHeap.setParent])
    obtain ⟨⟨c', p', k', t', q1, q2, q3, q4, q5, q6, q7⟩, w1, w2, w3, w4⟩ := this
    exact ⟨⟨c', p', k', t', q1, q2, q3, q4, q5, q6, by rw [q7]; simp [ids]⟩, w1, w2, w3, w4⟩
  simp only [if_neg hl0]
  by_cases hr0c : h0.right p = 0
  · simp only [if_pos hr0c]
    rw [hr0c] at hrr
    obtain rfl := rep_nil hrr
    refine ⟨_, par, fun _ => rfl, fun _ => rfl, ?_⟩
    rw [hsplit.1, hsplit.2]
    have := unlink_one_child (h2 := (h0.setSuper (avlSuper h0 p par) (h0.left p)).setParent (h0.left p) par) (J := (ATree.node l p nil).ids)
      h5 hx0 hl hab hnd2 (by simp [ids]) (by intro j hj; simp [ids, hj]) hndlr.1 b1.1
      (by have := b2; simpa [height] using this)
      (by simp [AvlHeap.setParent]) (by simp [AvlHeap.setParent]) (by simp [AvlHeap.setParent]) (by simp [AvlHeap.setParent, updIf, hl0])
      (by simp [AvlHeap.setParent]) (by simp [AvlHeap.setParent]) (by simp [AvlHeap.setParent]) (by simp [AvlHeap.setParent])
      (by simp [AvlHeap.setParent])
    obtain ⟨⟨c', p', k', t', q1, q2, q3, q4, q5, q6, q7⟩, w1, w2, w3, w4⟩ := this
    exact ⟨⟨c', p', k', t', q1, q2, q3, q4, q5, q6, by rw [q7]; simp [ids]⟩, w1, w2, w3, w4⟩
  simp only [if_neg hr0c]
  -- the predecessor
  have hlne : l.ids ≠ [] := by
    intro e
    obtain rfl := ids_eq_nil e
    exact hl0 hl
  obtain ⟨s, hs⟩ : ∃ s, h0.prev p = s := ⟨_, rfl⟩
  simp only [hs]
  have hslast : ∃ rest, l.ids = rest ++ [s] := by
    refine ⟨l.ids.dropLast, ?_⟩
    have e1 : l.ids.getLast hlne = s := by
      rw [← hs, hsub, hsplit.1, List.getLastD_eq_getLast?, List.getLast?_append_of_ne_nil _ hlne,
        List.getLast?_eq_some_getLast hlne]
      rfl
    rw [← e1, List.dropLast_append_getLast]
  obtain ⟨rest, hrest⟩ := hslast
  obtain ⟨d, la, lb, hle⟩ := exists_plug' l s (by rw [hrest]; simp)
  obtain ⟨a', b', hab'⟩ := plugIds_split d
  have hlsplit : rest = a' ++ la.ids ∧ [] = lb.ids ++ b' := by
    have : rest ++ s :: [] = (a' ++ la.ids) ++ s :: (lb.ids ++ b') := by
      rw [← hrest, hle, ids_plug, hab']; simp [ids]
    exact split_unique this (by rw [← hrest]; exact hndlr.1)
  have hlbn : lb = .nil := ids_eq_nil (List.append_eq_nil_iff.1 hlsplit.2.symm).1
  have hb'n : b' = [] := (List.append_eq_nil_iff.1 hlsplit.2.symm).2
  subst hlbn
  subst hb'n
  have hwhole : plug c (.node l p r) = plug (d ++ ⟨true, p, r⟩ :: c) (.node la s nil) := by
    rw [plug_append, ← hle]; rfl
  obtain ⟨bl, br, k1, k2⟩ := b1
  have b1' : (plug c (ATree.node l p r)).Bal := hb
  rw [hwhole] at b1' hr0'
  obtain ⟨bs, bctx⟩ := bal_plug _ _ b1'
  obtain ⟨m, s', q1, q2⟩ := rep_plug _ _ hr0'
  have hs' : s' = s := q1.1
  subst hs'
  have hms : h0.parent s' = m := q1.2.2.1
  cases d with
  | nil =>
    simp only [plug] at hle
    have hls : s' = h0.left p := by rw [hl.root, hle]; rfl
    simp only [if_pos hls]
    refine ⟨_, s', fun _ => rfl, fun _ => rfl, ?_⟩
    rw [hsplit.1, hsplit.2]
    subst hle
    have := unlink_subst_left
      (h2 := (((h0.setRight s' (h0.right p)).setParent s' par).setParent (h0.right p) s').setSuper (avlSuper h0 p par) s')
      h5 hx0 hl hrr hr0c hab (by simpa [ids] using hnd2) bl br k1 k2 b2
      (by simp [AvlHeap.setParent, AvlHeap.setRight]) (by simp [AvlHeap.setParent, AvlHeap.setRight]) (by simp [AvlHeap.setParent, AvlHeap.setRight])
      (by simp [AvlHeap.setParent, AvlHeap.setRight]) (by simp [AvlHeap.setParent, AvlHeap.setRight]) (by simp [AvlHeap.setParent, AvlHeap.setRight])
      (by simp [AvlHeap.setParent, AvlHeap.setRight]) (by simp [AvlHeap.setParent, AvlHeap.setRight]) (by simp [AvlHeap.setParent, AvlHeap.setRight])
    exact this
  | cons f d =>
    -- the first frame goes to the right
    have hf : f.isLeft = false := by
      by_contra hne
      have hft : f.isLeft = true := by simpa using hne
      obtain ⟨a2, b2', hab2⟩ := plugIds_split d
      have e1 := hab' [s']
      rw [plugIds, if_pos hft, hab2] at e1
      have e2 : a2 ++ s' :: (f.i :: f.s.ids ++ b2') = a' ++ s' :: [] := by simpa using e1
      have hnd' : (a2 ++ s' :: (f.i :: f.s.ids ++ b2')).Nodup := by
        rw [e2]
        have h1 : rest ++ [s'] = a' ++ (la.ids ++ [s']) := by rw [hlsplit.1]; simp
        have h2 := hndlr.1
        rw [hrest, h1] at h2
        rw [List.nodup_append] at h2 ⊢
        refine ⟨h2.1, by simp, ?_⟩
        intro u hu v hv
        exact h2.2.2 u hu v (by simp only [List.mem_append]; right; exact hv)
      have := (split_unique e2 hnd').2
      simp at this
    obtain ⟨fl, m', lm⟩ := f
    simp only at hf
    subst hf
    have hmm : m = m' := q2.1
    subst hmm
    have hsl : s' ≠ h0.left p := by
      intro e
      have h1 : s' = l.root := by rw [e]; exact hl.root
      have h2 : ∀ (e : List Frame) (t : ATree), e ≠ [] → (plug e t).root ∈ ctxIds e := by
        intro e
        induction e with
        | nil => intro _ h; exact absurd rfl h
        | cons f e ih =>
          intro t _
          rw [plug]
          by_cases he : e = []
          · subst he
            rw [plug]
            split <;> simp [ATree.root, ctxIds]
          · have := ih (if f.isLeft then .node t f.i f.s else .node f.s f.i t) he
            simp [ctxIds, this]
      have h3 := h2 (⟨false, m, lm⟩ :: d) (.node la s' nil) (by simp)
      rw [← hle, ← h1] at h3
      have h4 : (ctxIds (⟨false, m, lm⟩ :: d) ++ (ATree.node la s' nil).ids).Nodup := by
        rw [← ids_plug_nodup, ← hle]; exact hndlr.1
      rw [List.nodup_append] at h4
      exact h4.2.2 s' h3 s' (by simp [ids]) rfl
    simp only [if_neg hsl, hms]
    refine ⟨_, m, fun _ => rfl, fun _ => rfl, ?_⟩
    rw [hsplit.1, hsplit.2]
    have hndd : (ctxIds (⟨false, m, lm⟩ :: d ++ ⟨true, p, r⟩ :: c) ++ (la.ids ++ [s'])).Nodup := by
      have : (plug (⟨false, m, lm⟩ :: d ++ ⟨true, p, r⟩ :: c) (.node la s' nil)).ids.Nodup := by
        rw [← hwhole, hids]; exact hnd
      rw [ids_plug_nodup] at this
      exact this
    have hm_s : m ≠ s' := by
      intro e
      have h1 := hndd
      rw [List.nodup_append] at h1
      exact h1.2.2 m (by simp [ctxIds]) s' (by simp) e
    have key := unlink_subst_deep
      (h2 := (((((((h0.setRight m (h0.left s')).setParentIf (h0.left s') m).setLeft s' (h0.left p)).setParent (h0.left p) s').setRight s' (h0.right p)).setParent s' par).setParent (h0.right p) s').setSuper (avlSuper h0 p par) s')
      h5 hx0 q2 q1 hr0c hab hndd bs bctx
      (by unfold AvlHeap.setParentIf; split <;> simp [AvlHeap.setParent, AvlHeap.setRight, AvlHeap.setLeft])
      (by unfold AvlHeap.setParentIf; split <;> simp [AvlHeap.setParent, AvlHeap.setRight, AvlHeap.setLeft])
      (by unfold AvlHeap.setParentIf; split <;> simp [AvlHeap.setParent, AvlHeap.setRight, AvlHeap.setLeft])
      (by unfold AvlHeap.setParentIf updIf; split <;> simp [AvlHeap.setParent, AvlHeap.setRight, AvlHeap.setLeft])
      (by unfold AvlHeap.setParentIf; split <;> simp [AvlHeap.setParent, AvlHeap.setRight, AvlHeap.setLeft])
      (by unfold AvlHeap.setParentIf; split <;> simp [AvlHeap.setParent, AvlHeap.setRight, AvlHeap.setLeft])
      (by unfold AvlHeap.setParentIf; split <;> simp [AvlHeap.setParent, AvlHeap.setRight, AvlHeap.setLeft])
      (by unfold AvlHeap.setParentIf; split <;> simp [AvlHeap.setParent, AvlHeap.setRight, AvlHeap.setLeft])
      (by unfold AvlHeap.setParentIf; split <;> simp [AvlHeap.setParent, AvlHeap.setRight, AvlHeap.setLeft])
    rcases key with key | key
    · have e1 : plugIds (⟨false, m, lm⟩ :: d) (la.ids ++ [s']) = l.ids := by rw [hle, ids_plug]; rfl
      rw [e1] at key
      have e2 : (h0.setRight m (h0.left s')).left s' = h0.left s' := rfl
      have e3 : (h0.setRight m (h0.left s')).right m = h0.left s' := by simp [AvlHeap.setRight]
      rw [e3]
      exact key
    · exfalso
      apply key
      rw [hab', hab']; simp

/-! ### Insertion and removal -/

theorem attachRightT_runs {h : AvlHeap} {A B : List ℕ} {x new fuel L : ℕ} (hi : AvlInv h (A ++ x :: B)) (hx : h.right x = 0)
    (hnew : new ∉ A ++ x :: B) (hnew0 : new ≠ 0) (hlen : (A ++ x :: B).length + 1 < 2 ^ 125) (hfuel : (A ++ x :: B).length < fuel)
    (hL : (A ++ x :: B).length < 2 ^ L) : Runs (avlAttachRightT fuel h x new) (avlAttachRight fuel h x new) (2 * L + 1) := by
  obtain ⟨c, p, k, t, h1, h2, h3, h4, h5, h6, h7, h8, h9⟩ := attachRight_pre hi hx hnew hnew0
  have hc := ctx_length_le c
  rw [List.length_append] at h8
  exact (rebalanceT_runs c _ x p k fuel t h1 h2 h3 h4 h5 h6 h7 (by rw [List.length_append]; omega) (by omega)).mono
    (ctxBal_length_le h4 (by omega))

theorem attachLeftT_runs {h : AvlHeap} {A B : List ℕ} {x new fuel L : ℕ} (hi : AvlInv h (A ++ x :: B)) (hx : h.left x = 0)
    (hnew : new ∉ A ++ x :: B) (hnew0 : new ≠ 0) (hlen : (A ++ x :: B).length + 1 < 2 ^ 125) (hfuel : (A ++ x :: B).length < fuel)
    (hL : (A ++ x :: B).length < 2 ^ L) : Runs (avlAttachLeftT fuel h x new) (avlAttachLeft fuel h x new) (2 * L + 1) := by
  obtain ⟨c, p, k, t, h1, h2, h3, h4, h5, h6, h7, h8, h9⟩ := attachLeft_pre hi hx hnew hnew0
  have hc := ctx_length_le c
  rw [List.length_append] at h8
  exact (rebalanceT_runs c _ x p k fuel t h1 h2 h3 h4 h5 h6 h7 (by rw [List.length_append]; omega) (by omega)).mono
    (ctxBal_length_le h4 (by omega))

theorem unlinkT_runs {h : AvlHeap} {A B : List ℕ} {x fuel L : ℕ} (hi : AvlInv h (A ++ x :: B))
    (hlen : (A ++ x :: B).length < 2 ^ 125) (hfuel : (A ++ x :: B).length < fuel) (hL : (A ++ x :: B).length ≤ 2 ^ L) :
    Runs (avlUnlinkNodeT fuel h x) (avlUnlinkNode fuel h x) (2 * L + 1) := by
  have hnd : (A ++ x :: B).Nodup := by obtain ⟨_, _, _, _, _, hnd⟩ := hi; exact hnd
  obtain ⟨h2, bal, e1, e2, ⟨⟨c, p, k, t, hc, hr, hb, hcb, k1, k2, hids⟩, -, -, -, -⟩⟩ := unlink_pre hi
  have hndA := List.nodup_append.1 hnd
  have hndB := List.nodup_cons.1 hndA.2.1
  have hndAB : (A ++ B).Nodup := by
    rw [List.nodup_append]; exact ⟨hndA.1, hndB.2, fun a ha b hb => hndA.2.2 a ha b (by simp [hb])⟩
  have hperm := plugIds_perm c t.ids
  rw [hids] at hperm
  have hle : (ctxIds c ++ t.ids).length = (A ++ B).length := hperm.length_eq.symm
  have hl2 : (A ++ x :: B).length = (A ++ B).length + 1 := by simp only [List.length_append, List.length_cons]; omega
  have hcl := ctx_length_le c
  have hcl2 : (ctxIds c).length ≤ (ctxIds c ++ t.ids).length := by rw [List.length_append]; omega
  rw [e1, e2]
  exact (rebalanceT_runs c h2 bal p k fuel t hc hr hb hcb k1 k2 (hperm.nodup_iff.1 hndAB) (by omega) (by omega)).mono
    (ctxBal_length_le hcb (by omega))

theorem insertAfterT_runs {h : AvlHeap} {A B : List ℕ} {x new fuel rec L : ℕ} (hi : AvlInv h (A ++ x :: B))
    (hnew : new ∉ A ++ x :: B) (hnew0 : new ≠ 0) (hlen : (A ++ x :: B).length + 1 < 2 ^ 125) (hfuel : (A ++ x :: B).length < fuel)
    (hrec : 2 ≤ rec) (hL : (A ++ x :: B).length < 2 ^ L) :
    Runs (avlInsertAfterT rec fuel h x new) (avlInsertAfter rec fuel h x new) (2 * L + 3) := by
  obtain ⟨rec, rfl⟩ : ∃ k, rec = k + 2 := ⟨rec - 2, by omega⟩
  have hx0 : x ≠ 0 := fun e => hi.zero_not_mem (by simp [e])
  rw [avlInsertAfter, avlInsertAfterT, if_neg hx0]
  simp only [if_neg hx0]
  refine Runs.bind' (B1 := 1) (B2 := 2 * L + 2) Runs.tick ?_ (by omega)
  by_cases hr : h.right x = 0
  · rw [if_neg (by simpa using hr), if_neg (by simpa using hr)]
    exact (attachRightT_runs hi hr hnew hnew0 hlen hfuel hL).mono (by omega)
  rw [if_pos hr, if_pos hr]
  obtain ⟨t, hrep, hb, hids, hd, hnd⟩ := hi
  have hz : 0 ∉ A ++ x :: B := hids ▸ hrep.zero_not_mem
  have hat := dlist_at hd
  cases B with
  | nil =>
    exfalso
    exact hr (right_last (c := []) hrep (by rw [hids]; exact hnd) hids)
  | cons y B =>
    have hy0 : y ≠ 0 := fun e => hz (by simp [e])
    have hly : h.left y = 0 := left_of_next hrep (by rw [hids]; exact hnd) hids hr
    have hnx : h.next x = y := hat.2
    rw [hnx, avlInsertBefore, avlInsertBeforeT, if_neg hy0, if_neg (by simpa using hly)]
    simp only [if_neg hy0]
    rw [if_neg (by simpa using hly)]
    have e1 : A ++ x :: y :: B = (A ++ [x]) ++ y :: B := by simp
    refine Runs.bind' (B1 := 1) (B2 := 2 * L + 1) Runs.tick ?_ (by omega)
    refine attachLeftT_runs (A := A ++ [x]) (B := B) ?_ hly (by rw [← e1]; exact hnew) hnew0 (by rw [← e1]; exact hlen) (by rw [← e1]; exact hfuel)
      (by rw [← e1]; exact hL)
    rw [← e1]
    exact ⟨t, hrep, hb, hids, hd, hnd⟩

theorem insertBeforeT_runs {h : AvlHeap} {A B : List ℕ} {x new fuel rec L : ℕ} (hi : AvlInv h (A ++ x :: B))
    (hnew : new ∉ A ++ x :: B) (hnew0 : new ≠ 0) (hlen : (A ++ x :: B).length + 1 < 2 ^ 125) (hfuel : (A ++ x :: B).length < fuel)
    (hrec : 2 ≤ rec) (hL : (A ++ x :: B).length < 2 ^ L) :
    Runs (avlInsertBeforeT rec fuel h x new) (avlInsertBefore rec fuel h x new) (2 * L + 3) := by
  obtain ⟨rec, rfl⟩ : ∃ k, rec = k + 2 := ⟨rec - 2, by omega⟩
  have hx0 : x ≠ 0 := fun e => hi.zero_not_mem (by simp [e])
  rw [avlInsertBefore, avlInsertBeforeT, if_neg hx0]
  simp only [if_neg hx0]
  refine Runs.bind' (B1 := 1) (B2 := 2 * L + 2) Runs.tick ?_ (by omega)
  by_cases hl : h.left x = 0
  · rw [if_neg (by simpa using hl), if_neg (by simpa using hl)]
    exact (attachLeftT_runs hi hl hnew hnew0 hlen hfuel hL).mono (by omega)
  rw [if_pos hl, if_pos hl]
  obtain ⟨t, hrep, hb, hids, hd, hnd⟩ := hi
  have hz : 0 ∉ A ++ x :: B := hids ▸ hrep.zero_not_mem
  have hat := dlist_at hd
  rcases List.eq_nil_or_concat A with rfl | ⟨A', y, rfl⟩
  · exfalso
    exact hl (left_first (c := []) hrep (by rw [hids]; exact hnd) hids)
  · simp only [List.concat_eq_append] at *
    have hids' : t.ids = A' ++ y :: x :: B := by rw [hids]; simp
    have hy0 : y ≠ 0 := fun e => hz (by simp [e])
    have hry : h.right y = 0 := right_of_prev hrep (by rw [hids]; exact hnd) hids' hl
    have hpx : h.prev x = y := by rw [hat.1, getLastD_append A' y [] 0 0]; rfl
    rw [hpx, avlInsertAfter, avlInsertAfterT, if_neg hy0, if_neg (by simpa using hry)]
    simp only [if_neg hy0]
    rw [if_neg (by simpa using hry)]
    have e1 : A' ++ [y] ++ x :: B = A' ++ y :: x :: B := by simp
    refine Runs.bind' (B1 := 1) (B2 := 2 * L + 1) Runs.tick ?_ (by omega)
    refine attachRightT_runs (A := A') (B := x :: B) ?_ hry (by rw [← e1]; exact hnew) hnew0 (by rw [← e1]; exact hlen) (by rw [← e1]; exact hfuel)
      (by rw [← e1]; exact hL)
    rw [← e1]
    exact ⟨t, hrep, hb, hids, hd, hnd⟩

theorem insertAfterT_null_runs {h : AvlHeap} {l : List ℕ} {new fuel rec L : ℕ} (hi : AvlInv h l)
    (hnew : new ∉ l) (hnew0 : new ≠ 0) (hlen : l.length + 1 < 2 ^ 125) (hfuel : l.length < fuel) (hrec : 3 ≤ rec) (hL : l.length < 2 ^ L) :
    Runs (avlInsertAfterT rec fuel h 0 new) (avlInsertAfter rec fuel h 0 new) (2 * L + 4) := by
  obtain ⟨rec, rfl⟩ : ∃ k, rec = k + 1 := ⟨rec - 1, by omega⟩
  rw [avlInsertAfter, avlInsertAfterT, if_pos rfl, hi.head]
  simp only [if_true]
  refine Runs.bind' (B1 := 1) (B2 := 2 * L + 3) Runs.tick ?_ (by omega)
  cases l with
  | nil =>
    rw [if_neg (by simp), if_neg (by simp)]
    exact (Runs.ret _).mono (by omega)
  | cons y l =>
    have hy0 : y ≠ 0 := fun e => hi.zero_not_mem (by simp [e])
    rw [if_pos (show List.headD (y :: l) 0 ≠ 0 from hy0), if_pos (show List.headD (y :: l) 0 ≠ 0 from hy0)]
    exact insertBeforeT_runs (A := []) hi hnew hnew0 hlen hfuel (by omega) hL

theorem insertBeforeT_null_runs {h : AvlHeap} {l : List ℕ} {new fuel rec L : ℕ} (hi : AvlInv h l)
    (hnew : new ∉ l) (hnew0 : new ≠ 0) (hlen : l.length + 1 < 2 ^ 125) (hfuel : l.length < fuel) (hrec : 3 ≤ rec) (hL : l.length < 2 ^ L) :
    Runs (avlInsertBeforeT rec fuel h 0 new) (avlInsertBefore rec fuel h 0 new) (2 * L + 4) := by
  obtain ⟨rec, rfl⟩ : ∃ k, rec = k + 1 := ⟨rec - 1, by omega⟩
  rw [avlInsertBefore, avlInsertBeforeT, if_pos rfl, hi.tail]
  simp only [if_true]
  refine Runs.bind' (B1 := 1) (B2 := 2 * L + 3) Runs.tick ?_ (by omega)
  rcases List.eq_nil_or_concat l with rfl | ⟨A, y, rfl⟩
  · rw [if_neg (by simp), if_neg (by simp)]
    exact (Runs.ret _).mono (by omega)
  · simp only [List.concat_eq_append] at *
    have hy0 : y ≠ 0 := fun e => hi.zero_not_mem (by simp [e])
    have e : (A ++ [y]).getLastD 0 = y := by rw [getLastD_append A y [] 0 0]; rfl
    rw [e, if_pos hy0, if_pos hy0]
    exact insertAfterT_runs (A := A) (B := []) (rec := rec) hi hnew hnew0 hlen hfuel (by omega) hL

/-! ### Search -/

theorem searchLoopT_runs {h : AvlHeap} {c : ℕ → ℤ} (t : ATree) : ∀ {par p fuel : ℕ}, Rep h par p t → p ≠ 0 → t.height ≤ fuel →
    ∃ r, avlSearchLoop h c fuel p = some r ∧ Runs (avlSearchLoopT h c fuel p) r t.height ∧ r.1 ∈ t.ids := by
  induction t with
  | nil => intro par p fuel hr hp; exact absurd hr hp
  | node l i r ihl ihr =>
    intro par p fuel hr hp hf
    obtain ⟨rfl, h0, _, _, hl, hrr⟩ := hr
    obtain ⟨fuel, rfl⟩ : ∃ k, fuel = k + 1 := ⟨fuel - 1, by simp [height] at hf; omega⟩
    simp only [height] at hf
    rw [avlSearchLoop, avlSearchLoopT]
    have fin : ∀ (m : Tm (ℕ × ℤ)) (r' : ℕ × ℤ), Runs m r' (max l.height r.height) → Runs (tick >>= fun _ => m) r' (ATree.node l p r).height :=
      fun m r' hm => Runs.bind' (B1 := 1) Runs.tick hm (by simp only [height]; omega)
    rcases lt_trichotomy (c p) 0 with hc | hc | hc
    · simp only [if_pos hc]
      by_cases hl0 : h.left p = 0
      · rw [if_neg (by simpa using hl0), if_neg (by simpa using hl0)]
        exact ⟨_, rfl, fin _ _ ((Runs.ret _).mono (by omega)), by simp [ids]⟩
      · rw [if_pos hl0, if_pos hl0]
        obtain ⟨r', e, hr', hm⟩ := ihl (fuel := fuel) hl hl0 (by omega)
        exact ⟨r', e, fin _ _ (hr'.mono (by omega)), by simp [ids, hm]⟩
    · simp only [if_neg (show ¬ c p < 0 by omega), if_neg (show ¬ c p > 0 by omega)]
      exact ⟨_, rfl, fin _ _ ((Runs.ret _).mono (by omega)), by simp [ids]⟩
    · simp only [if_neg (show ¬ c p < 0 by omega), if_pos hc]
      by_cases hr0 : h.right p = 0
      · rw [if_neg (by simpa using hr0), if_neg (by simpa using hr0)]
        exact ⟨_, rfl, fin _ _ ((Runs.ret _).mono (by omega)), by simp [ids]⟩
      · rw [if_pos hr0, if_pos hr0]
        obtain ⟨r', e, hr', hm⟩ := ihr (fuel := fuel) hrr hr0 (by omega)
        exact ⟨r', e, fin _ _ (hr'.mono (by omega)), by simp [ids, hm]⟩

/-- The search ends after at most one step for each level of the tree, whatever the comparison function does. -/
theorem searchClosestT_runs {h : AvlHeap} {l : List ℕ} {fuel L : ℕ} (c : ℕ → ℤ) (hi : AvlInv h l) (hf : l.length ≤ fuel) (hL : l.length < 2 ^ L) :
    ∃ r, avlSearchClosest fuel h c = some r ∧ Runs (avlSearchClosestT fuel h c) r (2 * L + 1) ∧ (h.top ≠ 0 → r.1 ∈ l) := by
  obtain ⟨t, hr, hb, rfl, hd, hnd⟩ := hi
  unfold avlSearchClosest avlSearchClosestT
  by_cases htop : h.top = 0
  · rw [if_pos htop, if_pos htop]
    exact ⟨_, rfl, (Runs.ret _).mono (by omega), fun h => absurd htop h⟩
  · rw [if_neg htop, if_neg htop]
    obtain ⟨r, e, h1, h2⟩ := searchLoopT_runs (c := c) t hr htop ((height_le_length t).trans hf)
    exact ⟨r, e, h1.mono (bal_height_le hb hL), fun _ => h2⟩

theorem lt_two_pow_log (n : ℕ) : n < 2 ^ (Nat.log 2 n + 1) := Nat.lt_pow_succ_log_self (by omega) n

end Moo
