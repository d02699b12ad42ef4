import Verif.Lemmas.AvlInsert

/-!
# Deletion from an AVL tree
-/

set_option autoImplicit false

namespace Moo

open ATree

/-- Prove a disjunction one of whose parts is a hypothesis. -/
syntax "ors" : tactic
macro_rules
  | `(tactic| ors) => `(tactic| first | assumption | rfl | (apply Or.inl; ors) | (apply Or.inr; ors))

theorem unlinkList_fields (h : AvlHeap) (x : ℕ) (hp : h.prev x ≠ x) :
    (avlUnlinkList h x).left = h.left ∧ (avlUnlinkList h x).right = h.right ∧ (avlUnlinkList h x).parent = h.parent ∧
    (avlUnlinkList h x).depth = h.depth ∧ (avlUnlinkList h x).top = h.top ∧
    (avlUnlinkList h x).next = updIf h.next (h.prev x) (h.next x) ∧ (avlUnlinkList h x).prev = updIf h.prev (h.next x) (h.prev x) ∧
    (avlUnlinkList h x).head = (if h.prev x ≠ 0 then h.head else h.next x) ∧
    (avlUnlinkList h x).tail = (if h.next x ≠ 0 then h.tail else h.prev x) := by
  unfold avlUnlinkList
  by_cases h1 : h.prev x = 0
  · by_cases h2 : h.next x = 0
    · simp [h1, h2, updIf]
    · simp [h1, h2, updIf, AvlHeap.setPrev]
  · by_cases h2 : h.next x = 0
    · simp [h1, h2, updIf, AvlHeap.setNext, upd_ne _ _ (Ne.symm hp)]
    · simp [h1, h2, updIf, AvlHeap.setPrev, AvlHeap.setNext, upd_ne _ _ (Ne.symm hp)]

theorem ctx_last {h : AvlHeap} {x : ℕ} {r : ATree} {c : List Frame} (d : List Frame) :
    ∀ {par p : ℕ}, CtxRep h (d ++ ⟨true, x, r⟩ :: c) par p → d ≠ [] → h.left x ∈ ctxIds d := by
  induction d with
  | nil => intro _ _ _ h; exact absurd rfl h
  | cons f d ih =>
    intro par p hc _
    obtain ⟨rfl, h0, h2, h3⟩ := hc
    by_cases hd : d = []
    · subst hd
      obtain ⟨_, _, h4, _⟩ := h3
      simp only [if_true] at h4
      rw [h4.1]; simp [ctxIds]
    · have := ih h3 hd
      simp [ctxIds, this]

/-- Replace the node `x` on the path by `s`. -/
theorem ctx_swap {h h2 : AvlHeap} {x s : ℕ} {r : ATree} {c : List Frame} (d : List Frame) :
    ∀ {par p : ℕ}, CtxRep h (d ++ ⟨true, x, r⟩ :: c) par p → (ctxIds d).Nodup →
    (∀ j ∈ ctxIds d, h2.left j = h.left j) → (∀ j ∈ ctxIds d, h2.right j = h.right j) → (∀ j ∈ ctxIds d, h2.depth j = h.depth j) →
    (∀ j ∈ ctxIds d, j ≠ h.left x → h2.parent j = h.parent j) → h2.parent (h.left x) = s →
    CtxRep h2 (⟨true, s, r⟩ :: c) s (h.left x) →
    CtxRep h2 (d ++ ⟨true, s, r⟩ :: c) (if d = [] then s else par) p := by
  induction d with
  | nil =>
    intro par p hc _ _ _ _ _ _ hb
    obtain ⟨_, _, h4, _⟩ := hc
    simp only [if_true] at h4
    simpa [h4.1] using hb
  | cons f d ih =>
    intro par p hc hnd hl hri hdp hpa hq hb
    obtain ⟨rfl, h0, h2', h3⟩ := hc
    have hnd' := hnd
    simp only [ctxIds, List.nodup_cons, List.nodup_append, List.mem_append, List.mem_cons, not_or] at hnd' hl hri hdp hpa
    have hqs : h.left x ∉ f.s.ids := by
      by_cases hd : d = []
      · subst hd
        obtain ⟨_, _, h4, _⟩ := h3
        simp only [if_true] at h4
        rw [h4.1]; exact hnd'.1.1
      · intro hm
        exact hnd'.2.2.2 _ hm _ (ctx_last d h3 hd) rfl
    have hs : ∀ q, Rep h f.i q f.s → Rep h2 f.i q f.s := by
      intro q hqr
      refine hqr.congr' hnd'.2.1 (fun j hj => hl j (by ors)) (fun j hj => hri j (by ors)) (fun j hj => hdp j (by ors)) ?_
      intro j hj
      exact hpa j (by ors) (fun e => hqs (e ▸ hj))
    rw [if_neg (by simp)]
    refine ⟨rfl, h0, ?_, ?_⟩
    · rw [hl _ (Or.inl rfl), hri _ (Or.inl rfl)]
      split at h2'
      · rw [if_pos (by assumption)]; exact ⟨h2'.1, hs _ h2'.2⟩
      · rw [if_neg (by assumption)]; exact ⟨h2'.1, hs _ h2'.2⟩
    · have := ih h3 hnd'.2.2.1 (fun j hj => hl j (by ors)) (fun j hj => hri j (by ors)) (fun j hj => hdp j (by ors))
        (fun j hj => hpa j (by ors)) hq hb
      have e : h2.parent f.i = if d = [] then s else h.parent f.i := by
        by_cases hd : d = []
        · rw [if_pos hd]
          subst hd
          obtain ⟨_, _, h4, _⟩ := h3
          simp only [if_true] at h4
          rw [← h4.1]; exact hq
        · rw [if_neg hd]
          refine hpa _ (Or.inl rfl) ?_
          intro e
          exact hnd'.1.2 (e ▸ ctx_last d h3 hd)
      show CtxRep h2 (d ++ ⟨true, s, r⟩ :: c) (h2.parent f.i) f.i
      rw [e]; exact this

/-- The tree part of the deletion: all that is needed to rebalance. -/
structure UnlinkRes (h h2 : AvlHeap) (bal : ℕ) (C D : List ℕ) : Prop where
  spec : ∃ (c : List Frame) (p k : ℕ) (t : ATree), CtxRep h2 c bal p ∧ Rep h2 bal p t ∧ t.Bal ∧ CtxBal c k ∧ t.height ≤ k + 1 ∧ k ≤ t.height + 1 ∧
    plugIds c t.ids = C ++ D
  next : h2.next = h.next
  prev : h2.prev = h.prev
  head : h2.head = h.head
  tail : h2.tail = h.tail

theorem unlink_one_child {h h2 : AvlHeap} {c : List Frame} {x par : ℕ} {t : ATree} {a b : List ℕ} {q : ℕ} {J : List ℕ}
    (hc : CtxRep h c par x) (hx0 : x ≠ 0) (ht : Rep h x q t) (hab : ∀ l, plugIds c l = a ++ l ++ b)
    (hnd : (ctxIds c ++ J).Nodup) (hxJ : x ∈ J) (hsub : ∀ j ∈ t.ids, j ∈ J) (htn : t.ids.Nodup)
    (hbal : t.Bal) (hcb : CtxBal c (t.height + 1))
    (eL : h2.left = superLeft (avlSuper h x par) q h.left) (eR : h2.right = superRight (avlSuper h x par) q h.right)
    (eT : h2.top = superTop (avlSuper h x par) q h.top)
    (eP : h2.parent = updIf h.parent q par) (eD : h2.depth = h.depth) (eN : h2.next = h.next) (ePr : h2.prev = h.prev)
    (eH : h2.head = h.head) (eTl : h2.tail = h.tail) :
    UnlinkRes h h2 par (a ++ t.ids) b := by
  have hz := ctxRep_zero hc
  rw [List.nodup_append] at hnd
  have hdis : ∀ j ∈ ctxIds c, j ∉ t.ids := fun j hj hm => hnd.2.2 j hj j (hsub j hm) rfl
  have hxc : x ∉ ctxIds c := fun hm => hnd.2.2 x hm x hxJ rfl
  have hsn : ∀ j ∈ t.ids, j ≠ (avlSuper h x par).node := by
    intro j hj e
    rw [avlSuper_node] at e
    rcases ctxRep_par hc with h0 | hm
    · exact ht.zero_not_mem (by rw [← h0, ← e]; exact hj)
    · exact hdis par hm (e ▸ hj)
  refine ⟨⟨c, q, t.height + 1, t, ?_, ?_, hbal, hcb, by omega, by omega, by rw [hab]⟩, eN, ePr, eH, eTl⟩
  · have h1 := ctxRep_setSuper c par x q hc hnd.1 hx0 hxc
    refine ctxRep_congr c _ _ h1 hnd.1 ?_ ?_ ?_ ?_ ?_
    · rw [setSuper_top]; exact eT
    · intro j _; rw [setSuper_left, eL]
    · intro j _; rw [setSuper_right, eR]
    · intro j _; rw [setSuper_depth, eD]
    · intro j hj; rw [setSuper_parent, eP, updIf_of_rep ht _ (hdis j hj)]
  · refine ht.congr htn ?_ ?_ ?_ ?_ ?_
    · intro j hj; rw [eL, superLeft_ne _ _ _ _ (hsn j hj)]
    · intro j hj; rw [eR, superRight_ne _ _ _ _ (hsn j hj)]
    · intro j _; rw [eD]
    · intro j _ hne; rw [eP, updIf_ne _ _ hne]
    · intro h0; rw [eP, updIf_same _ _ h0]

/-- Two children, the predecessor is the left child. -/
theorem unlink_subst_left {h h2 : AvlHeap} {c : List Frame} {x par s : ℕ} {la r : ATree} {a b : List ℕ}
    (hc : CtxRep h c par x) (hx0 : x ≠ 0) (hl : Rep h x (h.left x) (.node la s nil)) (hr : Rep h x (h.right x) r)
    (hr0 : h.right x ≠ 0)
    (hab : ∀ l, plugIds c l = a ++ l ++ b) (hnd : (ctxIds c ++ ((la.ids ++ [s]) ++ x :: r.ids)).Nodup)
    (bl : (ATree.node la s nil).Bal) (br : r.Bal) (k1 : (ATree.node la s nil).height ≤ r.height + 1) (k2 : r.height ≤ (ATree.node la s nil).height + 1)
    (hcb : CtxBal c (max (ATree.node la s nil).height r.height + 1))
    (eL : h2.left = superLeft (avlSuper h x par) s h.left) (eR : h2.right = superRight (avlSuper h x par) s (upd h.right s (h.right x)))
    (eT : h2.top = superTop (avlSuper h x par) s h.top)
    (eP : h2.parent = upd (upd h.parent s par) (h.right x) s) (eD : h2.depth = h.depth) (eN : h2.next = h.next) (ePr : h2.prev = h.prev)
    (eH : h2.head = h.head) (eTl : h2.tail = h.tail) :
    UnlinkRes h h2 s (a ++ (la.ids ++ [s])) (r.ids ++ b) := by
  have hz := ctxRep_zero hc
  obtain ⟨hls, hs0, hsp, hsd, hla, _⟩ := hl
  rw [List.nodup_append] at hnd
  have hdis : ∀ j ∈ ctxIds c, j ∉ (la.ids ++ [s]) ++ x :: r.ids := fun j hj hm => hnd.2.2 j hj j hm rfl
  have hxc : x ∉ ctxIds c := fun hm => hdis x hm (by simp)
  have hsc : s ∉ ctxIds c := fun hm => hdis s hm (by simp)
  have hnd2 := hnd.2.1
  simp only [List.nodup_append, List.nodup_cons, List.mem_append, List.mem_cons, List.not_mem_nil, or_false] at hnd2
  obtain ⟨⟨nla, _, dls⟩, ⟨hxr, nr⟩, dr⟩ := hnd2
  have hsla : s ∉ la.ids := fun hm => dls s hm s rfl rfl
  have hsr : s ∉ r.ids := fun hm => dr s (Or.inr rfl) s (Or.inr hm) rfl
  have hlar : ∀ j ∈ la.ids, j ∉ r.ids := fun j hj hm => dr j (Or.inl hj) j (Or.inr hm) rfl
  have hrm : h.right x ∈ r.ids := by rw [hr.root]; exact root_mem r (by rw [← hr.root]; exact hr0)
  have hsn : ∀ j ∈ (la.ids ++ [s]) ++ x :: r.ids, j ≠ 0 → j ≠ (avlSuper h x par).node := by
    intro j hj hj0 e
    rw [avlSuper_node] at e
    rcases ctxRep_par hc with h0 | hm
    · exact hj0 (e.trans h0)
    · exact hdis par hm (e ▸ hj)
  have hrs : h.right x ≠ s := fun e => hsr (e ▸ hrm)
  refine ⟨⟨⟨true, s, r⟩ :: c, h.left s, (ATree.node la s nil).height, la, ⟨rfl, hs0, ?_, ?_⟩, ?_, bl.1, ⟨br, k2, k1, hcb⟩, ?_, ?_, ?_⟩, eN, ePr, eH, eTl⟩
  · simp only [if_true]
    refine ⟨by rw [eL, superLeft_ne _ _ _ _ (hsn s (by simp) hs0)], ?_⟩
    have : h2.right s = h.right x := by rw [eR, superRight_ne _ _ _ _ (hsn s (by simp) hs0), upd_same]
    rw [this]
    refine hr.congr nr ?_ ?_ ?_ ?_ ?_
    · intro j hj; rw [eL, superLeft_ne _ _ _ _ (hsn j (by simp [hj]) (fun e => hr.zero_not_mem (e ▸ hj)))]
    · intro j hj
      have hjs : j ≠ s := fun e => hsr (e ▸ hj)
      rw [eR, superRight_ne _ _ _ _ (hsn j (by simp [hj]) (fun e => hr.zero_not_mem (e ▸ hj))), upd_ne _ _ hjs]
    · intro j _; rw [eD]
    · intro j hj hne
      have hjs : j ≠ s := fun e => hsr (e ▸ hj)
      rw [eP, upd_ne _ _ hne, upd_ne _ _ hjs]
    · intro _; rw [eP, upd_same]
  · have hps : h2.parent s = par := by rw [eP, upd_ne _ _ (Ne.symm hrs), upd_same]
    show CtxRep h2 c (h2.parent s) s
    rw [hps]
    have h1 := ctxRep_setSuper c par x s hc hnd.1 hx0 hxc
    refine ctxRep_congr c _ _ h1 hnd.1 (by rw [setSuper_top]; exact eT) ?_ ?_ ?_ ?_
    · intro j _; rw [setSuper_left, eL]
    · intro j hj
      have hjs : j ≠ s := fun e => hsc (e ▸ hj)
      rw [setSuper_right, eR]
      exact superRight_congr _ _ _ _ _ (upd_ne _ _ hjs)
    · intro j _; rw [setSuper_depth, eD]
    · intro j hj
      have hjs : j ≠ s := fun e => hsc (e ▸ hj)
      have hjr : j ≠ h.right x := fun e => hdis j hj (by rw [e]; simp [hrm])
      rw [setSuper_parent, eP, upd_ne _ _ hjr, upd_ne _ _ hjs]
  · refine hla.congr' nla ?_ ?_ ?_ ?_
    · intro j hj; rw [eL, superLeft_ne _ _ _ _ (hsn j (by simp [hj]) (fun e => hla.zero_not_mem (e ▸ hj)))]
    · intro j hj
      have hjs : j ≠ s := fun e => hsla (e ▸ hj)
      rw [eR, superRight_ne _ _ _ _ (hsn j (by simp [hj]) (fun e => hla.zero_not_mem (e ▸ hj))), upd_ne _ _ hjs]
    · intro j _; rw [eD]
    · intro j hj
      have hjs : j ≠ s := fun e => hsla (e ▸ hj)
      have hjr : j ≠ h.right x := fun e => hlar j hj (e ▸ hrm)
      rw [eP, upd_ne _ _ hjr, upd_ne _ _ hjs]
  · simp only [height]; omega
  · simp only [height]; omega
  · rw [plugIds, hab]; simp

theorem ctxIds_append (c1 c2 : List Frame) : ctxIds (c1 ++ c2) = ctxIds c1 ++ ctxIds c2 := by
  induction c1 with
  | nil => rfl
  | cons f c ih => simp [ctxIds, ih]

theorem ctxBal_append (d : List Frame) (x : ℕ) (r : ATree) (c : List Frame) (s k : ℕ) :
    CtxBal (d ++ ⟨true, x, r⟩ :: c) k → CtxBal (d ++ ⟨true, s, r⟩ :: c) k := by
  induction d generalizing k with
  | nil => exact id
  | cons f d ih => rintro ⟨h1, h2, h3, h4⟩; exact ⟨h1, h2, h3, ih _ h4⟩

theorem plugIds_append (c1 c2 : List Frame) (l : List ℕ) : plugIds (c1 ++ c2) l = plugIds c2 (plugIds c1 l) := by
  induction c1 generalizing l with
  | nil => rfl
  | cons f c ih => exact ih _

/-- Two children, the predecessor is deeper in the left subtree. -/
theorem unlink_subst_deep {h h2 : AvlHeap} {c d : List Frame} {x par s m : ℕ} {la lm r : ATree} {a b : List ℕ}
    (hc : CtxRep h c par x) (hx0 : x ≠ 0)
    (hd : CtxRep h (⟨false, m, lm⟩ :: d ++ ⟨true, x, r⟩ :: c) m s) (hs : Rep h m s (.node la s nil))
    (hr0 : h.right x ≠ 0)
    (hab : ∀ l, plugIds c l = a ++ l ++ b)
    (hnd : (ctxIds (⟨false, m, lm⟩ :: d ++ ⟨true, x, r⟩ :: c) ++ (la.ids ++ [s])).Nodup)
    (bs : (ATree.node la s nil).Bal) (hcb : CtxBal (⟨false, m, lm⟩ :: d ++ ⟨true, x, r⟩ :: c) (ATree.node la s nil).height)
    (eL : h2.left = superLeft (avlSuper h x par) s (upd h.left s (h.left x)))
    (eR : h2.right = superRight (avlSuper h x par) s (upd (upd h.right m (h.left s)) s (h.right x)))
    (eT : h2.top = superTop (avlSuper h x par) s h.top)
    (eP : h2.parent = upd (upd (upd (updIf h.parent (h.left s) m) (h.left x) s) s par) (h.right x) s)
    (eD : h2.depth = h.depth) (eN : h2.next = h.next) (ePr : h2.prev = h.prev) (eH : h2.head = h.head) (eTl : h2.tail = h.tail) :
    UnlinkRes h h2 m (a ++ plugIds (⟨false, m, lm⟩ :: d) (la.ids ++ [s])) (r.ids ++ b) ∨ plugIds (⟨false, m, lm⟩ :: d) (la.ids ++ [s]) ≠ plugIds (⟨false, m, lm⟩ :: d) la.ids ++ [s] := by
  by_cases hlast : plugIds (⟨false, m, lm⟩ :: d) (la.ids ++ [s]) = plugIds (⟨false, m, lm⟩ :: d) la.ids ++ [s]
  swap
  · exact Or.inr hlast
  left
  obtain ⟨-, hs0, hsp, hsd, hla, _⟩ := hs
  have hz := ctxRep_zero hc
  have hm0 : m ≠ 0 := hd.2.1
  have hdm := hd.2.2.1
  simp only [Bool.false_eq_true, if_false] at hdm
  have hdt : CtxRep h (d ++ ⟨true, x, r⟩ :: c) (h.parent m) m := hd.2.2.2
  -- the frame of x
  have hxr : ∃ pp q, CtxRep h (⟨true, x, r⟩ :: c) pp q := by
    have : ∀ (e : List Frame) (pp q : ℕ), CtxRep h (e ++ ⟨true, x, r⟩ :: c) pp q → ∃ pp q, CtxRep h (⟨true, x, r⟩ :: c) pp q := by
      intro e
      induction e with
      | nil => exact fun pp q h => ⟨pp, q, h⟩
      | cons f e ih => exact fun pp q h => ih _ _ h.2.2.2
    exact this d _ _ hdt
  obtain ⟨_, _, _, _, hxf, _⟩ := hxr
  simp only [if_true] at hxf
  obtain ⟨_, hr⟩ := hxf
  -- disjointness
  rw [ctxIds_append, ctxIds, ctxIds] at hnd
  simp only [List.append_assoc, List.nodup_append, List.nodup_cons, List.mem_append, List.mem_cons, List.cons_append, not_or,
    List.not_mem_nil, or_false] at hnd
  obtain ⟨⟨hm_lm, hm_d, hm_x, hm_r, hm_c, hm_la, hm_s⟩, nlm, ⟨nd, ⟨⟨hx_r, hx_c, hx_la, hx_s⟩, nr, ⟨nc, ⟨nla, _, dla_s⟩, dc⟩, dr⟩, dd⟩, dlm⟩ := hnd
  have hsla : s ∉ la.ids := fun hm => dla_s s hm s rfl rfl
  have hsc : s ∉ ctxIds c := fun hm => dc s hm s (Or.inr rfl) rfl
  have hsr : s ∉ r.ids := fun hm => dr s hm s (Or.inr (Or.inr rfl)) rfl
  have hsd' : s ∉ ctxIds d := fun hm => dd s hm s (by ors) rfl
  have hslm : s ∉ lm.ids := fun hm => dlm s hm s (by ors) rfl
  have hrm : h.right x ∈ r.ids := by rw [hr.root]; exact root_mem r (by rw [← hr.root]; exact hr0)
  -- the root of the left subtree
  have hq : h.left x = m ∧ d = [] ∨ h.left x ∈ ctxIds d ∧ d ≠ [] := by
    by_cases hdn : d = []
    · subst hdn
      obtain ⟨_, _, h4, _⟩ := hdt
      simp only [if_true] at h4
      exact Or.inl ⟨h4.1, rfl⟩
    · exact Or.inr ⟨ctx_last d hdt hdn, hdn⟩
  have hql : ∀ j, j ≠ m → j ∉ ctxIds d → j ≠ h.left x := by
    intro j h1 h2 e
    rcases hq with ⟨e', _⟩ | ⟨e', _⟩
    · exact h1 (e.trans e')
    · exact h2 (e ▸ e')
  have hsn : ∀ j, j ≠ 0 → j ∉ ctxIds c → j ≠ (avlSuper h x par).node := by
    intro j hj0 hjc e
    rw [avlSuper_node] at e
    rcases ctxRep_par hc with h0 | hm
    · exact hj0 (e.trans h0)
    · exact hjc (e ▸ hm)
  have hz' := ctxRep_zero hd
  rw [ctxIds_append, ctxIds, ctxIds] at hz'
  simp only [List.mem_append, List.mem_cons, not_or, List.cons_append] at hz'
  have dn0 : ∀ j ∈ ctxIds d, j ≠ 0 := fun j hj e => hz'.2.1.2 (e ▸ hj)
  have hrs : h.right x ≠ s := fun e => hsr (e ▸ hrm)
  have hms : m ≠ s := hm_s
  -- fields of h2 away from the changed nodes
  have oL : ∀ j, j ≠ (avlSuper h x par).node → j ≠ s → h2.left j = h.left j := by
    intro j h1 h3; rw [eL, superLeft_ne _ _ _ _ h1, upd_ne _ _ h3]
  have oR : ∀ j, j ≠ (avlSuper h x par).node → j ≠ s → j ≠ m → h2.right j = h.right j := by
    intro j h1 h3 h4; rw [eR, superRight_ne _ _ _ _ h1, upd_ne _ _ h3, upd_ne _ _ h4]
  have oP : ∀ j, j ≠ h.right x → j ≠ s → j ≠ h.left x → j ∉ la.ids → h2.parent j = h.parent j := by
    intro j h1 h3 h4 h5; rw [eP, upd_ne _ _ h1, upd_ne _ _ h3, upd_ne _ _ h4, updIf_of_rep hla _ h5]
  have hps : h2.parent s = par := by rw [eP, upd_ne _ _ (Ne.symm hrs), upd_same]
  have hls : h2.left s = h.left x := by rw [eL, superLeft_ne _ _ _ _ (hsn s hs0 hsc), upd_same]
  have hrs2 : h2.right s = h.right x := by rw [eR, superRight_ne _ _ _ _ (hsn s hs0 hsc), upd_same]
  have hrm2 : h2.right m = h.left s := by
    rw [eR, superRight_ne _ _ _ _ (hsn m hm0 hm_c), upd_ne _ _ hms, upd_same]
  have hq2 : h2.parent (h.left x) = s := by
    have h1 : h.left x ≠ h.right x := by
      intro e
      rcases hq with ⟨e', _⟩ | ⟨e', _⟩
      · exact hm_r (e' ▸ e ▸ hrm)
      · exact dd _ e' _ (Or.inr (Or.inl (e ▸ hrm))) rfl
    have h3 : h.left x ≠ s := by
      intro e
      rcases hq with ⟨e', _⟩ | ⟨e', _⟩
      · exact hms (e'.symm.trans e)
      · exact hsd' (e ▸ e')
    rw [eP, upd_ne _ _ h1, upd_ne _ _ h3, upd_same]
  -- the frame of s
  have hcs : CtxRep h2 (⟨true, s, r⟩ :: c) s (h.left x) := by
    refine ⟨rfl, hs0, ?_, ?_⟩
    · simp only [if_true]
      refine ⟨hls, ?_⟩
      rw [hrs2]
      refine hr.congr nr ?_ ?_ ?_ ?_ ?_
      · intro j hj
        have hj0 : j ≠ 0 := fun e => hr.zero_not_mem (e ▸ hj)
        have hjs : j ≠ s := fun e => hsr (e ▸ hj)
        exact oL j (hsn j hj0 (fun hm => dr j hj j (Or.inl hm) rfl)) hjs
      · intro j hj
        have hj0 : j ≠ 0 := fun e => hr.zero_not_mem (e ▸ hj)
        have hjs : j ≠ s := fun e => hsr (e ▸ hj)
        have hjm : j ≠ m := fun e => hm_r (e ▸ hj)
        exact oR j (hsn j hj0 (fun hm => dr j hj j (Or.inl hm) rfl)) hjs hjm
      · intro j _; rw [eD]
      · intro j hj hne
        have hjs : j ≠ s := fun e => hsr (e ▸ hj)
        have hjm : j ≠ m := fun e => hm_r (e ▸ hj)
        exact oP j hne hjs (hql j hjm (fun hm => dd j hm j (by ors) rfl)) (fun hm => dr j hj j (by ors) rfl)
      · intro _; rw [eP, upd_same]
    · show CtxRep h2 c (h2.parent s) s
      rw [hps]
      have hxc : x ∉ ctxIds c := hx_c
      have h1 := ctxRep_setSuper c par x s hc nc hx0 hxc
      refine ctxRep_congr c _ _ h1 nc (by rw [setSuper_top]; exact eT) ?_ ?_ ?_ ?_
      · intro j hj
        have hjs : j ≠ s := fun e => hsc (e ▸ hj)
        rw [setSuper_left, eL]
        exact superLeft_congr _ _ _ _ _ (upd_ne _ _ hjs)
      · intro j hj
        have hjs : j ≠ s := fun e => hsc (e ▸ hj)
        have hjm : j ≠ m := fun e => hm_c (e ▸ hj)
        rw [setSuper_right, eR]
        exact superRight_congr _ _ _ _ _ (by rw [upd_ne _ _ hjs, upd_ne _ _ hjm])
      · intro j _; rw [setSuper_depth, eD]
      · intro j hj
        have hjs : j ≠ s := fun e => hsc (e ▸ hj)
        have hjm : j ≠ m := fun e => hm_c (e ▸ hj)
        have hjr : j ≠ h.right x := fun e => dr _ hrm j (Or.inl hj) e.symm
        rw [setSuper_parent]
        exact oP j hjr hjs (hql j hjm (fun hm => dd j hm j (by ors) rfl)) (fun hm => dc j hj j (by ors) rfl)
  -- the frames between m and s
  have hdd : CtxRep h2 (d ++ ⟨true, s, r⟩ :: c) (if d = [] then s else h.parent m) m := by
    refine ctx_swap d hdt nd ?_ ?_ ?_ ?_ hq2 hcs
    · intro j hj
      have hjs : j ≠ s := fun e => hsd' (e ▸ hj)
      exact oL j (hsn j (dn0 j hj) (fun hm => dd j hj j (by ors) rfl)) hjs
    · intro j hj
      have hjs : j ≠ s := fun e => hsd' (e ▸ hj)
      have hjm : j ≠ m := fun e => hm_d (e ▸ hj)
      exact oR j (hsn j (dn0 j hj) (fun hm => dd j hj j (by ors) rfl)) hjs hjm
    · intro j _; rw [eD]
    · intro j hj hne
      have hjs : j ≠ s := fun e => hsd' (e ▸ hj)
      have hjr : j ≠ h.right x := fun e => dd j hj _ (by rw [e]; ors) rfl
      exact oP j hjr hjs hne (fun hm => dd j hj j (by ors) rfl)
  have hpm : h2.parent m = if d = [] then s else h.parent m := by
    rcases hq with ⟨e, hdn⟩ | ⟨e, hdn⟩
    · rw [if_pos hdn, ← e]; exact hq2
    · rw [if_neg hdn]
      refine oP m (fun e' => hm_r (e' ▸ hrm)) hms (fun e' => hm_d (e' ▸ e)) hm_la
  have hlm0 : h2.left m = h.left m := oL m (hsn m hm0 hm_c) hms
  refine ⟨⟨⟨false, m, lm⟩ :: d ++ ⟨true, s, r⟩ :: c, h.left s, (ATree.node la s nil).height, la, ⟨rfl, hm0, ?_, ?_⟩, ?_, bs.1, ?_, ?_, ?_, ?_⟩, eN, ePr, eH, eTl⟩
  · simp only [Bool.false_eq_true, if_false]
    refine ⟨hrm2, ?_⟩
    rw [hlm0]
    refine hdm.2.congr' nlm ?_ ?_ ?_ ?_
    · intro j hj
      have hj0 : j ≠ 0 := fun e => hdm.2.zero_not_mem (e ▸ hj)
      have hjs : j ≠ s := fun e => hslm (e ▸ hj)
      exact oL j (hsn j hj0 (fun hm => dlm j hj j (by ors) rfl)) hjs
    · intro j hj
      have hj0 : j ≠ 0 := fun e => hdm.2.zero_not_mem (e ▸ hj)
      have hjs : j ≠ s := fun e => hslm (e ▸ hj)
      have hjm : j ≠ m := fun e => hm_lm (e ▸ hj)
      exact oR j (hsn j hj0 (fun hm => dlm j hj j (by ors) rfl)) hjs hjm
    · intro j _; rw [eD]
    · intro j hj
      have hjs : j ≠ s := fun e => hslm (e ▸ hj)
      have hjm : j ≠ m := fun e => hm_lm (e ▸ hj)
      have hjr : j ≠ h.right x := fun e => dlm j hj _ (by rw [e]; ors) rfl
      exact oP j hjr hjs (hql j hjm (fun hm => dlm j hj j (by ors) rfl)) (fun hm => dlm j hj j (by ors) rfl)
  · show CtxRep h2 (d ++ ⟨true, s, r⟩ :: c) (h2.parent m) m
    rw [hpm]; exact hdd
  · refine hla.congr nla ?_ ?_ ?_ ?_ ?_
    · intro j hj
      have hj0 : j ≠ 0 := fun e => hla.zero_not_mem (e ▸ hj)
      have hjs : j ≠ s := fun e => hsla (e ▸ hj)
      exact oL j (hsn j hj0 (fun hm => dc j hm j (by ors) rfl)) hjs
    · intro j hj
      have hj0 : j ≠ 0 := fun e => hla.zero_not_mem (e ▸ hj)
      have hjs : j ≠ s := fun e => hsla (e ▸ hj)
      have hjm : j ≠ m := fun e => hm_la (e ▸ hj)
      exact oR j (hsn j hj0 (fun hm => dc j hm j (by ors) rfl)) hjs hjm
    · intro j _; rw [eD]
    · intro j hj hne
      have hjs : j ≠ s := fun e => hsla (e ▸ hj)
      have hjm : j ≠ m := fun e => hm_la (e ▸ hj)
      have hjr : j ≠ h.right x := fun e => dr _ hrm j (by ors) e.symm
      rw [eP, upd_ne _ _ hjr, upd_ne _ _ hjs, upd_ne _ _ (hql j hjm (fun hm => dd j hm j (by ors) rfl)), updIf_ne _ _ hne]
    · intro h0
      have hm : h.left s ∈ la.ids := by rw [hla.root]; exact root_mem la (by rw [← hla.root]; exact h0)
      have hjs : h.left s ≠ s := fun e => hsla (e ▸ hm)
      have hjm : h.left s ≠ m := fun e => hm_la (e ▸ hm)
      have hjr : h.left s ≠ h.right x := fun e => dr _ hrm _ (Or.inr (Or.inl hm)) e.symm
      rw [eP, upd_ne _ _ hjr, upd_ne _ _ hjs, upd_ne _ _ (hql _ hjm (fun hm' => dd _ hm' _ (by ors) rfl)), updIf_same _ _ h0]
  · exact ctxBal_append (⟨false, m, lm⟩ :: d) x r c s _ hcb
  · simp only [height]; omega
  · simp only [height]; omega
  · rw [plugIds_append, plugIds, if_pos rfl, hab, hlast]; simp

end Moo
