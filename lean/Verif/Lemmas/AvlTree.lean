import Verif.Spec.AvlTree
import Mathlib.Data.List.Nodup
import Mathlib.Tactic.Linarith
import Mathlib.Algebra.Order.Ring.Nat
import Mathlib.Tactic.Ring

/-!
# Trees represented by the heap of the AVL library
-/

set_option autoImplicit false

namespace Moo

namespace ATree

/-- The root node, or `NULL`. -/
def root : ATree → ℕ
  | nil => 0
  | node _ i _ => i

theorem height_le_of_bal (t : ATree) (h : t.Bal) : 2 ^ (t.height / 2) ≤ t.ids.length + 1 := by
  induction t with
  | nil => simp [height]
  | node l i r ihl ihr =>
    obtain ⟨hl, hr, h1, h2⟩ := h
    have hL := ihl hl
    have hR := ihr hr
    simp only [ids, List.length_append, List.length_cons, height]
    set H := max l.height r.height + 1 with hH
    by_cases h2' : H < 2
    · have : H / 2 = 0 := by omega
      rw [this]; simp
    · obtain ⟨m, hm⟩ : ∃ m, H / 2 = m + 1 := ⟨H / 2 - 1, by omega⟩
      have e1 : m ≤ l.height / 2 := by omega
      have e2 : m ≤ r.height / 2 := by omega
      have f1 : 2 ^ m ≤ 2 ^ (l.height / 2) := Nat.pow_le_pow_right (by omega) e1
      have f2 : 2 ^ m ≤ 2 ^ (r.height / 2) := Nat.pow_le_pow_right (by omega) e2
      rw [hm, pow_succ]
      omega

/-- `unsigned char` does not overflow: a balanced tree of a size that fits into memory has a height below 252. -/
theorem height_lt (t : ATree) (h : t.Bal) (hs : t.ids.length < 2 ^ 125) : t.height < 252 := by
  have h1 := height_le_of_bal t h
  by_contra hc
  have : 126 ≤ t.height / 2 := by omega
  have h2 : 2 ^ 126 ≤ 2 ^ (t.height / 2) := Nat.pow_le_pow_right (by omega) this
  have : (2 : ℕ) ^ 126 = 2 * 2 ^ 125 := by norm_num
  omega

end ATree

open ATree

theorem Rep.root {h : AvlHeap} {par p : ℕ} {t : ATree} (hr : Rep h par p t) : p = t.root := by
  cases t with
  | nil => exact hr
  | node l i r => exact hr.1

theorem Rep.nodeDepth {h : AvlHeap} {par p : ℕ} {t : ATree} (hr : Rep h par p t) : h.nodeDepth p = t.height := by
  cases t with
  | nil => obtain rfl : p = 0 := hr; rfl
  | node l i r =>
    obtain ⟨rfl, h0, _, hd, _⟩ := hr
    unfold AvlHeap.nodeDepth
    rw [if_pos h0, hd]

theorem Rep.zero_not_mem {h : AvlHeap} {par p : ℕ} {t : ATree} (hr : Rep h par p t) : 0 ∉ t.ids := by
  induction t generalizing par p with
  | nil => simp [ids]
  | node l i r ihl ihr =>
    obtain ⟨rfl, h0, _, _, h1, h2⟩ := hr
    simp only [ids, List.mem_append, List.mem_cons, not_or]
    exact ⟨ihl h1, fun e => h0 e.symm, ihr h2⟩

theorem root_mem (t : ATree) (h : t.root ≠ 0) : t.root ∈ t.ids := by
  cases t with
  | nil => exact absurd rfl h
  | node l i r => simp [ATree.root, ids]

/-- Representation is kept by changes elsewhere; the parent of the root may be replaced. -/
theorem Rep.congr {h h' : AvlHeap} {par par' p : ℕ} {t : ATree} (hr : Rep h par p t)
    (hnd : t.ids.Nodup)
    (hl : ∀ j ∈ t.ids, h'.left j = h.left j) (hri : ∀ j ∈ t.ids, h'.right j = h.right j)
    (hdp : ∀ j ∈ t.ids, h'.depth j = h.depth j) (hpa : ∀ j ∈ t.ids, j ≠ p → h'.parent j = h.parent j)
    (hroot : p ≠ 0 → h'.parent p = par') : Rep h' par' p t := by
  induction t generalizing par par' p with
  | nil => exact hr
  | node l i r ihl ihr =>
    obtain ⟨rfl, h0, hp, hd, h1, h2⟩ := hr
    simp only [ids, List.mem_append, List.mem_cons] at *
    rw [List.nodup_append] at hnd
    obtain ⟨n1, n2, n3⟩ := hnd
    rw [List.nodup_cons] at n2
    have e1 : ∀ j ∈ l.ids, j ≠ p := fun j hj => n3 j hj p (by simp)
    have e2 : ∀ j ∈ r.ids, j ≠ p := fun j hj e => n2.1 (e ▸ hj)
    refine ⟨rfl, h0, hroot h0, (hdp p (Or.inr (Or.inl rfl))).trans hd, ?_, ?_⟩
    · rw [hl p (Or.inr (Or.inl rfl))]
      refine ihl h1 n1 (fun j hj => hl j (Or.inl hj)) (fun j hj => hri j (Or.inl hj)) (fun j hj => hdp j (Or.inl hj))
        (fun j hj _ => hpa j (Or.inl hj) (e1 j hj)) ?_
      intro hne
      have hm : h.left p ∈ l.ids := by rw [h1.root]; exact root_mem l (by rw [← h1.root]; exact hne)
      rw [hpa _ (Or.inl hm) (e1 _ hm)]
      cases l with
      | nil => simp [ids] at hm
      | node a b c => obtain ⟨e, _, hq, _⟩ := h1; rw [e]; exact hq
    · rw [hri p (Or.inr (Or.inl rfl))]
      refine ihr h2 n2.2 (fun j hj => hl j (Or.inr (Or.inr hj))) (fun j hj => hri j (Or.inr (Or.inr hj)))
        (fun j hj => hdp j (Or.inr (Or.inr hj))) (fun j hj _ => hpa j (Or.inr (Or.inr hj)) (e2 j hj)) ?_
      intro hne
      have hm : h.right p ∈ r.ids := by rw [h2.root]; exact root_mem r (by rw [← h2.root]; exact hne)
      rw [hpa _ (Or.inr (Or.inr hm)) (e2 _ hm)]
      cases r with
      | nil => simp [ids] at hm
      | node a b c => obtain ⟨e, _, hq, _⟩ := h2; rw [e]; exact hq

theorem Rep.parent_root {h : AvlHeap} {par p : ℕ} {t : ATree} (hr : Rep h par p t) (hp : p ≠ 0) : h.parent p = par := by
  cases t with
  | nil => exact absurd hr hp
  | node l i r => obtain ⟨e, _, hq, _⟩ := hr; rw [e]; exact hq

/-- Representation is kept by changes elsewhere. -/
theorem Rep.congr' {h h' : AvlHeap} {par p : ℕ} {t : ATree} (hr : Rep h par p t)
    (hnd : t.ids.Nodup)
    (hl : ∀ j ∈ t.ids, h'.left j = h.left j) (hri : ∀ j ∈ t.ids, h'.right j = h.right j)
    (hdp : ∀ j ∈ t.ids, h'.depth j = h.depth j) (hpa : ∀ j ∈ t.ids, h'.parent j = h.parent j) : Rep h' par p t := by
  refine hr.congr hnd hl hri hdp (fun j hj _ => hpa j hj) ?_
  intro hp
  have hm : p ∈ t.ids := by rw [hr.root]; exact root_mem t (by rw [← hr.root]; exact hp)
  rw [hpa p hm, hr.parent_root hp]

/-- A step of the path from a hole to the top: the hole is the left (or right) child of node `i`, whose other subtree is `s`. -/
structure Frame where
  isLeft : Bool
  i : ℕ
  s : ATree

/-- The tree with `t` in the hole. -/
def plug : List Frame → ATree → ATree
  | [], t => t
  | f :: c, t => plug c (if f.isLeft then .node t f.i f.s else .node f.s f.i t)

/-- All nodes of the path and of the subtrees beside it. -/
def ctxIds : List Frame → List ℕ
  | [] => []
  | f :: c => f.i :: (f.s.ids ++ ctxIds c)

/-- The path is represented; the hole holds pointer `p` and its parent is `par`. -/
def CtxRep (h : AvlHeap) : List Frame → ℕ → ℕ → Prop
  | [], par, p => par = 0 ∧ h.top = p
  | f :: c, par, p => par = f.i ∧ f.i ≠ 0 ∧
      (if f.isLeft then h.left f.i = p ∧ Rep h f.i (h.right f.i) f.s else h.right f.i = p ∧ Rep h f.i (h.left f.i) f.s) ∧
      CtxRep h c (h.parent f.i) f.i

/-- The tree with a subtree of height `k` in the hole is balanced along the path. -/
def CtxBal : List Frame → ℕ → Prop
  | [], _ => True
  | f :: c, k => f.s.Bal ∧ f.s.height ≤ k + 1 ∧ k ≤ f.s.height + 1 ∧ CtxBal c (max k f.s.height + 1)

/-- In-order sequence of the tree with sequence `l` in the hole. -/
def plugIds : List Frame → List ℕ → List ℕ
  | [], l => l
  | f :: c, l => plugIds c (if f.isLeft then l ++ f.i :: f.s.ids else f.s.ids ++ f.i :: l)

theorem ids_plug (c : List Frame) (t : ATree) : (plug c t).ids = plugIds c t.ids := by
  induction c generalizing t with
  | nil => rfl
  | cons f c ih =>
    rw [plug, ih, plugIds]
    split <;> rfl

theorem plugIds_perm (c : List Frame) (l : List ℕ) : (plugIds c l).Perm (ctxIds c ++ l) := by
  induction c generalizing l with
  | nil => exact List.Perm.refl _
  | cons f c ih =>
    rw [plugIds, ctxIds]
    refine (ih _).trans ?_
    have h1 : (f.i :: (f.s.ids ++ ctxIds c) ++ l).Perm (ctxIds c ++ (f.i :: (f.s.ids ++ l))) := by
      have : (f.i :: (f.s.ids ++ ctxIds c) ++ l) = (f.i :: f.s.ids) ++ (ctxIds c ++ l) := by simp
      rw [this]
      have : ctxIds c ++ (f.i :: (f.s.ids ++ l)) = ctxIds c ++ ((f.i :: f.s.ids) ++ l) := by simp
      rw [this, ← List.append_assoc, ← List.append_assoc]
      exact List.perm_append_comm.append_right l
    refine List.Perm.trans (List.Perm.append_left _ ?_) h1.symm
    split
    · refine (List.perm_middle).trans (List.Perm.cons _ List.perm_append_comm)
    · exact List.perm_middle

theorem plugIds_split (c : List Frame) : ∃ a b, ∀ l, plugIds c l = a ++ l ++ b := by
  induction c with
  | nil => exact ⟨[], [], fun l => by simp [plugIds]⟩
  | cons f c ih =>
    obtain ⟨a, b, h⟩ := ih
    by_cases hf : f.isLeft
    · exact ⟨a, f.i :: f.s.ids ++ b, fun l => by simp [plugIds, hf, h]⟩
    · exact ⟨a ++ f.s.ids ++ [f.i], b, fun l => by simp [plugIds, hf, h]⟩

/-- Splitting a tree at a node. -/
theorem exists_plug (t : ATree) (n : ℕ) (hn : n ∈ t.ids) (ctx : List Frame) :
    ∃ c l r, plug ctx t = plug (c ++ ctx) (.node l n r) := by
  induction t generalizing ctx with
  | nil => simp [ids] at hn
  | node l i r ihl ihr =>
    simp only [ids, List.mem_append, List.mem_cons] at hn
    rcases hn with hn | rfl | hn
    · obtain ⟨c, a, b, h⟩ := ihl hn (⟨true, i, r⟩ :: ctx)
      refine ⟨c ++ [⟨true, i, r⟩], a, b, ?_⟩
      rw [List.append_assoc, List.singleton_append, ← h]
      rfl
    · exact ⟨[], l, r, rfl⟩
    · obtain ⟨c, a, b, h⟩ := ihr hn (⟨false, i, l⟩ :: ctx)
      refine ⟨c ++ [⟨false, i, l⟩], a, b, ?_⟩
      rw [List.append_assoc, List.singleton_append, ← h]
      rfl

theorem exists_plug' (t : ATree) (n : ℕ) (hn : n ∈ t.ids) : ∃ c l r, t = plug c (.node l n r) := by
  obtain ⟨c, l, r, h⟩ := exists_plug t n hn []
  exact ⟨c, l, r, by simpa [plug] using h⟩

/-- Splitting the representation of a tree. -/
theorem rep_plug {h : AvlHeap} (c : List Frame) (t : ATree) (hr : Rep h 0 h.top (plug c t)) :
    ∃ par p, Rep h par p t ∧ CtxRep h c par p := by
  induction c generalizing t with
  | nil => exact ⟨0, h.top, hr, rfl, rfl⟩
  | cons f c ih =>
    obtain ⟨par, p, h1, h2⟩ := ih _ hr
    by_cases hf : f.isLeft
    · rw [if_pos hf] at h1
      obtain ⟨rfl, h0, hp, hd, hl, hrr⟩ := h1
      refine ⟨f.i, h.left f.i, hl, rfl, h0, ?_, ?_⟩
      · rw [if_pos hf]; exact ⟨rfl, hrr⟩
      · rw [hp]; exact h2
    · rw [if_neg hf] at h1
      obtain ⟨rfl, h0, hp, hd, hl, hrr⟩ := h1
      refine ⟨f.i, h.right f.i, hrr, rfl, h0, ?_, ?_⟩
      · rw [if_neg hf]; exact ⟨rfl, hl⟩
      · rw [hp]; exact h2

theorem bal_plug (c : List Frame) (t : ATree) (hb : (plug c t).Bal) : t.Bal ∧ CtxBal c t.height := by
  induction c generalizing t with
  | nil => exact ⟨hb, trivial⟩
  | cons f c ih =>
    obtain ⟨h1, h2⟩ := ih _ hb
    by_cases hf : f.isLeft
    · rw [if_pos hf] at h1 h2
      obtain ⟨a, b, c1, c2⟩ := h1
      exact ⟨a, b, c2, c1, h2⟩
    · rw [if_neg hf] at h1 h2
      obtain ⟨a, b, c1, c2⟩ := h1
      refine ⟨b, a, c1, c2, ?_⟩
      rw [Nat.max_comm]; exact h2

theorem ctxRep_congr {h h' : AvlHeap} (c : List Frame) (par p : ℕ) (hc : CtxRep h c par p) (hnd : (ctxIds c).Nodup)
    (htop : h'.top = h.top)
    (hl : ∀ j ∈ ctxIds c, h'.left j = h.left j) (hri : ∀ j ∈ ctxIds c, h'.right j = h.right j)
    (hdp : ∀ j ∈ ctxIds c, h'.depth j = h.depth j) (hpa : ∀ j ∈ ctxIds c, h'.parent j = h.parent j) : CtxRep h' c par p := by
  induction c generalizing par p with
  | nil => exact ⟨hc.1, by rw [htop]; exact hc.2⟩
  | cons f c ih =>
    obtain ⟨h1, h0, h2, h3⟩ := hc
    simp only [ctxIds, List.mem_cons, List.mem_append] at *
    rw [List.nodup_cons, List.nodup_append] at hnd
    refine ⟨h1, h0, ?_, ?_⟩
    · split at h2
      · rw [if_pos (by assumption), hl _ (Or.inl rfl), hri _ (Or.inl rfl)]
        exact ⟨h2.1, h2.2.congr' hnd.2.1 (fun j hj => hl j (by tauto)) (fun j hj => hri j (by tauto))
          (fun j hj => hdp j (by tauto)) (fun j hj => hpa j (by tauto))⟩
      · rw [if_neg (by assumption), hl _ (Or.inl rfl), hri _ (Or.inl rfl)]
        exact ⟨h2.1, h2.2.congr' hnd.2.1 (fun j hj => hl j (by tauto)) (fun j hj => hri j (by tauto))
          (fun j hj => hdp j (by tauto)) (fun j hj => hpa j (by tauto))⟩
    · rw [hpa _ (Or.inl rfl)]
      exact ih _ _ h3 hnd.2.2.1 (fun j hj => hl j (by tauto)) (fun j hj => hri j (by tauto))
        (fun j hj => hdp j (by tauto)) (fun j hj => hpa j (by tauto))

/-- The node that holds the field `superparent` points to. -/
def AvlSuper.node : AvlSuper → ℕ
  | .top => 0
  | .left p => p
  | .right p => p

@[simp] theorem setSuper_parent (h : AvlHeap) (s : AvlSuper) (v : ℕ) : (h.setSuper s v).parent = h.parent := by cases s <;> rfl
@[simp] theorem setSuper_depth (h : AvlHeap) (s : AvlSuper) (v : ℕ) : (h.setSuper s v).depth = h.depth := by cases s <;> rfl
@[simp] theorem setSuper_next (h : AvlHeap) (s : AvlSuper) (v : ℕ) : (h.setSuper s v).next = h.next := by cases s <;> rfl
@[simp] theorem setSuper_prev (h : AvlHeap) (s : AvlSuper) (v : ℕ) : (h.setSuper s v).prev = h.prev := by cases s <;> rfl
@[simp] theorem setSuper_head (h : AvlHeap) (s : AvlSuper) (v : ℕ) : (h.setSuper s v).head = h.head := by cases s <;> rfl
@[simp] theorem setSuper_tail (h : AvlHeap) (s : AvlSuper) (v : ℕ) : (h.setSuper s v).tail = h.tail := by cases s <;> rfl

/-- Left fields after `*superparent = v`. -/
def superLeft (s : AvlSuper) (v : ℕ) (f : ℕ → ℕ) : ℕ → ℕ := match s with | .left p => upd f p v | _ => f
/-- Right fields after `*superparent = v`. -/
def superRight (s : AvlSuper) (v : ℕ) (f : ℕ → ℕ) : ℕ → ℕ := match s with | .right p => upd f p v | _ => f
/-- Top after `*superparent = v`. -/
def superTop (s : AvlSuper) (v : ℕ) (t : ℕ) : ℕ := match s with | .top => v | _ => t

@[simp] theorem setSuper_left (h : AvlHeap) (s : AvlSuper) (v : ℕ) : (h.setSuper s v).left = superLeft s v h.left := by cases s <;> rfl
@[simp] theorem setSuper_right (h : AvlHeap) (s : AvlSuper) (v : ℕ) : (h.setSuper s v).right = superRight s v h.right := by cases s <;> rfl
@[simp] theorem setSuper_top (h : AvlHeap) (s : AvlSuper) (v : ℕ) : (h.setSuper s v).top = superTop s v h.top := by cases s <;> rfl

theorem superLeft_ne (s : AvlSuper) (v : ℕ) (f : ℕ → ℕ) (j : ℕ) (hj : j ≠ s.node) : superLeft s v f j = f j := by
  cases s with
  | top => rfl
  | left p => exact upd_ne _ _ hj
  | right p => rfl

theorem superRight_ne (s : AvlSuper) (v : ℕ) (f : ℕ → ℕ) (j : ℕ) (hj : j ≠ s.node) : superRight s v f j = f j := by
  cases s with
  | top => rfl
  | right p => exact upd_ne _ _ hj
  | left p => rfl

theorem superLeft_congr (s : AvlSuper) (v : ℕ) (f g : ℕ → ℕ) (j : ℕ) (hj : f j = g j) : superLeft s v f j = superLeft s v g j := by
  cases s with
  | top => exact hj
  | left p => simp only [superLeft, upd]; split <;> simp [hj]
  | right p => exact hj

theorem superRight_congr (s : AvlSuper) (v : ℕ) (f g : ℕ → ℕ) (j : ℕ) (hj : f j = g j) : superRight s v f j = superRight s v g j := by
  cases s with
  | top => exact hj
  | right p => simp only [superRight, upd]; split <;> simp [hj]
  | left p => exact hj

theorem ctxRep_par {h : AvlHeap} {c : List Frame} {par p : ℕ} (hc : CtxRep h c par p) : par = 0 ∨ par ∈ ctxIds c := by
  cases c with
  | nil => exact Or.inl hc.1
  | cons f c => right; rw [hc.1]; simp [ctxIds]

theorem ctxRep_zero {h : AvlHeap} {c : List Frame} {par p : ℕ} (hc : CtxRep h c par p) : 0 ∉ ctxIds c := by
  induction c generalizing par p with
  | nil => simp [ctxIds]
  | cons f c ih =>
    obtain ⟨_, h0, h2, h3⟩ := hc
    simp only [ctxIds, List.mem_cons, List.mem_append, not_or]
    refine ⟨fun e => h0 e.symm, ?_, ih h3⟩
    split at h2
    · exact h2.2.zero_not_mem
    · exact h2.2.zero_not_mem

theorem avlSuper_node (h : AvlHeap) (n par : ℕ) : (avlSuper h n par).node = par := by
  unfold avlSuper
  split
  · split <;> rfl
  · simp only [AvlSuper.node]; omega

/-- Filling the hole with another pointer. -/
theorem ctxRep_setSuper {h : AvlHeap} (c : List Frame) (par p v : ℕ) (hc : CtxRep h c par p) (hnd : (ctxIds c).Nodup)
    (hp : p ≠ 0) (hpc : p ∉ ctxIds c) : CtxRep (h.setSuper (avlSuper h p par) v) c par v := by
  cases c with
  | nil =>
    obtain ⟨rfl, h1⟩ := hc
    exact ⟨rfl, rfl⟩
  | cons f c =>
    obtain ⟨rfl, h0, h2, h3⟩ := hc
    have hnd' := hnd
    simp only [ctxIds, List.mem_cons, List.mem_append, List.nodup_cons, List.nodup_append, not_or] at hnd hpc
    have h4 : CtxRep (h.setSuper (avlSuper h p f.i) v) c (h.parent f.i) f.i := by
      refine ctxRep_congr c _ _ h3 hnd.2.2.1 ?_ ?_ ?_ ?_ ?_
      · rw [setSuper_top]; unfold avlSuper; rw [if_pos h0]; split <;> rfl
      · intro j hj
        rw [setSuper_left, superLeft_ne]
        rw [avlSuper_node]; intro e; exact hnd.1.2 (e ▸ hj)
      · intro j hj
        rw [setSuper_right, superRight_ne]
        rw [avlSuper_node]; intro e; exact hnd.1.2 (e ▸ hj)
      · intro j _; rw [setSuper_depth]
      · intro j _; rw [setSuper_parent]
    have hs : ∀ q, Rep h f.i q f.s → Rep (h.setSuper (avlSuper h p f.i) v) f.i q f.s := by
      intro q hq
      refine hq.congr' hnd.2.1 ?_ ?_ ?_ ?_
      · intro j hj
        rw [setSuper_left, superLeft_ne]
        rw [avlSuper_node]; intro e; exact hnd.1.1 (e ▸ hj)
      · intro j hj
        rw [setSuper_right, superRight_ne]
        rw [avlSuper_node]; intro e; exact hnd.1.1 (e ▸ hj)
      · intro j _; rw [setSuper_depth]
      · intro j _; rw [setSuper_parent]
    refine ⟨rfl, h0, ?_, by rw [setSuper_parent]; exact h4⟩
    by_cases hf : f.isLeft
    · rw [if_pos hf] at h2 ⊢
      have hsup : avlSuper h p f.i = .left f.i := by unfold avlSuper; rw [if_pos h0, if_pos h2.1.symm]
      refine ⟨by rw [setSuper_left, hsup]; simp [superLeft], ?_⟩
      have : (h.setSuper (avlSuper h p f.i) v).right f.i = h.right f.i := by rw [setSuper_right, hsup]; rfl
      rw [this]; exact hs _ h2.2
    · rw [if_neg hf] at h2 ⊢
      have hne : p ≠ h.left f.i := by
        intro e
        apply hpc.2.1
        rw [e, h2.2.root]
        apply root_mem
        rw [← h2.2.root, ← e]; exact hp
      have hsup : avlSuper h p f.i = .right f.i := by unfold avlSuper; rw [if_pos h0, if_neg hne]
      refine ⟨by rw [setSuper_right, hsup]; simp [superRight], ?_⟩
      have : (h.setSuper (avlSuper h p f.i) v).left f.i = h.left f.i := by rw [setSuper_left, hsup]; rfl
      rw [this]; exact hs _ h2.2

end Moo
