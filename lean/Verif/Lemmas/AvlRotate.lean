import Verif.Lemmas.AvlTree

/-!
# The effect of the rotations of the AVL library
-/

set_option autoImplicit false

namespace Moo

open ATree

/-- `if(n) f[n] = v`. -/
def updIf (f : ℕ → ℕ) (n v : ℕ) : ℕ → ℕ := if n ≠ 0 then upd f n v else f

theorem updIf_ne (f : ℕ → ℕ) {n j : ℕ} (v : ℕ) (h : j ≠ n) : updIf f n v j = f j := by
  unfold updIf; split
  · exact upd_ne _ _ h
  · rfl

theorem updIf_same (f : ℕ → ℕ) {n : ℕ} (v : ℕ) (h : n ≠ 0) : updIf f n v n = v := by
  unfold updIf; rw [if_pos h, upd_same]

@[simp] theorem setParentIf_parent (h : AvlHeap) (n v : ℕ) : (h.setParentIf n v).parent = updIf h.parent n v := by
  unfold AvlHeap.setParentIf updIf; split <;> rfl
@[simp] theorem setParentIf_left (h : AvlHeap) (n v : ℕ) : (h.setParentIf n v).left = h.left := by
  unfold AvlHeap.setParentIf; split <;> rfl
@[simp] theorem setParentIf_right (h : AvlHeap) (n v : ℕ) : (h.setParentIf n v).right = h.right := by
  unfold AvlHeap.setParentIf; split <;> rfl
@[simp] theorem setParentIf_depth (h : AvlHeap) (n v : ℕ) : (h.setParentIf n v).depth = h.depth := by
  unfold AvlHeap.setParentIf; split <;> rfl
@[simp] theorem setParentIf_next (h : AvlHeap) (n v : ℕ) : (h.setParentIf n v).next = h.next := by
  unfold AvlHeap.setParentIf; split <;> rfl
@[simp] theorem setParentIf_prev (h : AvlHeap) (n v : ℕ) : (h.setParentIf n v).prev = h.prev := by
  unfold AvlHeap.setParentIf; split <;> rfl
@[simp] theorem setParentIf_top (h : AvlHeap) (n v : ℕ) : (h.setParentIf n v).top = h.top := by
  unfold AvlHeap.setParentIf; split <;> rfl
@[simp] theorem setParentIf_head (h : AvlHeap) (n v : ℕ) : (h.setParentIf n v).head = h.head := by
  unfold AvlHeap.setParentIf; split <;> rfl
@[simp] theorem setParentIf_tail (h : AvlHeap) (n v : ℕ) : (h.setParentIf n v).tail = h.tail := by
  unfold AvlHeap.setParentIf; split <;> rfl

@[simp] theorem setLeft_left (h : AvlHeap) (n v : ℕ) : (h.setLeft n v).left = upd h.left n v := rfl
@[simp] theorem setLeft_right (h : AvlHeap) (n v : ℕ) : (h.setLeft n v).right = h.right := rfl
@[simp] theorem setLeft_parent (h : AvlHeap) (n v : ℕ) : (h.setLeft n v).parent = h.parent := rfl
@[simp] theorem setLeft_depth (h : AvlHeap) (n v : ℕ) : (h.setLeft n v).depth = h.depth := rfl
@[simp] theorem setLeft_next (h : AvlHeap) (n v : ℕ) : (h.setLeft n v).next = h.next := rfl
@[simp] theorem setLeft_prev (h : AvlHeap) (n v : ℕ) : (h.setLeft n v).prev = h.prev := rfl
@[simp] theorem setLeft_top (h : AvlHeap) (n v : ℕ) : (h.setLeft n v).top = h.top := rfl
@[simp] theorem setLeft_head (h : AvlHeap) (n v : ℕ) : (h.setLeft n v).head = h.head := rfl
@[simp] theorem setLeft_tail (h : AvlHeap) (n v : ℕ) : (h.setLeft n v).tail = h.tail := rfl
@[simp] theorem setRight_left (h : AvlHeap) (n v : ℕ) : (h.setRight n v).left = h.left := rfl
@[simp] theorem setRight_right (h : AvlHeap) (n v : ℕ) : (h.setRight n v).right = upd h.right n v := rfl
@[simp] theorem setRight_parent (h : AvlHeap) (n v : ℕ) : (h.setRight n v).parent = h.parent := rfl
@[simp] theorem setRight_depth (h : AvlHeap) (n v : ℕ) : (h.setRight n v).depth = h.depth := rfl
@[simp] theorem setRight_next (h : AvlHeap) (n v : ℕ) : (h.setRight n v).next = h.next := rfl
@[simp] theorem setRight_prev (h : AvlHeap) (n v : ℕ) : (h.setRight n v).prev = h.prev := rfl
@[simp] theorem setRight_top (h : AvlHeap) (n v : ℕ) : (h.setRight n v).top = h.top := rfl
@[simp] theorem setRight_head (h : AvlHeap) (n v : ℕ) : (h.setRight n v).head = h.head := rfl
@[simp] theorem setRight_tail (h : AvlHeap) (n v : ℕ) : (h.setRight n v).tail = h.tail := rfl
@[simp] theorem setParent_left (h : AvlHeap) (n v : ℕ) : (h.setParent n v).left = h.left := rfl
@[simp] theorem setParent_right (h : AvlHeap) (n v : ℕ) : (h.setParent n v).right = h.right := rfl
@[simp] theorem setParent_parent (h : AvlHeap) (n v : ℕ) : (h.setParent n v).parent = upd h.parent n v := rfl
@[simp] theorem setParent_depth (h : AvlHeap) (n v : ℕ) : (h.setParent n v).depth = h.depth := rfl
@[simp] theorem setParent_next (h : AvlHeap) (n v : ℕ) : (h.setParent n v).next = h.next := rfl
@[simp] theorem setParent_prev (h : AvlHeap) (n v : ℕ) : (h.setParent n v).prev = h.prev := rfl
@[simp] theorem setParent_top (h : AvlHeap) (n v : ℕ) : (h.setParent n v).top = h.top := rfl
@[simp] theorem setParent_head (h : AvlHeap) (n v : ℕ) : (h.setParent n v).head = h.head := rfl
@[simp] theorem setParent_tail (h : AvlHeap) (n v : ℕ) : (h.setParent n v).tail = h.tail := rfl
@[simp] theorem fixDepth_left (h : AvlHeap) (n : ℕ) : (h.fixDepth n).left = h.left := rfl
@[simp] theorem fixDepth_right (h : AvlHeap) (n : ℕ) : (h.fixDepth n).right = h.right := rfl
@[simp] theorem fixDepth_parent (h : AvlHeap) (n : ℕ) : (h.fixDepth n).parent = h.parent := rfl
@[simp] theorem fixDepth_depth (h : AvlHeap) (n : ℕ) : (h.fixDepth n).depth = upd h.depth n (h.calcDepth n) := rfl
@[simp] theorem fixDepth_next (h : AvlHeap) (n : ℕ) : (h.fixDepth n).next = h.next := rfl
@[simp] theorem fixDepth_prev (h : AvlHeap) (n : ℕ) : (h.fixDepth n).prev = h.prev := rfl
@[simp] theorem fixDepth_top (h : AvlHeap) (n : ℕ) : (h.fixDepth n).top = h.top := rfl
@[simp] theorem fixDepth_head (h : AvlHeap) (n : ℕ) : (h.fixDepth n).head = h.head := rfl
@[simp] theorem fixDepth_tail (h : AvlHeap) (n : ℕ) : (h.fixDepth n).tail = h.tail := rfl

theorem calcDepth_eq (h : AvlHeap) (n a b : ℕ) (ha : h.nodeDepth (h.left n) = a) (hb : h.nodeDepth (h.right n) = b)
    (ha' : a < 255) (hb' : b < 255) : h.calcDepth n = max a b + 1 := by
  unfold AvlHeap.calcDepth AvlHeap.lDepth AvlHeap.rDepth
  rw [ha, hb]
  split
  · rw [Nat.mod_eq_of_lt (by omega), Nat.max_eq_left (by omega)]
  · rw [Nat.mod_eq_of_lt (by omega), Nat.max_eq_right (by omega)]

/-- The links of the list and the parts of the tree outside of the rotated subtree. -/
structure SameOutside (h h' : AvlHeap) (s : AvlSuper) (v : ℕ) (I : List ℕ) : Prop where
  left : ∀ j, j ∉ I → h'.left j = (h.setSuper s v).left j
  right : ∀ j, j ∉ I → h'.right j = (h.setSuper s v).right j
  parent : ∀ j, j ∉ I → j ≠ 0 → h'.parent j = h.parent j
  depth : ∀ j, j ∉ I → h'.depth j = h.depth j
  top : h'.top = (h.setSuper s v).top
  next : h'.next = h.next
  prev : h'.prev = h.prev
  head : h'.head = h.head
  tail : h'.tail = h.tail

theorem rotateRight_single {h : AvlHeap} {n p : ℕ} {s : AvlSuper} {a b r : ATree} {c : ℕ}
    (hl : Rep h n (h.left n) (.node a c b)) (hr : Rep h n (h.right n) r)
    (hnd : (a.ids ++ c :: b.ids ++ n :: r.ids).Nodup) (hn0 : n ≠ 0) (hs : s.node ∉ a.ids ++ c :: b.ids ++ n :: r.ids)
    (hab : b.height ≤ a.height) (ha : a.height < 253) (hb : b.height < 253) (hrh : r.height < 253) :
    Rep (avlRotateRight h n p s) p c (.node a c (.node b n r)) ∧
      SameOutside h (avlRotateRight h n p s) s c (a.ids ++ c :: b.ids ++ n :: r.ids) := by
  obtain ⟨hc, hc0, hcp, hcd, hla, hlb⟩ := hl
  have hdec : h.lDepth c ≥ h.rDepth c := by
    unfold AvlHeap.lDepth AvlHeap.rDepth; rw [hla.nodeDepth, hlb.nodeDepth]; exact hab
  simp only [List.nodup_append, List.nodup_cons, List.mem_append, List.mem_cons, not_or] at hnd hs
  obtain ⟨⟨na, ⟨hcb, nb⟩, dab⟩, ⟨hnr, nr⟩, dr⟩ := hnd
  obtain ⟨⟨hsa, hsc, hsb⟩, hsn, hsr⟩ := hs
  set q := h.right c with hq
  have hqb : q ≠ 0 → q ∈ b.ids := by
    intro h0; rw [hlb.root]; exact root_mem b (by rw [← hlb.root]; exact h0)
  set h' := avlRotateRight h n p s with hh'
  have hcn : c ≠ n := dr c (Or.inr (Or.inl rfl)) n (Or.inl rfl)
  -- explicit fields
  have E : h' = ((((((((h.setLeft n q).setParentIf q n).setRight c n).setParent n c).setSuper s c).setParent c p).fixDepth n).fixDepth c) := by
    rw [hh']
    unfold avlRotateRight
    simp only [hc, if_pos hdec, setLeft_left, upd_same, ← hq]
  have L : h'.left = superLeft s c (upd h.left n q) := by rw [E]; simp
  have R : h'.right = superRight s c (upd h.right c n) := by rw [E]; simp
  have P : h'.parent = upd (upd (updIf h.parent q n) n c) c p := by rw [E]; simp
  have hqn : q ≠ n := by
    by_cases h0 : q = 0
    · rw [h0]; exact fun e => hn0 e.symm
    · exact dr q (Or.inr (Or.inr (hqb h0))) n (Or.inl rfl)
  have hqc : q ≠ c := by
    by_cases h0 : q = 0
    · rw [h0]; exact fun e => hc0 e.symm
    · intro e; exact hcb (e ▸ hqb h0)
  -- depth of n
  set h1 := (((((h.setLeft n q).setParentIf q n).setRight c n).setParent n c).setSuper s c).setParent c p with hh1
  have hL1 : h1.left = superLeft s c (upd h.left n q) := by rw [hh1]; simp
  have hR1 : h1.right = superRight s c (upd h.right c n) := by rw [hh1]; simp
  have hD1 : h1.depth = h.depth := by rw [hh1]; simp
  have nd1 : ∀ x, h1.nodeDepth x = h.nodeDepth x := by intro x; unfold AvlHeap.nodeDepth; rw [hD1]
  have l1n : h1.left n = q := by rw [hL1, superLeft_ne _ _ _ _ (Ne.symm hsn), upd_same]
  have r1n : h1.right n = h.right n := by rw [hR1, superRight_ne _ _ _ _ (Ne.symm hsn), upd_ne _ _ (Ne.symm hcn)]
  have dn : h1.calcDepth n = max b.height r.height + 1 :=
    calcDepth_eq h1 n _ _ (by rw [l1n, nd1, hlb.nodeDepth]) (by rw [r1n, nd1, hr.nodeDepth]) (by omega) (by omega)
  have hD2 : (h1.fixDepth n).depth = upd h.depth n (max b.height r.height + 1) := by rw [fixDepth_depth, dn, hD1]
  have l1c : h1.left c = h.left c := by rw [hL1, superLeft_ne _ _ _ _ (Ne.symm hsc), upd_ne _ _ hcn]
  have r1c : h1.right c = n := by rw [hR1, superRight_ne _ _ _ _ (Ne.symm hsc), upd_same]
  have hlan : h.left c ≠ n := by
    by_cases h0 : h.left c = 0
    · rw [h0]; exact fun e => hn0 e.symm
    · have hm : h.left c ∈ a.ids := by rw [hla.root]; exact root_mem a (by rw [← hla.root]; exact h0)
      exact dr _ (Or.inl hm) n (Or.inl rfl)
  have dc : (h1.fixDepth n).calcDepth c = max a.height (max b.height r.height + 1) + 1 := by
    refine calcDepth_eq _ c _ _ ?_ ?_ (by omega) (by omega)
    · rw [fixDepth_left, l1c, ← hla.nodeDepth]
      unfold AvlHeap.nodeDepth
      rw [hD2, upd_ne _ _ hlan]
    · rw [fixDepth_right, r1c]
      unfold AvlHeap.nodeDepth
      rw [hD2, upd_same, if_pos hn0]
  have D : h'.depth = upd (upd h.depth n (max b.height r.height + 1)) c (max a.height (max b.height r.height + 1) + 1) := by
    rw [E, fixDepth_depth, dc, hD2]
  have hpar : ∀ j, j ≠ c → j ≠ n → (j = q → q = 0) → h'.parent j = updIf h.parent q n j := by
    intro j h1 h2 _
    rw [P, upd_ne _ _ h1, upd_ne _ _ h2]
  constructor
  · refine ⟨rfl, hc0, by rw [P, upd_same], by rw [D, upd_same]; rfl, ?_, ?_⟩
    · have : h'.left c = h.left c := by rw [E]; simpa using l1c
      rw [this]
      refine hla.congr' na ?_ ?_ ?_ ?_
      · intro j hj
        rw [L, superLeft_ne _ _ _ _ (fun e => hsa (e ▸ hj)), upd_ne _ _ (dr j (Or.inl hj) n (Or.inl rfl))]
      · intro j hj
        rw [R, superRight_ne _ _ _ _ (fun e => hsa (e ▸ hj)), upd_ne _ _ (dab j hj c (Or.inl rfl))]
      · intro j hj
        rw [D, upd_ne _ _ (dab j hj c (Or.inl rfl)), upd_ne _ _ (dr j (Or.inl hj) n (Or.inl rfl))]
      · intro j hj
        rw [P, upd_ne _ _ (dab j hj c (Or.inl rfl)), upd_ne _ _ (dr j (Or.inl hj) n (Or.inl rfl))]
        by_cases h0 : q = 0
        · unfold updIf; rw [if_neg (by simpa using h0)]
        · exact updIf_ne _ _ (dab j hj q (Or.inr (hqb h0)))
    · have : h'.right c = n := by rw [E]; simpa using r1c
      rw [this]
      refine ⟨rfl, hn0, by rw [P, upd_ne _ _ (Ne.symm hcn), upd_same], by rw [D, upd_ne _ _ (Ne.symm hcn), upd_same]; rfl, ?_, ?_⟩
      · have : h'.left n = q := by rw [E]; simpa using l1n
        rw [this]
        have hbc : ∀ j ∈ b.ids, j ≠ c := fun j hj e => hcb (e ▸ hj)
        refine hlb.congr nb ?_ ?_ ?_ ?_ ?_
        · intro j hj
          rw [L, superLeft_ne _ _ _ _ (fun e => hsb (e ▸ hj)), upd_ne _ _ (dr j (Or.inr (Or.inr hj)) n (Or.inl rfl))]
        · intro j hj
          rw [R, superRight_ne _ _ _ _ (fun e => hsb (e ▸ hj)), upd_ne _ _ (hbc j hj)]
        · intro j hj
          rw [D, upd_ne _ _ (hbc j hj), upd_ne _ _ (dr j (Or.inr (Or.inr hj)) n (Or.inl rfl))]
        · intro j hj hjq
          rw [P, upd_ne _ _ (hbc j hj), upd_ne _ _ (dr j (Or.inr (Or.inr hj)) n (Or.inl rfl)), updIf_ne _ _ hjq]
        · intro h0
          rw [P, upd_ne _ _ hqc, upd_ne _ _ hqn, updIf_same _ _ h0]
      · have : h'.right n = h.right n := by rw [E]; simpa using r1n
        rw [this]
        have hrn : ∀ j ∈ r.ids, j ≠ n := fun j hj e => hnr (e ▸ hj)
        have hrc : ∀ j ∈ r.ids, j ≠ c := fun j hj e => dr c (Or.inr (Or.inl rfl)) j (Or.inr hj) e.symm
        refine hr.congr' nr ?_ ?_ ?_ ?_
        · intro j hj
          rw [L, superLeft_ne _ _ _ _ (fun e => hsr (e ▸ hj)), upd_ne _ _ (hrn j hj)]
        · intro j hj
          rw [R, superRight_ne _ _ _ _ (fun e => hsr (e ▸ hj)), upd_ne _ _ (hrc j hj)]
        · intro j hj
          rw [D, upd_ne _ _ (hrc j hj), upd_ne _ _ (hrn j hj)]
        · intro j hj
          rw [P, upd_ne _ _ (hrc j hj), upd_ne _ _ (hrn j hj)]
          by_cases h0 : q = 0
          · unfold updIf; rw [if_neg (by simpa using h0)]
          · exact updIf_ne _ _ (fun e => dr q (Or.inr (Or.inr (hqb h0))) j (Or.inr hj) e.symm)
  · have hout : ∀ j, j ∉ a.ids ++ c :: b.ids ++ n :: r.ids → j ≠ c ∧ j ≠ n ∧ j ∉ b.ids := by
      intro j hj
      simp only [List.mem_append, List.mem_cons, not_or] at hj
      exact ⟨hj.1.2.1, hj.2.1, hj.1.2.2⟩
    constructor
    · intro j hj
      rw [L, setSuper_left]
      exact superLeft_congr _ _ _ _ _ (upd_ne _ _ (hout j hj).2.1)
    · intro j hj
      rw [R, setSuper_right]
      exact superRight_congr _ _ _ _ _ (upd_ne _ _ (hout j hj).1)
    · intro j hj h0
      rw [P, upd_ne _ _ (hout j hj).1, upd_ne _ _ (hout j hj).2.1]
      by_cases hq0 : q = 0
      · unfold updIf; rw [if_neg (by simpa using hq0)]
      · exact updIf_ne _ _ (fun e => (hout j hj).2.2 (e ▸ hqb hq0))
    · intro j hj
      rw [D, upd_ne _ _ (hout j hj).1, upd_ne _ _ (hout j hj).2.1]
    · rw [E, hh1]; simp
    · rw [E, hh1]; simp
    · rw [E, hh1]; simp
    · rw [E, hh1]; simp
    · rw [E, hh1]; simp

/-- The root of a subtree is `NULL` or a node of it. -/
theorem Rep.ptr_ne {h : AvlHeap} {par p x : ℕ} {t : ATree} (hr : Rep h par p t) (hx : x ∉ t.ids) (h0 : x ≠ 0) : p ≠ x := by
  intro e
  subst e
  exact hx (by rw [hr.root]; exact root_mem t (by rw [← hr.root]; exact h0))

theorem updIf_of_rep {h : AvlHeap} {par p v j : ℕ} {t : ATree} (hr : Rep h par p t) (f : ℕ → ℕ) (hj : j ∉ t.ids) : updIf f p v j = f j := by
  by_cases h0 : p = 0
  · unfold updIf; rw [if_neg (by simpa using h0)]
  · exact updIf_ne _ _ (fun e => hj (by rw [e, hr.root]; exact root_mem t (by rw [← hr.root]; exact h0)))

theorem rotateRight_double {h : AvlHeap} {n p : ℕ} {s : AvlSuper} {a e f r : ATree} {c g : ℕ}
    (hl : Rep h n (h.left n) (.node a c (.node e g f))) (hr : Rep h n (h.right n) r)
    (hnd : (a.ids ++ c :: (e.ids ++ g :: f.ids) ++ n :: r.ids).Nodup) (hn0 : n ≠ 0)
    (hs : s.node ∉ a.ids ++ c :: (e.ids ++ g :: f.ids) ++ n :: r.ids)
    (hab : a.height < (ATree.node e g f).height) (ha : a.height < 253) (he : e.height < 253) (hf : f.height < 253)
    (hrh : r.height < 253) :
    Rep (avlRotateRight h n p s) p g (.node (.node a c e) g (.node f n r)) ∧
      SameOutside h (avlRotateRight h n p s) s g (a.ids ++ c :: (e.ids ++ g :: f.ids) ++ n :: r.ids) := by
  obtain ⟨hc, hc0, hcp, hcd, hla, hlb⟩ := hl
  have hdec : ¬ h.lDepth c ≥ h.rDepth c := by
    unfold AvlHeap.lDepth AvlHeap.rDepth; rw [hla.nodeDepth, hlb.nodeDepth]; omega
  obtain ⟨hg, hg0, hgp, hgd, hle, hlf⟩ := hlb
  simp only [List.nodup_append, List.nodup_cons, List.mem_append, List.mem_cons, not_or] at hnd hs
  obtain ⟨⟨na, ⟨hcb, ne, ⟨hgf, nf⟩, def'⟩, dab⟩, ⟨hnr, nr⟩, dr⟩ := hnd
  obtain ⟨⟨hsa, hsc, hse, hsg, hsf⟩, hsn, hsr⟩ := hs
  have hcn : c ≠ n := dr c (by simp) n (by simp)
  have hgn : g ≠ n := dr g (by simp) n (by simp)
  have hcg : c ≠ g := hcb.2.1
  have hca : c ∉ a.ids := fun hm => dab c hm c (by simp) rfl
  have hna : n ∉ a.ids := fun hm => dr n (by simp [hm]) n (by simp) rfl
  have hga : g ∉ a.ids := fun hm => dab g hm g (by simp) rfl
  have hce : c ∉ e.ids := hcb.1
  have hge : g ∉ e.ids := fun hm => def' g hm g (by simp) rfl
  have hne : n ∉ e.ids := fun hm => dr n (by simp [hm]) n (by simp) rfl
  have hcf : c ∉ f.ids := hcb.2.2
  have hnf : n ∉ f.ids := fun hm => dr n (by simp [hm]) n (by simp) rfl
  have hcr : c ∉ r.ids := fun hm => dr c (by simp) c (by simp [hm]) rfl
  have hgr : g ∉ r.ids := fun hm => dr g (by simp) g (by simp [hm]) rfl
  have dae : ∀ j ∈ a.ids, j ∉ e.ids := fun j hj hm => dab j hj j (by simp [hm]) rfl
  have daf : ∀ j ∈ a.ids, j ∉ f.ids := fun j hj hm => dab j hj j (by simp [hm]) rfl
  have dfe : ∀ j ∈ f.ids, j ∉ e.ids := fun j hj hm => def' j hm j (by simp [hj]) rfl
  have dre : ∀ j ∈ r.ids, j ∉ e.ids := fun j hj hm => dr j (by simp [hm]) j (by simp [hj]) rfl
  have drf : ∀ j ∈ r.ids, j ∉ f.ids := fun j hj hm => dr j (by simp [hm]) j (by simp [hj]) rfl
  have neq : ∀ (t : ATree) (x : ℕ), x ∉ t.ids → ∀ j ∈ t.ids, j ≠ x := fun t x hx j hj e => hx (e ▸ hj)
  set qe := h.left g with hqe
  set qf := h.right g with hqf
  set h' := avlRotateRight h n p s with hh'
  have gn := Ne.symm hgn
  have E : h' = (((((((((((((h.setLeft n qf).setParentIf qf n).setRight c qe).setParentIf qe c).setRight g n).setParentIf n g).setLeft g c).setParentIf c g).setSuper s g).setParent g p).fixDepth n).fixDepth c).fixDepth g) := by
    rw [hh']
    unfold avlRotateRight
    simp only [hc, if_neg hdec, hg, setLeft_left, setLeft_right, setParentIf_left, setParentIf_right, setRight_left, setRight_right, upd_same, upd_ne _ _ hgn, ← hqe, ← hqf]
  set h1 := (((((((((h.setLeft n qf).setParentIf qf n).setRight c qe).setParentIf qe c).setRight g n).setParentIf n g).setLeft g c).setParentIf c g).setSuper s g).setParent g p with hh1
  have L1 : h1.left = superLeft s g (upd (upd h.left n qf) g c) := by rw [hh1]; simp
  have R1 : h1.right = superRight s g (upd (upd h.right c qe) g n) := by rw [hh1]; simp
  have P1 : h1.parent = upd (updIf (updIf (updIf (updIf h.parent qf n) qe c) n g) c g) g p := by rw [hh1]; simp
  have D1 : h1.depth = h.depth := by rw [hh1]; simp
  have nd1 : ∀ x, h1.nodeDepth x = h.nodeDepth x := by intro x; unfold AvlHeap.nodeDepth; rw [D1]
  have l1n : h1.left n = qf := by rw [L1, superLeft_ne _ _ _ _ (Ne.symm hsn), upd_ne _ _ (Ne.symm hgn), upd_same]
  have r1n : h1.right n = h.right n := by
    rw [R1, superRight_ne _ _ _ _ (Ne.symm hsn), upd_ne _ _ (Ne.symm hgn), upd_ne _ _ (Ne.symm hcn)]
  have l1c : h1.left c = h.left c := by rw [L1, superLeft_ne _ _ _ _ (Ne.symm hsc), upd_ne _ _ hcg, upd_ne _ _ hcn]
  have r1c : h1.right c = qe := by rw [R1, superRight_ne _ _ _ _ (Ne.symm hsc), upd_ne _ _ hcg, upd_same]
  have l1g : h1.left g = c := by rw [L1, superLeft_ne _ _ _ _ (Ne.symm hsg), upd_same]
  have r1g : h1.right g = n := by rw [R1, superRight_ne _ _ _ _ (Ne.symm hsg), upd_same]
  have dn : h1.calcDepth n = max f.height r.height + 1 :=
    calcDepth_eq h1 n _ _ (by rw [l1n, nd1, hlf.nodeDepth]) (by rw [r1n, nd1, hr.nodeDepth]) (by omega) (by omega)
  have D2 : (h1.fixDepth n).depth = upd h.depth n (max f.height r.height + 1) := by rw [fixDepth_depth, dn, D1]
  have dc : (h1.fixDepth n).calcDepth c = max a.height e.height + 1 := by
    refine calcDepth_eq _ c _ _ ?_ ?_ (by omega) (by omega)
    · rw [fixDepth_left, l1c, ← hla.nodeDepth]
      unfold AvlHeap.nodeDepth
      rw [D2, upd_ne _ _ (hla.ptr_ne hna hn0)]
    · rw [fixDepth_right, r1c, ← hle.nodeDepth]
      unfold AvlHeap.nodeDepth
      rw [D2, upd_ne _ _ (hle.ptr_ne hne hn0)]
  have D3 : ((h1.fixDepth n).fixDepth c).depth = upd (upd h.depth n (max f.height r.height + 1)) c (max a.height e.height + 1) := by
    rw [fixDepth_depth, dc, D2]
  have dg : ((h1.fixDepth n).fixDepth c).calcDepth g = max (max a.height e.height + 1) (max f.height r.height + 1) + 1 := by
    refine calcDepth_eq _ g _ _ ?_ ?_ (by omega) (by omega)
    · rw [fixDepth_left, fixDepth_left, l1g]
      unfold AvlHeap.nodeDepth
      rw [D3, upd_same, if_pos hc0]
    · rw [fixDepth_right, fixDepth_right, r1g]
      unfold AvlHeap.nodeDepth
      rw [D3, upd_ne _ _ (Ne.symm hcn), upd_same, if_pos hn0]
  have L : h'.left = h1.left := by rw [E]; rfl
  have R : h'.right = h1.right := by rw [E]; rfl
  have P : h'.parent = h1.parent := by rw [E]; rfl
  have D : h'.depth = upd (upd (upd h.depth n (max f.height r.height + 1)) c (max a.height e.height + 1)) g
      (max (max a.height e.height + 1) (max f.height r.height + 1) + 1) := by
    rw [E, fixDepth_depth, dg, D3]
  -- nodes other than n, c, g
  have oL : ∀ j, j ≠ s.node → j ≠ n → j ≠ g → h'.left j = h.left j := by
    intro j h1 h2 h3; rw [L, L1, superLeft_ne _ _ _ _ h1, upd_ne _ _ h3, upd_ne _ _ h2]
  have oR : ∀ j, j ≠ s.node → j ≠ c → j ≠ g → h'.right j = h.right j := by
    intro j h1 h2 h3; rw [R, R1, superRight_ne _ _ _ _ h1, upd_ne _ _ h3, upd_ne _ _ h2]
  have oD : ∀ j, j ≠ n → j ≠ c → j ≠ g → h'.depth j = h.depth j := by
    intro j h1 h2 h3; rw [D, upd_ne _ _ h3, upd_ne _ _ h2, upd_ne _ _ h1]
  have oP : ∀ j, j ≠ n → j ≠ c → j ≠ g → h'.parent j = updIf (updIf h.parent qf n) qe c j := by
    intro j h1 h2 h3; rw [P, P1, upd_ne _ _ h3, updIf_ne _ _ h2, updIf_ne _ _ h1]
  have ns : ∀ (t : ATree), s.node ∉ t.ids → ∀ j ∈ t.ids, j ≠ s.node := fun t ht j hj e => ht (e ▸ hj)
  constructor
  · refine ⟨rfl, hg0, by rw [P, P1, upd_same], by rw [D, upd_same]; rfl, ?_, ?_⟩
    · rw [L, l1g]
      refine ⟨rfl, hc0, by rw [P, P1, upd_ne _ _ hcg, updIf_same _ _ hc0], by rw [D, upd_ne _ _ hcg, upd_same]; rfl, ?_, ?_⟩
      · rw [L, l1c]
        refine hla.congr' na ?_ ?_ ?_ ?_
        · intro j hj; exact oL j (ns a hsa j hj) (neq a n hna j hj) (neq a g hga j hj)
        · intro j hj; exact oR j (ns a hsa j hj) (neq a c hca j hj) (neq a g hga j hj)
        · intro j hj; exact oD j (neq a n hna j hj) (neq a c hca j hj) (neq a g hga j hj)
        · intro j hj
          rw [oP j (neq a n hna j hj) (neq a c hca j hj) (neq a g hga j hj), updIf_of_rep hle _ (dae j hj),
            updIf_of_rep hlf _ (daf j hj)]
      · rw [R, r1c]
        refine hle.congr ne ?_ ?_ ?_ ?_ ?_
        · intro j hj; exact oL j (ns e hse j hj) (neq e n hne j hj) (neq e g hge j hj)
        · intro j hj; exact oR j (ns e hse j hj) (neq e c hce j hj) (neq e g hge j hj)
        · intro j hj; exact oD j (neq e n hne j hj) (neq e c hce j hj) (neq e g hge j hj)
        · intro j hj hjq
          rw [oP j (neq e n hne j hj) (neq e c hce j hj) (neq e g hge j hj), updIf_ne _ _ hjq,
            updIf_of_rep hlf _ (fun hm => dfe j hm hj)]
        · intro h0
          rw [oP _ (hle.ptr_ne hne hn0) (hle.ptr_ne hce hc0) (hle.ptr_ne hge hg0), updIf_same _ _ h0]
    · rw [R, r1g]
      refine ⟨rfl, hn0, by rw [P, P1, upd_ne _ _ (Ne.symm hgn), updIf_ne _ _ (Ne.symm hcn), updIf_same _ _ hn0],
        by rw [D, upd_ne _ _ (Ne.symm hgn), upd_ne _ _ (Ne.symm hcn), upd_same]; rfl, ?_, ?_⟩
      · rw [L, l1n]
        refine hlf.congr nf ?_ ?_ ?_ ?_ ?_
        · intro j hj; exact oL j (ns f hsf j hj) (neq f n hnf j hj) (neq f g hgf j hj)
        · intro j hj; exact oR j (ns f hsf j hj) (neq f c hcf j hj) (neq f g hgf j hj)
        · intro j hj; exact oD j (neq f n hnf j hj) (neq f c hcf j hj) (neq f g hgf j hj)
        · intro j hj hjq
          rw [oP j (neq f n hnf j hj) (neq f c hcf j hj) (neq f g hgf j hj), updIf_of_rep hle _ (dfe j hj), updIf_ne _ _ hjq]
        · intro h0
          have hm : qf ∈ f.ids := by rw [hlf.root]; exact root_mem f (by rw [← hlf.root]; exact h0)
          rw [oP _ (hlf.ptr_ne hnf hn0) (hlf.ptr_ne hcf hc0) (hlf.ptr_ne hgf hg0), updIf_of_rep hle _ (dfe _ hm), updIf_same _ _ h0]
      · rw [R, r1n]
        refine hr.congr' nr ?_ ?_ ?_ ?_
        · intro j hj; exact oL j (ns r hsr j hj) (neq r n hnr j hj) (neq r g hgr j hj)
        · intro j hj; exact oR j (ns r hsr j hj) (neq r c hcr j hj) (neq r g hgr j hj)
        · intro j hj; exact oD j (neq r n hnr j hj) (neq r c hcr j hj) (neq r g hgr j hj)
        · intro j hj
          rw [oP j (neq r n hnr j hj) (neq r c hcr j hj) (neq r g hgr j hj), updIf_of_rep hle _ (dre j hj),
            updIf_of_rep hlf _ (drf j hj)]
  · have hout : ∀ j, j ∉ a.ids ++ c :: (e.ids ++ g :: f.ids) ++ n :: r.ids → j ≠ c ∧ j ≠ n ∧ j ≠ g ∧ j ∉ e.ids ∧ j ∉ f.ids := by
      intro j hj
      simp only [List.mem_append, List.mem_cons, not_or] at hj
      tauto
    constructor
    · intro j hj
      obtain ⟨h1, h2, h3, h4, h5⟩ := hout j hj
      rw [L, L1, setSuper_left]
      exact superLeft_congr _ _ _ _ _ (by rw [upd_ne _ _ h3, upd_ne _ _ h2])
    · intro j hj
      obtain ⟨h1, h2, h3, h4, h5⟩ := hout j hj
      rw [R, R1, setSuper_right]
      exact superRight_congr _ _ _ _ _ (by rw [upd_ne _ _ h3, upd_ne _ _ h1])
    · intro j hj _
      obtain ⟨h1, h2, h3, h4, h5⟩ := hout j hj
      rw [oP j h2 h1 h3, updIf_of_rep hle _ h4, updIf_of_rep hlf _ h5]
    · intro j hj
      obtain ⟨h1, h2, h3, h4, h5⟩ := hout j hj
      exact oD j h2 h1 h3
    · rw [E, hh1]; simp
    · rw [E, hh1]; simp
    · rw [E, hh1]; simp
    · rw [E, hh1]; simp
    · rw [E, hh1]; simp

/-! ### Mirror images -/

/-- Exchange left and right. -/
def AvlHeap.mirror (h : AvlHeap) : AvlHeap :=
  { left := h.right, right := h.left, parent := h.parent, next := h.prev, prev := h.next, depth := h.depth, top := h.top,
    head := h.tail, tail := h.head }

/-- Exchange left and right. -/
def AvlSuper.mirror : AvlSuper → AvlSuper
  | .top => .top
  | .left p => .right p
  | .right p => .left p

/-- Exchange left and right. -/
def ATree.mirror : ATree → ATree
  | .nil => .nil
  | .node l i r => .node r.mirror i l.mirror

theorem ATree.mirror_ids (t : ATree) : t.mirror.ids = t.ids.reverse := by
  induction t with
  | nil => rfl
  | node l i r hl hr => simp [ATree.mirror, ids, hl, hr]

theorem ATree.mirror_height (t : ATree) : t.mirror.height = t.height := by
  induction t with
  | nil => rfl
  | node l i r hl hr => simp only [ATree.mirror, height, hl, hr]; rw [Nat.max_comm]

theorem ATree.mirror_mirror (t : ATree) : t.mirror.mirror = t := by
  induction t with
  | nil => rfl
  | node l i r hl hr => simp [ATree.mirror, hl, hr]

theorem rep_mirror {h : AvlHeap} {par p : ℕ} {t : ATree} (hr : Rep h par p t) : Rep h.mirror par p t.mirror := by
  induction t generalizing par p with
  | nil => exact hr
  | node l i r ihl ihr =>
    obtain ⟨h1, h0, h2, h3, h4, h5⟩ := hr
    refine ⟨h1, h0, h2, ?_, ihr h5, ihl h4⟩
    have := ATree.mirror_height (.node l i r)
    rw [ATree.mirror] at this
    rw [this]; exact h3

theorem calcDepth_mirror (h : AvlHeap) (n : ℕ) : h.mirror.calcDepth n = h.calcDepth n := by
  have e1 : h.mirror.lDepth n = h.rDepth n := rfl
  have e2 : h.mirror.rDepth n = h.lDepth n := rfl
  unfold AvlHeap.calcDepth
  rw [e1, e2]
  congr 2
  split <;> split <;> omega

theorem fixDepth_mirror (h : AvlHeap) (n : ℕ) : (h.mirror.fixDepth n).mirror = h.fixDepth n := by
  unfold AvlHeap.fixDepth
  rw [calcDepth_mirror]
  rfl

theorem mirror_mirror (h : AvlHeap) : h.mirror.mirror = h := rfl

theorem fixDepth_mirror' (h : AvlHeap) (n : ℕ) : h.mirror.fixDepth n = (h.fixDepth n).mirror := by
  rw [← fixDepth_mirror, mirror_mirror]

theorem setSuper_mirror (h : AvlHeap) (s : AvlSuper) (v : ℕ) : h.mirror.setSuper s.mirror v = (h.setSuper s v).mirror := by
  cases s <;> rfl

theorem setParentIf_mirror (h : AvlHeap) (n v : ℕ) : h.mirror.setParentIf n v = (h.setParentIf n v).mirror := by
  unfold AvlHeap.setParentIf; split <;> rfl

theorem setLeft_mirror (h : AvlHeap) (n v : ℕ) : h.mirror.setLeft n v = (h.setRight n v).mirror := rfl
theorem setRight_mirror (h : AvlHeap) (n v : ℕ) : h.mirror.setRight n v = (h.setLeft n v).mirror := rfl
theorem setParent_mirror (h : AvlHeap) (n v : ℕ) : h.mirror.setParent n v = (h.setParent n v).mirror := rfl
theorem left_mirror (h : AvlHeap) : h.mirror.left = h.right := rfl
theorem right_mirror (h : AvlHeap) : h.mirror.right = h.left := rfl
theorem lDepth_mirror (h : AvlHeap) (n : ℕ) : h.mirror.lDepth n = h.rDepth n := rfl
theorem rDepth_mirror (h : AvlHeap) (n : ℕ) : h.mirror.rDepth n = h.lDepth n := rfl

theorem rotateLeft_mirror (h : AvlHeap) (n p : ℕ) (s : AvlSuper) :
    avlRotateLeft h n p s = (avlRotateRight h.mirror n p s.mirror).mirror := by
  unfold avlRotateLeft avlRotateRight
  simp only [left_mirror, right_mirror, lDepth_mirror, rDepth_mirror, setLeft_mirror, setRight_mirror, setParent_mirror,
    setParentIf_mirror, setSuper_mirror, fixDepth_mirror']
  split <;> rfl

theorem sameOutside_mirror {h h' : AvlHeap} {s : AvlSuper} {v : ℕ} {I : List ℕ} (hs : SameOutside h.mirror h' s.mirror v I) :
    SameOutside h h'.mirror s v I := by
  have e := setSuper_mirror h s v
  constructor
  · intro j hj; have := hs.right j hj; rw [e] at this; exact this
  · intro j hj; have := hs.left j hj; rw [e] at this; exact this
  · exact hs.parent
  · exact hs.depth
  · have := hs.top; rw [e] at this; exact this
  · exact hs.prev
  · exact hs.next
  · exact hs.tail
  · exact hs.head

theorem SameOutside.perm {h h' : AvlHeap} {s : AvlSuper} {v : ℕ} {I J : List ℕ} (hs : SameOutside h h' s v I) (hp : I.Perm J) :
    SameOutside h h' s v J where
  left := fun j hj => hs.left j (fun hm => hj (hp.mem_iff.1 hm))
  right := fun j hj => hs.right j (fun hm => hj (hp.mem_iff.1 hm))
  parent := fun j hj => hs.parent j (fun hm => hj (hp.mem_iff.1 hm))
  depth := fun j hj => hs.depth j (fun hm => hj (hp.mem_iff.1 hm))
  top := hs.top
  next := hs.next
  prev := hs.prev
  head := hs.head
  tail := hs.tail

theorem super_mirror_node (s : AvlSuper) : s.mirror.node = s.node := by cases s <;> rfl

theorem rotateLeft_single {h : AvlHeap} {n p : ℕ} {s : AvlSuper} {a b l : ATree} {c : ℕ}
    (hl : Rep h n (h.left n) l) (hr : Rep h n (h.right n) (.node b c a))
    (hnd : (l.ids ++ n :: (b.ids ++ c :: a.ids)).Nodup) (hn0 : n ≠ 0) (hs : s.node ∉ l.ids ++ n :: (b.ids ++ c :: a.ids))
    (hab : b.height ≤ a.height) (ha : a.height < 253) (hb : b.height < 253) (hrh : l.height < 253) :
    Rep (avlRotateLeft h n p s) p c (.node (.node l n b) c a) ∧
      SameOutside h (avlRotateLeft h n p s) s c (l.ids ++ n :: (b.ids ++ c :: a.ids)) := by
  have hrev : a.mirror.ids ++ c :: b.mirror.ids ++ n :: l.mirror.ids = (l.ids ++ n :: (b.ids ++ c :: a.ids)).reverse := by
    simp [ATree.mirror_ids]
  have := rotateRight_single (h := h.mirror) (n := n) (p := p) (s := s.mirror) (a := a.mirror) (b := b.mirror) (r := l.mirror) (c := c)
    (rep_mirror hr) (rep_mirror hl) (by rw [hrev]; exact List.nodup_reverse.2 hnd) hn0
    (by rw [hrev, List.mem_reverse, super_mirror_node]; exact hs)
    (by simpa only [ATree.mirror_height] using hab) (by simpa only [ATree.mirror_height] using ha)
    (by simpa only [ATree.mirror_height] using hb) (by simpa only [ATree.mirror_height] using hrh)
  rw [rotateLeft_mirror]
  constructor
  · have h2 := rep_mirror this.1
    simpa only [ATree.mirror, ATree.mirror_mirror] using h2
  · refine (sameOutside_mirror this.2).perm ?_
    rw [hrev]; exact List.reverse_perm _

theorem rotateLeft_double {h : AvlHeap} {n p : ℕ} {s : AvlSuper} {a e f l : ATree} {c g : ℕ}
    (hl : Rep h n (h.left n) l) (hr : Rep h n (h.right n) (.node (.node f g e) c a))
    (hnd : (l.ids ++ n :: ((f.ids ++ g :: e.ids) ++ c :: a.ids)).Nodup) (hn0 : n ≠ 0)
    (hs : s.node ∉ l.ids ++ n :: ((f.ids ++ g :: e.ids) ++ c :: a.ids))
    (hab : a.height < (ATree.node f g e).height) (ha : a.height < 253) (he : e.height < 253) (hf : f.height < 253)
    (hrh : l.height < 253) :
    Rep (avlRotateLeft h n p s) p g (.node (.node l n f) g (.node e c a)) ∧
      SameOutside h (avlRotateLeft h n p s) s g (l.ids ++ n :: ((f.ids ++ g :: e.ids) ++ c :: a.ids)) := by
  have hrev : a.mirror.ids ++ c :: (e.mirror.ids ++ g :: f.mirror.ids) ++ n :: l.mirror.ids =
      (l.ids ++ n :: ((f.ids ++ g :: e.ids) ++ c :: a.ids)).reverse := by
    simp [ATree.mirror_ids]
  have hh : (ATree.node e.mirror g f.mirror).height = (ATree.node f g e).height := by
    have := ATree.mirror_height (.node f g e); rw [ATree.mirror] at this; exact this
  have := rotateRight_double (h := h.mirror) (n := n) (p := p) (s := s.mirror) (a := a.mirror) (e := e.mirror) (f := f.mirror)
    (r := l.mirror) (c := c) (g := g)
    (rep_mirror hr) (rep_mirror hl) (by rw [hrev]; exact List.nodup_reverse.2 hnd) hn0
    (by rw [hrev, List.mem_reverse, super_mirror_node]; exact hs)
    (by rw [ATree.mirror_height, hh]; exact hab) (by simpa only [ATree.mirror_height] using ha)
    (by simpa only [ATree.mirror_height] using he) (by simpa only [ATree.mirror_height] using hf)
    (by simpa only [ATree.mirror_height] using hrh)
  rw [rotateLeft_mirror]
  constructor
  · have h2 := rep_mirror this.1
    simpa only [ATree.mirror, ATree.mirror_mirror] using h2
  · refine (sameOutside_mirror this.2).perm ?_
    rw [hrev]; exact List.reverse_perm _

end Moo
