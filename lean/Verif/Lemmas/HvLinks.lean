import Verif.Model.Hv
import Mathlib.Data.List.Nodup
import Mathlib.Order.Lattice
import Mathlib.Order.Nat

/-!
# Doubly linked circular lists: linking, unlinking and linking again
-/

set_option autoImplicit false
set_option linter.unusedSectionVars false

namespace Moo

/-- Starting at node `a`, the pointers run through `l` and back to the head `0`. -/
def LinkedFrom (nx pv : ℕ → ℕ) : ℕ → List ℕ → Prop
  | a, [] => nx a = 0 ∧ pv 0 = a
  | a, q :: qs => nx a = q ∧ pv q = a ∧ LinkedFrom nx pv q qs

/-- The circular list with head `0` and nodes `l`. -/
def Linked (nx pv : ℕ → ℕ) (l : List ℕ) : Prop := LinkedFrom nx pv 0 l

theorem LinkedFrom.frame {nx pv nx' pv' : ℕ → ℕ} : ∀ {l : List ℕ} {a : ℕ}, LinkedFrom nx pv a l →
    (∀ u ∈ a :: l, nx' u = nx u) → (∀ v ∈ l, pv' v = pv v) → pv' 0 = pv 0 → LinkedFrom nx' pv' a l
  | [], a, h, h1, _, h3 => ⟨by rw [h1 a (by simp)]; exact h.1, by rw [h3]; exact h.2⟩
  | q :: qs, a, h, h1, h2, h3 =>
    ⟨by rw [h1 a (by simp)]; exact h.1, by rw [h2 q (by simp)]; exact h.2.1,
      LinkedFrom.frame h.2.2 (fun u hu => h1 u (List.mem_cons_of_mem _ hu)) (fun v hv => h2 v (List.mem_cons_of_mem _ hv)) h3⟩

/-- The last node of a list, or the node before it. -/
def lastD : ℕ → List ℕ → ℕ
  | a, [] => a
  | _, q :: qs => lastD q qs

theorem lastD_append_singleton (a p : ℕ) (l : List ℕ) : lastD a (l ++ [p]) = p := by
  induction l generalizing a with
  | nil => rfl
  | cons q qs ih => exact ih q

theorem lastD_mem (a : ℕ) (l : List ℕ) : lastD a l ∈ a :: l := by
  induction l generalizing a with
  | nil => exact List.mem_cons_self ..
  | cons q qs ih => exact List.mem_cons_of_mem _ (ih q)

theorem headD_mem (l : List ℕ) : l.headD 0 ∈ l ∨ l.headD 0 = 0 := by
  cases l with
  | nil => right; rfl
  | cons q qs => left; exact List.mem_cons_self ..

theorem LinkedFrom.at {nx pv : ℕ → ℕ} {p : ℕ} {l2 : List ℕ} : ∀ {l1 : List ℕ} {a : ℕ}, LinkedFrom nx pv a (l1 ++ p :: l2) →
    pv p = lastD a l1 ∧ nx (lastD a l1) = p ∧ nx p = l2.headD 0 ∧ pv (l2.headD 0) = p
  | [], a, h => by
    refine ⟨h.2.1, h.1, ?_⟩
    cases l2 with
    | nil => exact h.2.2
    | cons b l2 => exact ⟨h.2.2.1, h.2.2.2.1⟩
  | q :: qs, _, h => LinkedFrom.at (l1 := qs) h.2.2

theorem LinkedFrom.unlink {nx pv : ℕ → ℕ} {p : ℕ} {l2 : List ℕ} : ∀ {l1 : List ℕ} {a : ℕ}, LinkedFrom nx pv a (l1 ++ p :: l2) →
    (a :: (l1 ++ p :: l2)).Nodup → 0 ∉ l1 ++ p :: l2 →
    LinkedFrom (upd nx (pv p) (nx p)) (upd pv (nx p) (pv p)) a (l1 ++ l2)
  | [], a, h, hnd, h0 => by
    obtain ⟨h1, h2, h3⟩ := h
    rw [List.nil_append] at hnd h0 ⊢
    cases l2 with
    | nil =>
      rw [h2, h3.1]
      exact ⟨upd_same .., upd_same ..⟩
    | cons b l2 =>
      obtain ⟨h3, h4, h5⟩ := h3
      rw [h2, h3]
      simp only [List.nodup_cons, List.mem_cons, not_or] at hnd h0
      refine ⟨upd_same .., upd_same .., h5.frame ?_ ?_ ?_⟩
      · intro u hu
        refine upd_ne _ _ ?_
        rintro rfl
        rcases List.mem_cons.1 hu with h | h
        · exact hnd.1.2.1 h
        · exact hnd.1.2.2 h
      · intro v hv
        refine upd_ne _ _ ?_
        rintro rfl
        exact hnd.2.2.1 hv
      · exact upd_ne _ _ h0.2.1
  | q :: qs, a, h, hnd, h0 => by
    obtain ⟨h1, h2, h3⟩ := h
    have hat := LinkedFrom.at (l1 := qs) h3
    have hnd' : (q :: (qs ++ p :: l2)).Nodup := (List.nodup_cons.1 hnd).2
    refine ⟨?_, ?_, LinkedFrom.unlink (l1 := qs) h3 hnd' (fun h => h0 (List.mem_cons_of_mem _ h))⟩
    · rw [upd_ne _ _, h1]
      rw [hat.1]
      rintro rfl
      have := lastD_mem q qs
      apply (List.nodup_cons.1 hnd).1
      rw [List.cons_append, ← List.cons_append]
      exact List.mem_append_left _ this
    · rw [upd_ne _ _, h2]
      rw [hat.2.2.1]
      rintro rfl
      rcases headD_mem l2 with h | h
      · exact (List.nodup_cons.1 hnd').1 (List.mem_append_right _ (List.mem_cons_of_mem _ h))
      · exact h0 (by rw [h]; exact List.mem_cons_self ..)

theorem Linked.unlink {nx pv : ℕ → ℕ} {p : ℕ} {l1 l2 : List ℕ} (h : Linked nx pv (l1 ++ p :: l2))
    (hnd : (l1 ++ p :: l2).Nodup) (h0 : 0 ∉ l1 ++ p :: l2) :
    Linked (upd nx (pv p) (nx p)) (upd pv (nx p) (pv p)) (l1 ++ l2) :=
  LinkedFrom.unlink h (List.nodup_cons.2 ⟨h0, hnd⟩) h0

/-- A node of the list is not its own neighbour, and its neighbours point to it. -/
theorem Linked.nbr {nx pv : ℕ → ℕ} {p : ℕ} {l1 l2 : List ℕ} (h : Linked nx pv (l1 ++ p :: l2))
    (hnd : (l1 ++ p :: l2).Nodup) (h0 : 0 ∉ l1 ++ p :: l2) : nx (pv p) = p ∧ pv (nx p) = p ∧ pv p ≠ p ∧ nx p ≠ p := by
  have hat := LinkedFrom.at h
  have hp0 : p ≠ 0 := fun h => h0 (by rw [← h]; simp)
  refine ⟨by rw [hat.1]; exact hat.2.1, by rw [hat.2.2.1]; exact hat.2.2.2, ?_, ?_⟩
  · rw [hat.1]
    intro he
    have := lastD_mem 0 l1
    rw [he] at this
    rcases List.mem_cons.1 this with h | h
    · exact hp0 h
    · exact (List.nodup_append.1 hnd).2.2 p h p (by simp) rfl
  · rw [hat.2.2.1]
    intro he
    rcases headD_mem l2 with h | h
    · rw [he] at h
      exact (List.nodup_cons.1 (List.nodup_append.1 hnd).2.1).1 h
    · exact hp0 (he ▸ h)

section
variable {K : Type*} [CommRing K] [LinearOrder K] {x : ℕ → ℕ → K}

theorem upd2_same {β : Type*} (a : ℕ → ℕ → β) (i p : ℕ) (v : β) : upd2 a i p v i = upd (a i) p v := by
  unfold upd2; exact upd_same ..

theorem upd2_ne {β : Type*} (a : ℕ → ℕ → β) {i j : ℕ} (p : ℕ) (v : β) (h : j ≠ i) : upd2 a i p v j = a j := by
  unfold upd2; exact upd_ne _ _ h

theorem hvDeleteStep_next (p i : ℕ) (S : HvState K) :
    (hvDeleteStep x p i S).next = upd2 S.next i (S.prev i p) (S.next i p) := by
  unfold hvDeleteStep; dsimp only; split <;> rfl

theorem hvDeleteStep_prev (p i : ℕ) (S : HvState K) :
    (hvDeleteStep x p i S).prev = upd2 S.prev i (S.next i p) (S.prev i p) := by
  have : upd2 S.next i (S.prev i p) (S.next i p) i p = S.next i p := by
    rw [upd2_same]
    by_cases h : p = S.prev i p
    · rw [← h, upd_same]
    · rw [upd_ne _ _ h]
  unfold hvDeleteStep; dsimp only; split <;> simp only [this]

theorem hvDeleteStep_rest (p i : ℕ) (S : HvState K) : (hvDeleteStep x p i S).ignore = S.ignore ∧
    (hvDeleteStep x p i S).area = S.area ∧ (hvDeleteStep x p i S).vol = S.vol ∧
    (hvDeleteStep x p i S).bound = upd S.bound i (min (S.bound i) (x p i)) := by
  unfold hvDeleteStep; dsimp only
  split
  · rename_i h
    refine ⟨rfl, rfl, rfl, ?_⟩
    dsimp only
    rw [min_eq_right (le_of_lt h)]
  · rename_i h
    refine ⟨rfl, rfl, rfl, ?_⟩
    dsimp only
    rw [min_eq_left (not_lt.1 h)]
    funext j
    by_cases hj : j = i
    · subst hj; rw [upd_same]
    · rw [upd_ne _ _ hj]

theorem hvDeleteLoop_next (p m : ℕ) (S : HvState K) (i : ℕ) :
    (hvDeleteLoop x p m S).next i =
      if 2 ≤ i ∧ i < 2 + m then upd (S.next i) (S.prev i p) (S.next i p) else S.next i := by
  have key : ∀ m, (∀ i, (hvDeleteLoop x p m S).next i =
      if 2 ≤ i ∧ i < 2 + m then upd (S.next i) (S.prev i p) (S.next i p) else S.next i) ∧
      (∀ i, ¬ (2 ≤ i ∧ i < 2 + m) → (hvDeleteLoop x p m S).prev i = S.prev i) := by
    intro m
    induction m with
    | zero => exact ⟨fun i => by rw [if_neg (by omega)]; rfl, fun i _ => rfl⟩
    | succ m ih =>
      constructor
      · intro i
        unfold hvDeleteLoop
        rw [hvDeleteStep_next]
        by_cases hi : i = 2 + m
        · subst hi
          rw [upd2_same, ih.1, ih.2 _ (by omega), if_neg (by omega), if_pos (by omega)]
        · rw [upd2_ne _ _ _ hi, ih.1]
          by_cases h : 2 ≤ i ∧ i < 2 + m
          · rw [if_pos h, if_pos (by omega)]
          · rw [if_neg h, if_neg (by omega)]
      · intro i hi
        unfold hvDeleteLoop
        rw [hvDeleteStep_prev, upd2_ne _ _ _ (by omega), ih.2 i (by omega)]
  exact (key m).1 i

theorem hvDeleteLoop_prev (p m : ℕ) (S : HvState K) (i : ℕ) :
    (hvDeleteLoop x p m S).prev i =
      if 2 ≤ i ∧ i < 2 + m then upd (S.prev i) (S.next i p) (S.prev i p) else S.prev i := by
  induction m generalizing i with
  | zero => rw [if_neg (by omega)]; rfl
  | succ m ih =>
    unfold hvDeleteLoop
    rw [hvDeleteStep_prev]
    by_cases hi : i = 2 + m
    · subst hi
      rw [upd2_same, ih, hvDeleteLoop_next, if_neg (by omega), if_neg (by omega), if_pos (by omega)]
    · rw [upd2_ne _ _ _ hi, ih]
      by_cases h : 2 ≤ i ∧ i < 2 + m
      · rw [if_pos h, if_pos (by omega)]
      · rw [if_neg h, if_neg (by omega)]

theorem hvDeleteLoop_rest (p m : ℕ) (S : HvState K) : (hvDeleteLoop x p m S).ignore = S.ignore ∧
    (hvDeleteLoop x p m S).area = S.area ∧ (hvDeleteLoop x p m S).vol = S.vol ∧
    ∀ i, (hvDeleteLoop x p m S).bound i = if 2 ≤ i ∧ i < 2 + m then min (S.bound i) (x p i) else S.bound i := by
  induction m with
  | zero => exact ⟨rfl, rfl, rfl, fun i => by rw [if_neg (by omega)]; rfl⟩
  | succ m ih =>
    have hs := hvDeleteStep_rest (x := x) p (2 + m) (hvDeleteLoop x p m S)
    unfold hvDeleteLoop
    refine ⟨hs.1.trans ih.1, hs.2.1.trans ih.2.1, hs.2.2.1.trans ih.2.2.1, fun i => ?_⟩
    rw [hs.2.2.2]
    by_cases hi : i = 2 + m
    · subst hi
      rw [upd_same, ih.2.2.2, if_neg (by omega), if_pos (by omega)]
    · rw [upd_ne _ _ hi, ih.2.2.2]
      by_cases h : 2 ≤ i ∧ i < 2 + m
      · rw [if_pos h, if_pos (by omega)]
      · rw [if_neg h, if_neg (by omega)]

theorem hvReinsertStep_next (p i : ℕ) (S : HvState K) :
    (hvReinsertStep x p i S).next = upd2 S.next i (S.prev i p) p := by
  unfold hvReinsertStep; dsimp only; split <;> rfl

theorem hvReinsertStep_prev (p i : ℕ) (S : HvState K) :
    (hvReinsertStep x p i S).prev = upd2 S.prev i (upd (S.next i) (S.prev i p) p p) p := by
  unfold hvReinsertStep; dsimp only; split <;> simp only [upd2_same]

theorem hvReinsertStep_rest (p i : ℕ) (S : HvState K) : (hvReinsertStep x p i S).ignore = S.ignore ∧
    (hvReinsertStep x p i S).area = S.area ∧ (hvReinsertStep x p i S).vol = S.vol ∧
    (hvReinsertStep x p i S).bound = upd S.bound i (min (S.bound i) (x p i)) := by
  unfold hvReinsertStep; dsimp only
  split
  · rename_i h
    refine ⟨rfl, rfl, rfl, ?_⟩
    dsimp only
    rw [min_eq_right (le_of_lt h)]
  · rename_i h
    refine ⟨rfl, rfl, rfl, ?_⟩
    dsimp only
    rw [min_eq_left (not_lt.1 h)]
    funext j
    by_cases hj : j = i
    · subst hj; rw [upd_same]
    · rw [upd_ne _ _ hj]

theorem hvReinsertLoop_next (p m : ℕ) (S : HvState K) (i : ℕ) :
    (hvReinsertLoop x p m S).next i = if 2 ≤ i ∧ i < 2 + m then upd (S.next i) (S.prev i p) p else S.next i := by
  have key : ∀ m, (∀ i, (hvReinsertLoop x p m S).next i =
      if 2 ≤ i ∧ i < 2 + m then upd (S.next i) (S.prev i p) p else S.next i) ∧
      (∀ i, ¬ (2 ≤ i ∧ i < 2 + m) → (hvReinsertLoop x p m S).prev i = S.prev i) := by
    intro m
    induction m with
    | zero => exact ⟨fun i => by rw [if_neg (by omega)]; rfl, fun i _ => rfl⟩
    | succ m ih =>
      constructor
      · intro i
        unfold hvReinsertLoop
        rw [hvReinsertStep_next]
        by_cases hi : i = 2 + m
        · subst hi
          rw [upd2_same, ih.1, ih.2 _ (by omega), if_neg (by omega), if_pos (by omega)]
        · rw [upd2_ne _ _ _ hi, ih.1]
          by_cases h : 2 ≤ i ∧ i < 2 + m
          · rw [if_pos h, if_pos (by omega)]
          · rw [if_neg h, if_neg (by omega)]
      · intro i hi
        unfold hvReinsertLoop
        rw [hvReinsertStep_prev, upd2_ne _ _ _ (by omega), ih.2 i (by omega)]
  exact (key m).1 i

theorem hvReinsertLoop_prev (p m : ℕ) (S : HvState K) (i : ℕ) :
    (hvReinsertLoop x p m S).prev i =
      if 2 ≤ i ∧ i < 2 + m then upd (S.prev i) (upd (S.next i) (S.prev i p) p p) p else S.prev i := by
  induction m generalizing i with
  | zero => rw [if_neg (by omega)]; rfl
  | succ m ih =>
    unfold hvReinsertLoop
    rw [hvReinsertStep_prev]
    by_cases hi : i = 2 + m
    · subst hi
      rw [upd2_same, ih, hvReinsertLoop_next, if_neg (by omega), if_neg (by omega), if_pos (by omega)]
    · rw [upd2_ne _ _ _ hi, ih]
      by_cases h : 2 ≤ i ∧ i < 2 + m
      · rw [if_pos h, if_pos (by omega)]
      · rw [if_neg h, if_neg (by omega)]

theorem hvReinsertLoop_rest (p m : ℕ) (S : HvState K) : (hvReinsertLoop x p m S).ignore = S.ignore ∧
    (hvReinsertLoop x p m S).area = S.area ∧ (hvReinsertLoop x p m S).vol = S.vol ∧
    ∀ i, (hvReinsertLoop x p m S).bound i = if 2 ≤ i ∧ i < 2 + m then min (S.bound i) (x p i) else S.bound i := by
  induction m with
  | zero => exact ⟨rfl, rfl, rfl, fun i => by rw [if_neg (by omega)]; rfl⟩
  | succ m ih =>
    have hs := hvReinsertStep_rest (x := x) p (2 + m) (hvReinsertLoop x p m S)
    unfold hvReinsertLoop
    refine ⟨hs.1.trans ih.1, hs.2.1.trans ih.2.1, hs.2.2.1.trans ih.2.2.1, fun i => ?_⟩
    rw [hs.2.2.2]
    by_cases hi : i = 2 + m
    · subst hi
      rw [upd_same, ih.2.2.2, if_neg (by omega), if_pos (by omega)]
    · rw [upd_ne _ _ hi, ih.2.2.2]
      by_cases h : 2 ≤ i ∧ i < 2 + m
      · rw [if_pos h, if_pos (by omega)]
      · rw [if_neg h, if_neg (by omega)]

end

/-! ### Undoing deletions -/

/-- The effect of `hvDelete x p dim` on the pointers. -/
def unlinkDims (dim p : ℕ) (L : (ℕ → ℕ → ℕ) × (ℕ → ℕ → ℕ)) : (ℕ → ℕ → ℕ) × (ℕ → ℕ → ℕ) :=
  (fun i => if 2 ≤ i ∧ i < dim then upd (L.1 i) (L.2 i p) (L.1 i p) else L.1 i,
   fun i => if 2 ≤ i ∧ i < dim then upd (L.2 i) (L.1 i p) (L.2 i p) else L.2 i)

/-- The effect of `hvReinsert x p dim` on the pointers. -/
def relinkDims (dim p : ℕ) (L : (ℕ → ℕ → ℕ) × (ℕ → ℕ → ℕ)) : (ℕ → ℕ → ℕ) × (ℕ → ℕ → ℕ) :=
  (fun i => if 2 ≤ i ∧ i < dim then upd (L.1 i) (L.2 i p) p else L.1 i,
   fun i => if 2 ≤ i ∧ i < dim then upd (L.2 i) (upd (L.1 i) (L.2 i p) p p) p else L.2 i)

theorem relink_unlink (dim p : ℕ) (L : (ℕ → ℕ → ℕ) × (ℕ → ℕ → ℕ))
    (h : ∀ i, 2 ≤ i → i < dim → L.1 i (L.2 i p) = p ∧ L.2 i (L.1 i p) = p ∧ L.2 i p ≠ p ∧ L.1 i p ≠ p) :
    relinkDims dim p (unlinkDims dim p L) = L := by
  refine Prod.ext ?_ ?_
  · funext i j
    simp only [relinkDims, unlinkDims]
    by_cases hi : 2 ≤ i ∧ i < dim
    · obtain ⟨h1, h2, h3, h4⟩ := h i hi.1 hi.2
      simp only [if_pos hi]
      rw [upd_ne (L.2 i) _ (Ne.symm h4)]
      by_cases hj : j = L.2 i p
      · rw [hj, upd_same, h1]
      · rw [upd_ne _ _ hj, upd_ne _ _ hj]
    · simp only [if_neg hi]
  · funext i j
    simp only [relinkDims, unlinkDims]
    by_cases hi : 2 ≤ i ∧ i < dim
    · obtain ⟨h1, h2, h3, h4⟩ := h i hi.1 hi.2
      simp only [if_pos hi]
      rw [upd_ne (L.2 i) _ (Ne.symm h4), upd_ne _ p (Ne.symm h3), upd_ne _ _ (Ne.symm h3)]
      by_cases hj : j = L.1 i p
      · rw [hj, upd_same, h2]
      · rw [upd_ne _ _ hj, upd_ne _ _ hj]
    · simp only [if_neg hi]

/-- Pointers after the nodes of `s` have been deleted, last one first. -/
def delLinks (dim : ℕ) (L : (ℕ → ℕ → ℕ) × (ℕ → ℕ → ℕ)) : List ℕ → (ℕ → ℕ → ℕ) × (ℕ → ℕ → ℕ)
  | [] => L
  | p :: s => unlinkDims dim p (delLinks dim L s)

theorem delLinks_of_not (dim : ℕ) (L : (ℕ → ℕ → ℕ) × (ℕ → ℕ → ℕ)) (s : List ℕ) (i : ℕ) (hi : ¬ (2 ≤ i ∧ i < dim)) :
    (delLinks dim L s).1 i = L.1 i ∧ (delLinks dim L s).2 i = L.2 i := by
  induction s with
  | nil => exact ⟨rfl, rfl⟩
  | cons p s ih =>
    unfold delLinks unlinkDims
    simp only [if_neg hi]
    exact ih

section
variable {K : Type*} [CommRing K] [LinearOrder K] {x : ℕ → ℕ → K}

/-- the pointers of a state -/
def links (S : HvState K) : (ℕ → ℕ → ℕ) × (ℕ → ℕ → ℕ) := (S.next, S.prev)

theorem links_hvDelete (p dim : ℕ) (hdim : 2 ≤ dim) (S : HvState K) :
    links (hvDelete x p dim S) = unlinkDims dim p (links S) := by
  unfold links hvDelete unlinkDims
  have e : 2 + (dim - 2) = dim := by omega
  refine Prod.ext ?_ ?_
  · funext i; dsimp only; rw [hvDeleteLoop_next, e]
  · funext i; dsimp only; rw [hvDeleteLoop_prev, e]

theorem links_hvReinsert (p dim : ℕ) (hdim : 2 ≤ dim) (S : HvState K) :
    links (hvReinsert x p dim S) = relinkDims dim p (links S) := by
  unfold links hvReinsert relinkDims
  have e : 2 + (dim - 2) = dim := by omega
  refine Prod.ext ?_ ?_
  · funext i; dsimp only; rw [hvReinsertLoop_next, e]
  · funext i; dsimp only; rw [hvReinsertLoop_prev, e]

theorem hvDelete_rest (p dim : ℕ) (hdim : 2 ≤ dim) (S : HvState K) : (hvDelete x p dim S).ignore = S.ignore ∧
    (hvDelete x p dim S).area = S.area ∧ (hvDelete x p dim S).vol = S.vol ∧
    ∀ i, (hvDelete x p dim S).bound i = if 2 ≤ i ∧ i < dim then min (S.bound i) (x p i) else S.bound i := by
  have h := hvDeleteLoop_rest (x := x) p (dim - 2) S
  rw [show 2 + (dim - 2) = dim by omega] at h
  exact h

theorem hvReinsert_rest (p dim : ℕ) (hdim : 2 ≤ dim) (S : HvState K) : (hvReinsert x p dim S).ignore = S.ignore ∧
    (hvReinsert x p dim S).area = S.area ∧ (hvReinsert x p dim S).vol = S.vol ∧
    ∀ i, (hvReinsert x p dim S).bound i = if 2 ≤ i ∧ i < dim then min (S.bound i) (x p i) else S.bound i := by
  have h := hvReinsertLoop_rest (x := x) p (dim - 2) S
  rw [show 2 + (dim - 2) = dim by omega] at h
  exact h

end

end Moo
