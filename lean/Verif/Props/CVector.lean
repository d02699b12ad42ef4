import Verif.Model.CVector
import Mathlib.Tactic.Common
import Mathlib.Order.Basic
import Mathlib.Order.Defs.LinearOrder
import Mathlib.Order.Nat

set_option autoImplicit false

/-! # Properties of the growable vectors (`c/cvector.h`) -/

namespace Moo

variable {α : Type*}

/-- Specification: the operation on a list; `none` when it is not allowed (empty vector, position outside). -/
def cvSpecStep (l : List α) : CVOp α → Option (List α × Option α)
  | .push x => some (l ++ [x], none)
  | .pop => match l.getLast? with
    | some x => some (l.dropLast, some x)
    | none => none
  | .reserve _ => some (l, none)
  | .set pos x => if pos < l.length then some (l.set pos x, some x) else none
  | .at pos => match l[pos]? with
    | some x => some (l, some x)
    | none => none
  | .front => match l.head? with
    | some x => some (l, some x)
    | none => none
  | .back => match l.getLast? with
    | some x => some (l, some x)
    | none => none

/-- Specification: a history on lists. -/
def cvSpecRun : List (CVOp α) → List α → Option (List α × List (Option α))
  | [], l => some (l, [])
  | o :: os, l => match cvSpecStep l o with
    | some (l', r) => match cvSpecRun os l' with
      | some (l'', rs) => some (l'', r :: rs)
      | none => none
    | none => none

/-- The vector holds the list `l`. -/
structure CVRep (v : CVec α) (l : List α) : Prop where
  size : v.size = l.length
  cap : v.size ≤ v.cells.length
  get : ∀ (i : ℕ) (h : i < l.length), v.cells[i]? = some (some l[i])

theorem cvRep_reserve {v : CVec α} {l : List α} (h : CVRep v l) (n : ℕ) :
    CVRep (cvReserve v n) l ∧ n ≤ (cvReserve v n).cells.length ∧ v.cells.length ≤ (cvReserve v n).cells.length := by
  unfold cvReserve CVec.capacity
  split_ifs with hn
  · refine ⟨⟨h.size, ?_, ?_⟩, ?_, ?_⟩
    · have := h.cap; simp; omega
    · intro i hi
      have := h.cap; have := h.size
      dsimp only
      rw [List.getElem?_append_left (by omega), h.get i hi]
    · simp; omega
    · simp
  · exact ⟨h, by omega, le_rfl⟩

theorem cvRead_of_lt {v : CVec α} {l : List α} (h : CVRep v l) {i : ℕ} (hi : i < l.length) : cvRead v i = .ok l[i] := by
  unfold cvRead; rw [h.get i hi]

theorem cvRep_push {v : CVec α} {l : List α} (h : CVRep v l) (x : α) :
    ∃ v', cvPushBack v x = .ok v' ∧ CVRep v' (l ++ [x]) := by
  unfold cvPushBack
  have key : ∃ u : CVec α, (if v.size = v.capacity then
      cvReserve v (if v.capacity = 0 then 8 else 2 * v.capacity) else v) = u ∧ CVRep u l ∧ u.size < u.capacity := by
    split_ifs with h1 h2
    · refine ⟨_, rfl, (cvRep_reserve h 8).1, ?_⟩
      have h3 := (cvRep_reserve h 8)
      have := h3.2.1; have := h3.1.size; have := h.size
      unfold CVec.capacity at *; omega
    · refine ⟨_, rfl, (cvRep_reserve h _).1, ?_⟩
      have h3 := (cvRep_reserve h (2 * v.capacity))
      have := h3.2.1; have := h3.1.size; have := h.size
      unfold CVec.capacity at *; omega
    · exact ⟨v, rfl, h, lt_of_le_of_ne h.cap h1⟩
  obtain ⟨u, hu, hrep, hlt⟩ := key
  rw [hu]; dsimp only
  rw [if_pos hlt]
  refine ⟨_, rfl, ?_, ?_, ?_⟩
  · simp [hrep.size]
  · unfold CVec.capacity at hlt; simp; omega
  · intro i hi
    dsimp only
    have hs := hrep.size
    rw [List.length_append, List.length_singleton] at hi
    by_cases hi' : i = l.length
    · subst hi'
      unfold CVec.capacity at hlt
      rw [hs, List.getElem?_set_self (by omega)]
      simp
    · rw [hs, List.getElem?_set_ne (by omega), hrep.get i (by omega), List.getElem_append_left]

theorem cvRep_step {v : CVec α} {l l' : List α} {r : Option α} (h : CVRep v l) (o : CVOp α)
    (hs : cvSpecStep l o = some (l', r)) : ∃ v', cvStep v o = .ok (v', r) ∧ CVRep v' l' := by
  cases o with
  | push x =>
    simp only [cvSpecStep, Option.some.injEq, Prod.mk.injEq] at hs
    obtain ⟨rfl, rfl⟩ := hs
    obtain ⟨v', h1, h2⟩ := cvRep_push h x
    exact ⟨v', by unfold cvStep; dsimp only; rw [h1], h2⟩
  | pop =>
    simp only [cvSpecStep] at hs
    cases hl : l.getLast? with
    | none => rw [hl] at hs; simp at hs
    | some x =>
      rw [hl] at hs
      simp only [Option.some.injEq, Prod.mk.injEq] at hs
      obtain ⟨rfl, rfl⟩ := hs
      have hne : l ≠ [] := by rintro rfl; simp at hl
      have hpos : 0 < l.length := List.length_pos_of_ne_nil hne
      have hx : l[l.length - 1] = x := by
        rw [List.getLast?_eq_getElem?, List.getElem?_eq_getElem (by omega)] at hl
        simpa using hl
      refine ⟨⟨v.cells, v.size - 1⟩, ?_, ?_, ?_, ?_⟩
      · unfold cvStep; dsimp only; unfold cvPopBack
        rw [if_neg (by rw [h.size]; omega), h.size, cvRead_of_lt h (by omega), hx]
      · simp [h.size]
      · have := h.cap; dsimp only; omega
      · intro i hi
        rw [List.length_dropLast] at hi
        rw [h.get i (by omega)]; simp
  | reserve n =>
    simp only [cvSpecStep, Option.some.injEq, Prod.mk.injEq] at hs
    obtain ⟨rfl, rfl⟩ := hs
    exact ⟨_, rfl, (cvRep_reserve h n).1⟩
  | set pos x =>
    simp only [cvSpecStep] at hs
    split_ifs at hs with hp
    simp only [Option.some.injEq, Prod.mk.injEq] at hs
    obtain ⟨rfl, rfl⟩ := hs
    have hc := h.cap; have hz := h.size
    refine ⟨⟨v.cells.set pos (some x), v.size⟩, ?_, ?_, ?_, ?_⟩
    · unfold cvStep; dsimp only; unfold cvSet; rw [if_pos (by omega), if_pos (by omega)]
    · simp [hz]
    · simp [hc]
    · intro i hi
      rw [List.length_set] at hi
      dsimp only
      by_cases hi' : i = pos
      · subst hi'; rw [List.getElem?_set_self (by omega), List.getElem_set_self]
      · rw [List.getElem?_set_ne (by omega), h.get i hi, List.getElem_set_ne (by omega)]
  | «at» pos =>
    simp only [cvSpecStep] at hs
    cases hl : l[pos]? with
    | none => rw [hl] at hs; simp at hs
    | some x =>
      rw [hl] at hs
      simp only [Option.some.injEq, Prod.mk.injEq] at hs
      obtain ⟨rfl, rfl⟩ := hs
      obtain ⟨hp, rfl⟩ := List.getElem?_eq_some_iff.1 hl
      refine ⟨v, ?_, h⟩
      unfold cvStep; dsimp only; unfold cvAt; rw [if_pos (by rw [h.size]; omega), cvRead_of_lt h hp]
  | front =>
    simp only [cvSpecStep] at hs
    cases l with
    | nil => simp at hs
    | cons x t =>
      simp only [List.head?_cons, Option.some.injEq, Prod.mk.injEq] at hs
      obtain ⟨rfl, rfl⟩ := hs
      refine ⟨v, ?_, h⟩
      unfold cvStep; dsimp only; unfold cvFront
      rw [if_neg (by rw [h.size]; simp), cvRead_of_lt h (by simp)]; rfl
  | back =>
    simp only [cvSpecStep] at hs
    cases hl : l.getLast? with
    | none => rw [hl] at hs; simp at hs
    | some x =>
      rw [hl] at hs
      simp only [Option.some.injEq, Prod.mk.injEq] at hs
      obtain ⟨rfl, rfl⟩ := hs
      have hne : l ≠ [] := by rintro rfl; simp at hl
      have hpos : 0 < l.length := List.length_pos_of_ne_nil hne
      have hx : l[l.length - 1] = x := by
        rw [List.getLast?_eq_getElem?, List.getElem?_eq_getElem (by omega)] at hl
        simpa using hl
      refine ⟨v, ?_, h⟩
      unfold cvStep; dsimp only; unfold cvBack
      rw [if_neg (by rw [h.size]; omega), h.size, cvRead_of_lt h (by omega), hx]

theorem cvRep_run : ∀ (ops : List (CVOp α)) {v : CVec α} {l l' : List α} {rs : List (Option α)}, CVRep v l →
    cvSpecRun ops l = some (l', rs) → ∃ v', cvRun ops v = .ok (v', rs) ∧ CVRep v' l' := by
  intro ops
  induction ops with
  | nil =>
    intro v l l' rs h hs
    simp only [cvSpecRun, Option.some.injEq, Prod.mk.injEq] at hs
    obtain ⟨rfl, rfl⟩ := hs
    exact ⟨v, rfl, h⟩
  | cons o os ih =>
    intro v l l' rs h hs
    unfold cvSpecRun at hs
    cases h1 : cvSpecStep l o with
    | none => rw [h1] at hs; simp at hs
    | some p =>
      obtain ⟨l1, r⟩ := p
      rw [h1] at hs
      dsimp only at hs
      cases h2 : cvSpecRun os l1 with
      | none => rw [h2] at hs; simp at hs
      | some q =>
        obtain ⟨l2, rs2⟩ := q
        rw [h2] at hs
        simp only [Option.some.injEq, Prod.mk.injEq] at hs
        obtain ⟨rfl, rfl⟩ := hs
        obtain ⟨v1, h3, h4⟩ := cvRep_step h o h1
        obtain ⟨v2, h5, h6⟩ := ih h4 h2
        exact ⟨v2, by unfold cvRun; rw [h3]; dsimp only; rw [h5], h6⟩

theorem cvRep_ctor (n : ℕ) : CVRep (cvCtor n : CVec α) [] := by
  have h0 : CVRep (cvCtorZero : CVec α) [] := ⟨rfl, le_rfl, fun i hi => absurd hi (by simp)⟩
  exact (cvRep_reserve h0 n).1

/-- **C29.** From a vector constructed with any initial capacity, every history of operations that is legal on a list succeeds on the vector: no
assertion fails, nothing is read or written outside of the allocated block, no unwritten cell is read; it returns the
values that the list operations return and leaves the same contents. -/
theorem C29_cvector_refines_list (n : ℕ) (ops : List (CVOp α)) (l : List α) (rs : List (Option α))
    (h : cvSpecRun ops [] = some (l, rs)) :
    ∃ v, cvRun ops (cvCtor n) = .ok (v, rs) ∧ v.size = l.length ∧ v.size ≤ v.capacity ∧
      ∀ (i : ℕ) (hi : i < l.length), cvAt v i = .ok l[i] := by
  obtain ⟨v, h1, h2⟩ := cvRep_run ops (cvRep_ctor n) h
  refine ⟨v, h1, h2.size, h2.cap, ?_⟩
  intro i hi
  unfold cvAt
  rw [if_pos (by rw [h2.size]; omega), cvRead_of_lt h2 hi]

/-- **C29 (defect).** The assertions of `_at` and `_set` use `pos <= size`: reading position `size` passes the assertion and reads an
unwritten cell or outside of the block. -/
theorem C29_at_end_not_caught (x y : α) :
    (∃ v, cvPushBack (cvCtor 0) x = .ok v ∧ v.size = 1 ∧ cvAt v 1 = .uninit) ∧
    (∃ v, cvPushBack (cvCtor 1) x = .ok v ∧ v.size = 1 ∧ cvAt v 1 = .outOfBounds ∧ cvSet v 1 y = .outOfBounds) :=
  ⟨⟨_, rfl, rfl, rfl⟩, ⟨_, rfl, rfl, rfl, rfl⟩⟩

/-- Non-vacuity: a legal history that grows the vector past its first capacity. -/
example : cvSpecRun [CVOp.push 5, .push 6, .set 0 7, .at 0, .back, .pop, .push 9, .front] ([] : List ℕ) =
    some ([7, 9], [none, none, some 7, some 7, some 6, some 6, none, some 7]) := by decide

end Moo
