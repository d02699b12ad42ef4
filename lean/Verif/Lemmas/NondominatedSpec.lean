import Verif.Lemmas.Nondominated2d

set_option autoImplicit false
set_option linter.unusedSectionVars false

/-! # From the loop invariants to the specification -/

namespace Moo

section
variable {α : Type*} [LinearOrder α]

theorem leRow_none_iff (dim : ℕ) (minmax : ℕ → ℤ) (p q : ℕ → α) :
    leRow dim minmax AGREE_NONE p q ↔ WeakDomDir dim minmax p q := by
  unfold leRow WeakDomDir
  refine forall_congr' fun d => forall_congr' fun _ => ?_
  unfold leCoord AGREE_NONE
  simp only [lt_irrefl, if_false, gt_iff_lt, ge_iff_le]
  rcases lt_trichotomy (minmax d) 0 with h | h | h
  · simp [h, not_lt.2 h.le]
  · simp [h]
  · simp [h, not_lt.2 h.le]

theorem weakDomDir_bool (dim : ℕ) (mx : ℕ → Bool) (p q : ℕ → α) :
    WeakDomDir dim (minmaxFromBool mx) p q ↔ WeakDom dim mx p q := by
  unfold WeakDomDir WeakDom
  refine forall_congr' fun d => forall_congr' fun _ => ?_
  unfold AtLeastAsGood minmaxFromBool AGREE_MAXIMISE AGREE_MINIMISE
  cases mx d <;> simp

theorem weakDom_refl (dim : ℕ) (mx : ℕ → Bool) (p : ℕ → α) : WeakDom dim mx p p := by
  intro d _; unfold AtLeastAsGood; split <;> exact le_refl _

theorem weakDom_trans {dim : ℕ} {mx : ℕ → Bool} {p q r : ℕ → α} (h1 : WeakDom dim mx p q)
    (h2 : WeakDom dim mx q r) : WeakDom dim mx p r := by
  intro d hd
  have a := h1 d hd
  have b := h2 d hd
  unfold AtLeastAsGood at *
  split_ifs at * <;> first | exact le_trans a b | exact le_trans b a

theorem dom_iff (dim : ℕ) (mx : ℕ → Bool) (p q : ℕ → α) :
    Dom dim mx p q ↔ WeakDom dim mx p q ∧ ¬ WeakDom dim mx q p := by
  unfold Dom
  refine and_congr_right fun _ => ?_
  constructor
  · rintro ⟨d, hd, h⟩ h'
    have := h' d hd
    unfold AtLeastAsGood at this; unfold StrictlyBetter at h
    split_ifs at * <;> exact absurd h (not_lt.2 this)
  · intro h
    unfold WeakDom at h
    push Not at h
    obtain ⟨d, hd, h⟩ := h
    refine ⟨d, hd, ?_⟩
    unfold AtLeastAsGood at h; unfold StrictlyBetter
    split_ifs at * <;> exact not_le.1 h

theorem domDir_iff (dim : ℕ) (dir : ℕ → ℤ) (p q : ℕ → α) :
    DomDir dim dir p q ↔ WeakDomDir dim dir p q ∧ ¬ WeakDomDir dim dir q p := by
  unfold DomDir
  refine and_congr_right fun _ => ?_
  constructor
  · rintro ⟨d, hd, h | h⟩ h'
    · exact absurd h.2 (not_lt.2 ((h' d hd).1 h.1))
    · exact absurd h.2 (not_lt.2 ((h' d hd).2 h.1))
  · intro h
    unfold WeakDomDir at h
    push Not at h
    obtain ⟨d, hd, h⟩ := h
    refine ⟨d, hd, ?_⟩
    by_cases h1 : dir d < 0 → q d ≤ p d
    · obtain ⟨a, b⟩ := h h1; exact Or.inr ⟨a, b⟩
    · push Not at h1; exact Or.inl h1

theorem weakDom_antisymm {dim : ℕ} {mx : ℕ → Bool} {p q : ℕ → α} (h1 : WeakDom dim mx p q)
    (h2 : WeakDom dim mx q p) : SameVec dim p q := by
  intro d hd
  have a := h1 d hd
  have b := h2 d hd
  unfold AtLeastAsGood at *
  split_ifs at * <;> first | exact le_antisymm a b | exact le_antisymm b a

theorem SameVec.weakDom {dim : ℕ} {mx : ℕ → Bool} {p q : ℕ → α} (h : SameVec dim p q) :
    WeakDom dim mx p q := by
  intro d hd
  rw [h d hd]; unfold AtLeastAsGood; split <;> exact le_refl _

theorem SameVec.symm {dim : ℕ} {p q : ℕ → α} (h : SameVec dim p q) : SameVec dim q p :=
  fun d hd => (h d hd).symm

theorem SameVec.trans {dim : ℕ} {p q r : ℕ → α} (h : SameVec dim p q) (h' : SameVec dim q r) :
    SameVec dim p r := fun d hd => (h d hd).trans (h' d hd)

theorem sameVec_iff {dim : ℕ} {mx : ℕ → Bool} {p q : ℕ → α} :
    SameVec dim p q ↔ WeakDom dim mx p q ∧ WeakDom dim mx q p :=
  ⟨fun h => ⟨h.weakDom, h.symm.weakDom⟩, fun h => weakDom_antisymm h.1 h.2⟩

theorem Dom.irrefl {dim : ℕ} {mx : ℕ → Bool} {p : ℕ → α} : ¬ Dom dim mx p p := by
  rw [dom_iff]; tauto

theorem Dom.trans {dim : ℕ} {mx : ℕ → Bool} {p q r : ℕ → α} (h1 : Dom dim mx p q)
    (h2 : Dom dim mx q r) : Dom dim mx p r := by
  rw [dom_iff] at *
  exact ⟨weakDom_trans h1.1 h2.1, fun h => h1.2 (weakDom_trans h2.1 h)⟩

theorem Dom.of_weak_dom {dim : ℕ} {mx : ℕ → Bool} {p q r : ℕ → α} (h1 : WeakDom dim mx p q)
    (h2 : Dom dim mx q r) : Dom dim mx p r := by
  rw [dom_iff] at *
  exact ⟨weakDom_trans h1 h2.1, fun h => h2.2 (weakDom_trans h h1)⟩

theorem Dom.of_dom_weak {dim : ℕ} {mx : ℕ → Bool} {p q r : ℕ → α} (h1 : Dom dim mx p q)
    (h2 : WeakDom dim mx q r) : Dom dim mx p r := by
  rw [dom_iff] at *
  exact ⟨weakDom_trans h1.1 h2, fun h => h1.2 (weakDom_trans h2 h)⟩

theorem beats_none_iff (dim : ℕ) (mx : ℕ → Bool) (keep : Bool) (pts : ℕ → ℕ → α) (a b : ℕ) :
    Beats dim (minmaxFromBool mx) AGREE_NONE keep pts a b ↔
      Dom dim mx (pts a) (pts b) ∨ (keep = false ∧ b < a ∧ SameVec dim (pts a) (pts b)) := by
  unfold Beats
  rw [leRow_none_iff, leRow_none_iff, weakDomDir_bool, weakDomDir_bool, dom_iff]
  have := sameVec_iff (dim := dim) (mx := mx) (p := pts a) (q := pts b)
  tauto

end

section
variable {α : Type*} [LinearOrder α] [Neg α]

/-- the comparison of negated tables -/
theorem forceAgreeMinimize_bool (pts : ℕ → ℕ → α) (mx : ℕ → Bool)
    (hneg : ∀ a b : α, -a ≤ -b ↔ b ≤ a) :
    ∃ pp, forceAgreeMinimize pts 2 (minmaxFromBool mx) AGREE_NONE = some pp ∧
      ∀ a b, le2 pp a b ↔ WeakDom 2 mx (pts a) (pts b) := by
  have h2 : ∀ (P : ℕ → Prop), (∀ d < 2, P d) ↔ P 0 ∧ P 1 := by
    intro P
    constructor
    · intro h; exact ⟨h 0 (by omega), h 1 (by omega)⟩
    · rintro ⟨h0, h1⟩ d hd
      rcases d with _ | _ | d
      · exact h0
      · exact h1
      · omega
  unfold forceAgreeMinimize
  rw [if_neg (by decide)]
  split_ifs with h3 h4
  · refine ⟨pts, rfl, fun a b => ?_⟩
    unfold WeakDom le2
    rw [h2]
    have e0 : mx 0 = false := by
      simp [List.range_succ, minmaxFromBool, AGREE_MAXIMISE, AGREE_MINIMISE] at h3
      cases h : mx 0 <;> simp_all
    have e1 : mx 1 = false := by
      simp [List.range_succ, minmaxFromBool, AGREE_MAXIMISE, AGREE_MINIMISE] at h3
      cases h : mx 1 <;> simp_all
    simp [AtLeastAsGood, e0, e1]
  · exfalso
    simp only [List.any_eq_true, decide_eq_true_eq] at h4
    obtain ⟨d, _, hd⟩ := h4
    unfold minmaxFromBool at hd
    split at hd <;> revert hd <;> decide
  · refine ⟨_, rfl, fun a b => ?_⟩
    unfold WeakDom le2
    rw [h2]
    simp only [AtLeastAsGood, minmaxFromBool, AGREE_MAXIMISE, AGREE_MINIMISE]
    rcases Bool.eq_false_or_eq_true (mx 0) with h0 | h0 <;>
      rcases Bool.eq_false_or_eq_true (mx 1) with h1 | h1 <;> simp [h0, h1, hneg]

theorem beats2_iff {pts pp : ℕ → ℕ → α} {mx : ℕ → Bool} (keep : Bool) (p : List ℕ)
    (h : ∀ a b, le2 pp a b ↔ WeakDom 2 mx (pts a) (pts b)) (a b : ℕ) :
    Beats2 pp keep p a b ↔
      Dom 2 mx (pts a) (pts b) ∨ (keep = false ∧ p.idxOf a < p.idxOf b ∧ SameVec 2 (pts a) (pts b)) := by
  unfold Beats2
  rw [h, h, dom_iff]
  have := sameVec_iff (dim := 2) (mx := mx) (p := pts a) (q := pts b)
  tauto

/-- The flags computed by `is_nondominated`: some strict order of copies decides which copy of a duplicated
vector survives; it is the row order reversed unless there are two objectives. -/
theorem isNondominated_char (sortFn : (ℕ → ℕ → α) → ℕ → List ℕ) (garbage : ℕ → Bool)
    (data : ℕ → ℕ → α) (nobj n : ℕ) (mx : ℕ → Bool) (keep : Bool)
    (hneg : ∀ a b : α, -a ≤ -b ↔ b ≤ a)
    (hsort : ∀ pp, SortedPP2d pp n (sortFn pp n)) :
    ∃ nd, isNondominated sortFn garbage data nobj n mx keep = some nd ∧
    ∃ pri : ℕ → ℕ, (∀ i < n, ∀ j < n, pri i = pri j → i = j) ∧
      (nobj ≠ 2 → ∀ i < n, ∀ j < n, (pri i < pri j ↔ j < i)) ∧
      ∀ i < n, nd i = true ↔ ∀ j < n, ¬ (Dom nobj mx (data j) (data i) ∨
        (keep = false ∧ pri j < pri i ∧ SameVec nobj (data j) (data i))) := by
  unfold isNondominated findNondominatedSet_
  by_cases hn : n < 2
  · refine ⟨nondomInit, by simp [hn], fun i => n - i, ?_, ?_, ?_⟩
    · intro i hi j hj h; beta_reduce at h; omega
    · intro _ i hi j hj; beta_reduce; omega
    · intro i hi
      simp only [nondomInit, true_iff]
      intro j hj
      have : j = i := by omega
      subst this
      rintro (h | h)
      · exact Dom.irrefl h
      · omega
  · by_cases h2 : nobj = 2
    · subst h2
      obtain ⟨pp, hpp, hle⟩ := forceAgreeMinimize_bool data mx hneg
      obtain ⟨hs, -⟩ := findNondominatedSet2d_spec keep garbage nondomInit (hsort pp) (fun _ _ => rfl)
      refine ⟨(findNondominatedSet2d pp keep garbage nondomInit (sortFn pp n)).2, ?_,
        fun i => (sortFn pp n).idxOf i, ?_, ?_, ?_⟩
      · simp [hn, hpp]
      · intro i hi j hj h
        exact (List.idxOf_inj ((sorted_mem (hsort pp) i).2 hi)).1 h
      · intro h; exact absurd rfl h
      · intro i hi
        rw [hs i hi]
        simp only [beats2_iff keep (sortFn pp n) hle]
    · obtain ⟨nd, e, h⟩ := ndOuter_final (dim := nobj) (minmax := minmaxFromBool mx)
        (agree := AGREE_NONE) (keep := keep) (pts := data) (size := n) nondomInit (fun _ _ => rfl)
      refine ⟨nd, ?_, fun i => n - i, ?_, ?_, ?_⟩
      · simp [hn, h2, e]
      · intro i hi j hj h; beta_reduce at h; omega
      · intro _ i hi j hj; beta_reduce; omega
      · intro i hi
        rw [h i hi]
        simp only [beats_none_iff]
        refine forall_congr' fun j => forall_congr' fun hj => ?_
        have : n - j < n - i ↔ i < j := by omega
        rw [this]

end

/-- a nonempty finite set of numbers has a least element for an injective priority -/
theorem exists_min_pri (n : ℕ) (pri : ℕ → ℕ) (P : ℕ → Prop) (h : ∃ i < n, P i) :
    ∃ i < n, P i ∧ ∀ j < n, P j → pri i ≤ pri j := by
  classical
  have hex : ∃ m, ∃ i < n, P i ∧ pri i = m := by
    obtain ⟨i, hi, hp⟩ := h; exact ⟨pri i, i, hi, hp, rfl⟩
  obtain ⟨i, hi, hp, he⟩ := Nat.find_spec hex
  refine ⟨i, hi, hp, fun j hj hpj => ?_⟩
  rw [he]
  exact Nat.find_min' hex ⟨j, hj, hpj, rfl⟩

end Moo
