import Verif.Model.DominatedSets
import Verif.Props.Epsilon
import Verif.Props.Nondominated
import Mathlib.Data.Fintype.Card
import Mathlib.Data.Fintype.EquivFin

/-!
# Property C39: comparison of sets of points by dominance
-/

set_option autoImplicit false
set_option linter.unusedSectionVars false

namespace Moo

section
variable {α : Type*} [LinearOrder α]

/-- The first `n` rows of `A` form a front: no row weakly dominates another row (so there are no duplicates). -/
def IsFront (dim : ℕ) (dir : ℕ → ℤ) (A : ℕ → ℕ → α) (n : ℕ) : Prop := ∀ i < n, ∀ j < n, i ≠ j → ¬ WeakDomDir dim dir (A i) (A j)

theorem weakDomDir_trans {dim : ℕ} {dir : ℕ → ℤ} {p q r : ℕ → α} (h1 : WeakDomDir dim dir p q) (h2 : WeakDomDir dim dir q r) : WeakDomDir dim dir p r :=
  fun d hd => ⟨fun h => ((h1 d hd).1 h).trans ((h2 d hd).1 h), fun h => ((h2 d hd).2 h).trans ((h1 d hd).2 h)⟩

theorem weakDomDir_refl (dim : ℕ) (dir : ℕ → ℤ) (p : ℕ → α) : WeakDomDir dim dir p p := fun _ _ => ⟨fun _ => le_rfl, fun _ => le_rfl⟩

theorem setWeakDomDir_trans {dim : ℕ} {dir : ℕ → ℤ} {A B C : ℕ → ℕ → α} {nA nB nC : ℕ} (h1 : SetWeakDomDir dim dir A nA B nB)
    (h2 : SetWeakDomDir dim dir B nB C nC) : SetWeakDomDir dim dir A nA C nC := by
  intro c hc
  obtain ⟨b, hb, hbc⟩ := h2 c hc
  obtain ⟨a, ha, hab⟩ := h1 b hb
  exact ⟨a, ha, weakDomDir_trans hab hbc⟩

theorem dsDominance_spec (dim : ℕ) (a b : ℕ → α) (dir : ℕ → ℤ) :
    (dsDominance dim a b dir = -1 ∧ ¬ WeakDomDir dim dir a b) ∨ (dsDominance dim a b dir = 1 ∧ DomDir dim dir a b) ∨
      (dsDominance dim a b dir = 0 ∧ WeakDomDir dim dir a b ∧ WeakDomDir dim dir b a) := by
  unfold dsDominance
  split_ifs with h1 h2
  · refine Or.inl ⟨rfl, fun hw => ?_⟩
    simp only [List.any_eq_true, List.mem_range, decide_eq_true_eq] at h1
    obtain ⟨d, hd, h⟩ := h1
    rcases h with h | h
    · exact absurd ((hw d hd).1 h.1) (not_le.2 h.2)
    · exact absurd ((hw d hd).2 h.1) (not_le.2 h.2)
  all_goals
    have hw : WeakDomDir dim dir a b := by
      intro d hd
      simp only [List.any_eq_true, List.mem_range, decide_eq_true_eq, not_exists, not_and, not_or] at h1
      have := h1 d hd
      exact ⟨fun h => not_lt.1 (this.1 h), fun h => not_lt.1 (this.2 h)⟩
  · refine Or.inr (Or.inl ⟨rfl, hw, ?_⟩)
    simpa only [List.any_eq_true, List.mem_range, decide_eq_true_eq] using h2
  · refine Or.inr (Or.inr ⟨rfl, hw, ?_⟩)
    intro d hd
    simp only [List.any_eq_true, List.mem_range, decide_eq_true_eq, not_exists, not_and, not_or] at h2
    have := h2 d hd
    exact ⟨fun h => not_lt.1 (this.1 h), fun h => not_lt.1 (this.2 h)⟩

theorem dsInner_spec (dim : ℕ) (dir : ℕ → ℤ) (X : ℕ → ℕ → α) (py : ℕ → α) (xs : List ℕ) : ∀ dom : Bool,
    ((dsInner dim dir X py xs dom).2 = true ↔ ∃ x ∈ xs, WeakDomDir dim dir (X x) py) ∧
    ((dsInner dim dir X py xs dom).1 = true → dom = true ∨ ∃ x ∈ xs, DomDir dim dir (X x) py) ∧
    ((dsInner dim dir X py xs dom).1 = false → (dsInner dim dir X py xs dom).2 = true → dom = false ∧
      ∃ x ∈ xs, WeakDomDir dim dir (X x) py ∧ WeakDomDir dim dir py (X x)) := by
  induction xs with
  | nil => intro dom; simp [dsInner]
  | cons x xs ih =>
    intro dom
    rw [dsInner]
    rcases dsDominance_spec dim (X x) py dir with ⟨e, h⟩ | ⟨e, h⟩ | ⟨e, h⟩
    · simp only [e, show (-1 : ℤ) ≠ 1 by decide, show (-1 : ℤ) ≠ 0 by decide, if_false]
      obtain ⟨h1, h2, h3⟩ := ih dom
      refine ⟨?_, ?_, ?_⟩
      · rw [h1]; simp [h]
      · intro h'
        rcases h2 h' with h' | ⟨y, hy, h'⟩
        · exact Or.inl h'
        · exact Or.inr ⟨y, by simp [hy], h'⟩
      · intro ha hb
        obtain ⟨h4, y, hy, h5⟩ := h3 ha hb
        exact ⟨h4, y, by simp [hy], h5⟩
    · simp only [e, if_true]
      refine ⟨by simpa using Or.inl h.1, fun _ => Or.inr ⟨x, by simp, h⟩, by simp⟩
    · simp only [e, show (0 : ℤ) ≠ 1 by decide, if_false, if_true]
      exact ⟨by simpa using Or.inl h.1, fun h' => Or.inl h', fun h' _ => ⟨h', x, by simp, h⟩⟩

theorem dsOuter_spec (dim : ℕ) (dir : ℕ → ℤ) (X : ℕ → ℕ → α) (nX : ℕ) (Y : ℕ → ℕ → α) (ys : List ℕ) : ∀ s : Bool × Bool, (ys = [] → s.2 = true) →
    ((dsOuter dim dir X nX Y ys s).2 = true ↔ ∀ y ∈ ys, ∃ x < nX, WeakDomDir dim dir (X x) (Y y)) ∧
    ((dsOuter dim dir X nX Y ys s).1 = true → (dsOuter dim dir X nX Y ys s).2 = true → s.1 = true ∨ ∃ y ∈ ys, ∃ x < nX, DomDir dim dir (X x) (Y y)) ∧
    ((dsOuter dim dir X nX Y ys s).1 = false → (dsOuter dim dir X nX Y ys s).2 = true → s.1 = false ∧
      ∀ y ∈ ys, ∃ x < nX, WeakDomDir dim dir (X x) (Y y) ∧ WeakDomDir dim dir (Y y) (X x)) := by
  induction ys with
  | nil => intro s h; simp [dsOuter, h rfl]
  | cons y ys ih =>
    intro s _
    obtain ⟨h1, h2, h3⟩ := dsInner_spec dim dir X (Y y) (List.range nX) s.1
    simp only [List.mem_range] at h1 h2 h3
    rw [dsOuter]
    by_cases hb : (dsInner dim dir X (Y y) (List.range nX) s.1).2 = true
    · simp only [hb, Bool.not_true, Bool.false_eq_true, if_false]
      obtain ⟨g1, g2, g3⟩ := ih (dsInner dim dir X (Y y) (List.range nX) s.1) (fun _ => hb)
      refine ⟨?_, ?_, ?_⟩
      · rw [g1]; simp [h1.1 hb]
      · intro ha hc
        rcases g2 ha hc with h | ⟨z, hz, h⟩
        · rcases h2 h with h | h
          · exact Or.inl h
          · exact Or.inr ⟨y, by simp, h⟩
        · exact Or.inr ⟨z, by simp [hz], h⟩
      · intro ha hc
        obtain ⟨g4, g5⟩ := g3 ha hc
        obtain ⟨h4, h5⟩ := h3 g4 hb
        refine ⟨h4, ?_⟩
        intro z hz
        rcases List.mem_cons.1 hz with rfl | hz
        · exact h5
        · exact g5 z hz
    · simp only [Bool.not_eq_true] at hb
      simp only [hb, Bool.not_false, if_true]
      refine ⟨?_, by simp, by simp⟩
      simp only [Bool.false_eq_true, List.mem_cons, forall_eq_or_imp, false_iff, not_and]
      intro h
      rw [h1.2 h] at hb
      cases hb

/-- If every row of the front `Y` equals, in the objectives that count, a row of `X`, then `Y` has at most as many rows as `X`; with as many, every row of `X` is met. -/
theorem front_le {dim : ℕ} {dir : ℕ → ℤ} {X Y : ℕ → ℕ → α} {n m : ℕ} (hY : IsFront dim dir Y n)
    (h : ∀ y < n, ∃ x < m, WeakDomDir dim dir (X x) (Y y) ∧ WeakDomDir dim dir (Y y) (X x)) :
    n ≤ m ∧ (n = m → ∀ x < m, ∃ y < n, WeakDomDir dim dir (Y y) (X x)) := by
  choose! f hf1 hf2 using h
  have hinj : Function.Injective (fun y : Fin n => (⟨f y, hf1 y y.2⟩ : Fin m)) := by
    intro y z hyz
    by_contra hne
    have e : f y = f z := congrArg Fin.val hyz
    refine hY y y.2 z z.2 (fun h => hne (Fin.ext h)) ?_
    have h1 := (hf2 y y.2).2
    have h2 := (hf2 z z.2).1
    rw [← e] at h2
    exact weakDomDir_trans h1 h2
  refine ⟨by simpa using Fintype.card_le_of_injective _ hinj, ?_⟩
  rintro rfl x hx
  obtain ⟨y, hy⟩ := (Finite.injective_iff_surjective.1 hinj) ⟨x, hx⟩
  have e : f y = x := congrArg Fin.val hy
  refine ⟨y, y.2, ?_⟩
  rw [← e]
  exact (hf2 y y.2).2

/-- `set_dominates` for fronts. -/
theorem setDominates_spec {dim : ℕ} {dir : ℕ → ℤ} {X Y : ℕ → ℕ → α} {nX nY : ℕ} (hX : IsFront dim dir X nX) (hY : IsFront dim dir Y nY) (hn : 0 < nY) :
    (¬ SetWeakDomDir dim dir X nX Y nY ∧ setDominates dim dir X nX Y nY = 1) ∨
    (SetWeakDomDir dim dir X nX Y nY ∧ ¬ SetWeakDomDir dim dir Y nY X nX ∧ setDominates dim dir X nX Y nY = -1) ∨
    (SetWeakDomDir dim dir X nX Y nY ∧ SetWeakDomDir dim dir Y nY X nX ∧ setDominates dim dir X nX Y nY = 0) := by
  obtain ⟨h1, h2, h3⟩ := dsOuter_spec dim dir X nX Y (List.range nY) (false, false) (by
    intro h
    have := congrArg List.length h
    simp at this; omega)
  unfold setDominates
  dsimp only
  generalize dsOuter dim dir X nX Y (List.range nY) (false, false) = s at h1 h2 h3
  simp only [List.mem_range] at h1 h2 h3
  by_cases hs : s.2 = true
  · have hw : SetWeakDomDir dim dir X nX Y nY := h1.1 hs
    by_cases hb : SetWeakDomDir dim dir Y nY X nX
    · refine Or.inr (Or.inr ⟨hw, hb, ?_⟩)
      have eq1 : ∀ y < nY, ∃ x < nX, WeakDomDir dim dir (X x) (Y y) ∧ WeakDomDir dim dir (Y y) (X x) := by
        intro y hy
        obtain ⟨x, hx, hxy⟩ := hw y hy
        obtain ⟨z, hz, hzx⟩ := hb x hx
        have : z = y := by
          by_contra hne
          exact hY z hz y hy hne (weakDomDir_trans hzx hxy)
        subst this
        exact ⟨x, hx, hxy, hzx⟩
      have eq2 : ∀ x < nX, ∃ y < nY, WeakDomDir dim dir (Y y) (X x) ∧ WeakDomDir dim dir (X x) (Y y) := by
        intro x hx
        obtain ⟨y, hy, hyx⟩ := hb x hx
        obtain ⟨z, hz, hzy⟩ := hw y hy
        have : z = x := by
          by_contra hne
          exact hX z hz x hx hne (weakDomDir_trans hzy hyx)
        subst this
        exact ⟨y, hy, hyx, hzy⟩
      have e : nX = nY := le_antisymm (front_le hX eq2).1 (front_le hY eq1).1
      have hs1 : s.1 = false := by
        rcases Bool.eq_false_or_eq_true s.1 with h | h
        · exfalso
          rcases h2 h hs with h' | ⟨y, hy, x, hx, hxy⟩
          · cases h'
          · obtain ⟨z, hz, hzx⟩ := hb x hx
            have : z = y := by
              by_contra hne
              exact hY z hz y hy hne (weakDomDir_trans hzx hxy.1)
            subst this
            exact ((domDir_iff _ _ _ _).1 hxy).2 hzx
        · exact h
      simp [hs, hs1, e]
    · refine Or.inr (Or.inl ⟨hw, hb, ?_⟩)
      have : nX ≠ nY ∨ s.1 = true := by
        by_contra hn'
        push Not at hn'
        obtain ⟨e, hs1⟩ := hn'
        have := (front_le hY (h3 (by simpa using hs1) hs).2).2 e.symm
        exact hb this
      simp [hs, this]
  · refine Or.inl ⟨fun h => hs (h1.2 h), ?_⟩
    simp only [Bool.not_eq_true] at hs
    simp [hs]

end

section
variable {K : Type*} [Field K] [LinearOrder K] [IsStrictOrderedRing K]

/-- **C39**: for non-empty fronts `pareto_better` never aborts, and returns -1 (or 1) if and only if the first (second) set weakly dominates the other one and not conversely. -/
theorem C39_pareto_better {dim : ℕ} {dir : ℕ → ℤ} {A B : ℕ → ℕ → K} {nA nB : ℕ} (hA : IsFront dim dir A nA) (hB : IsFront dim dir B nB)
    (hnA : 0 < nA) (hnB : 0 < nB) :
    ∃ r : ℤ, paretoBetter dim dir A nA B nB = some r ∧ (r = -1 ∨ r = 0 ∨ r = 1) ∧
      (r = -1 ↔ SetWeakDomDir dim dir A nA B nB ∧ ¬ SetWeakDomDir dim dir B nB A nA) ∧
      (r = 1 ↔ SetWeakDomDir dim dir B nB A nA ∧ ¬ SetWeakDomDir dim dir A nA B nB) := by
  obtain ⟨e1, e2, e3⟩ := C19_epsilon_additive_ind A B dim nA nB dir
  unfold paretoBetter
  dsimp only
  rcases setDominates_spec hA hB hnB with ⟨h1, h2⟩ | ⟨h1, h1', h2⟩ | ⟨h1, h1', h2⟩
  · rcases setDominates_spec hB hA hnA with ⟨g1, g2⟩ | ⟨g1, g1', g2⟩ | ⟨g1, g1', g2⟩
    · have : epsilonAdditiveInd dim dir A nA B nB = 0 := e3.2 ⟨fun h => absurd h h1, fun h => absurd h g1⟩
      refine ⟨0, by simp [h2, g2, this], by simp, ?_, ?_⟩
      · simp [h1]
      · simp [g1]
    · have : epsilonAdditiveInd dim dir A nA B nB = 1 := e2.2 ⟨g1, h1⟩
      refine ⟨1, by simp [h2, g2, this], by simp, ?_, ?_⟩
      · simp [h1]
      · simp [g1, h1]
    · exact absurd g1' h1
  · have : epsilonAdditiveInd dim dir A nA B nB = -1 := e1.2 ⟨h1, h1'⟩
    refine ⟨-1, by simp [h2, this], by simp, ?_, ?_⟩
    · simp [h1, h1']
    · simp [h1']
  · have : epsilonAdditiveInd dim dir A nA B nB = 0 := e3.2 ⟨fun _ => h1', fun _ => h1⟩
    refine ⟨0, by simp [h2, this], by simp, ?_, ?_⟩
    · simp [h1']
    · simp [h1]

/-- **C39 (equal fronts)**: two fronts weakly dominate each other if and only if they have the same vectors, in the objectives that are not ignored. -/
theorem C39_equal_fronts {dim : ℕ} {dir : ℕ → ℤ} {A B : ℕ → ℕ → K} {nA nB : ℕ} (hA : IsFront dim dir A nA) (hB : IsFront dim dir B nB) :
    SetWeakDomDir dim dir A nA B nB ∧ SetWeakDomDir dim dir B nB A nA ↔
      (∀ b < nB, ∃ a < nA, ∀ d < dim, dir d ≠ 0 → A a d = B b d) ∧ (∀ a < nA, ∃ b < nB, ∀ d < dim, dir d ≠ 0 → A a d = B b d) := by
  have hsame : ∀ p q : ℕ → K, WeakDomDir dim dir p q → WeakDomDir dim dir q p → ∀ d < dim, dir d ≠ 0 → p d = q d := by
    intro p q h1 h2 d hd h0
    rcases lt_or_gt_of_ne h0 with h | h
    · exact le_antisymm ((h1 d hd).1 h) ((h2 d hd).1 h)
    · exact le_antisymm ((h2 d hd).2 h) ((h1 d hd).2 h)
  have hweak : ∀ p q : ℕ → K, (∀ d < dim, dir d ≠ 0 → p d = q d) → WeakDomDir dim dir p q := by
    intro p q h d hd
    exact ⟨fun h' => (h d hd (by omega)).le, fun h' => (h d hd (by omega)).ge⟩
  constructor
  · rintro ⟨hw, hb⟩
    constructor
    · intro y hy
      obtain ⟨x, hx, hxy⟩ := hw y hy
      obtain ⟨z, hz, hzx⟩ := hb x hx
      have : z = y := by
        by_contra hne
        exact hB z hz y hy hne (weakDomDir_trans hzx hxy)
      subst this
      exact ⟨x, hx, hsame _ _ hxy hzx⟩
    · intro x hx
      obtain ⟨y, hy, hyx⟩ := hb x hx
      obtain ⟨z, hz, hzy⟩ := hw y hy
      have : z = x := by
        by_contra hne
        exact hA z hz x hx hne (weakDomDir_trans hzy hyx)
      subst this
      exact ⟨y, hy, hsame _ _ hzy hyx⟩
  · rintro ⟨h1, h2⟩
    constructor
    · intro b hb
      obtain ⟨a, ha, h⟩ := h1 b hb
      exact ⟨a, ha, hweak _ _ h⟩
    · intro a ha
      obtain ⟨b, hb, h⟩ := h2 a ha
      exact ⟨b, hb, hweak _ _ (fun d hd h0 => (h d hd h0).symm)⟩

/-- **C39 (strict order)**: on non-empty fronts "better" is irreflexive, asymmetric and transitive. -/
theorem C39_strict_order {dim : ℕ} {dir : ℕ → ℤ} {A B C : ℕ → ℕ → K} {nA nB nC : ℕ} (hA : IsFront dim dir A nA) (hB : IsFront dim dir B nB)
    (hC : IsFront dim dir C nC) (hnA : 0 < nA) (hnB : 0 < nB) (hnC : 0 < nC) :
    paretoBetter dim dir A nA A nA = some 0 ∧
    (paretoBetter dim dir A nA B nB = some (-1) ↔ paretoBetter dim dir B nB A nA = some 1) ∧
    (paretoBetter dim dir A nA B nB = some (-1) → paretoBetter dim dir B nB C nC = some (-1) → paretoBetter dim dir A nA C nC = some (-1)) := by
  have key : ∀ {A B : ℕ → ℕ → K} {nA nB : ℕ}, IsFront dim dir A nA → IsFront dim dir B nB → 0 < nA → 0 < nB →
      (paretoBetter dim dir A nA B nB = some (-1) ↔ SetWeakDomDir dim dir A nA B nB ∧ ¬ SetWeakDomDir dim dir B nB A nA) ∧
      (paretoBetter dim dir A nA B nB = some 1 ↔ SetWeakDomDir dim dir B nB A nA ∧ ¬ SetWeakDomDir dim dir A nA B nB) := by
    intro A B nA nB hA hB hnA hnB
    obtain ⟨r, h1, _, h3, h4⟩ := C39_pareto_better hA hB hnA hnB
    rw [h1]
    simp only [Option.some.injEq]
    exact ⟨h3, h4⟩
  refine ⟨?_, ?_, ?_⟩
  · obtain ⟨r, h1, h2, h3, h4⟩ := C39_pareto_better hA hA hnA hnA
    rcases h2 with h | h | h
    · exact absurd (h3.1 h).1 (h3.1 h).2
    · rw [h1, h]
    · exact absurd (h4.1 h).1 (h4.1 h).2
  · rw [(key hA hB hnA hnB).1, (key hB hA hnB hnA).2]
  · rw [(key hA hB hnA hnB).1, (key hB hC hnB hnC).1, (key hA hC hnA hnC).1]
    rintro ⟨h1, h2⟩ ⟨h3, h4⟩
    exact ⟨setWeakDomDir_trans h1 h3, fun h => h2 (setWeakDomDir_trans h3 h)⟩

/-- The sets of a file: first row and number of rows, from the cumulative sizes. -/
def runsOf : List ℕ → ℕ → List (ℕ × ℕ)
  | [], _ => []
  | c :: cs, size => (size, c - size) :: runsOf cs c

open Classical in
/-- Set `r` of the first file is better than set `s` of the second. -/
noncomputable def betterRun (dim : ℕ) (dir : ℕ → ℤ) (A B : ℕ → ℕ → K) (r s : ℕ × ℕ) : Bool :=
  decide (SetWeakDomDir dim dir (fun i => A (r.1 + i)) r.2 (fun i => B (s.1 + i)) s.2 ∧
    ¬ SetWeakDomDir dim dir (fun i => B (s.1 + i)) s.2 (fun i => A (r.1 + i)) r.2)

/-- All sets of the file are non-empty fronts. -/
def FrontFile (dim : ℕ) (dir : ℕ → ℤ) (A : ℕ → ℕ → K) (cum : List ℕ) : Prop :=
  ∀ r ∈ runsOf cum 0, 0 < r.2 ∧ IsFront dim dir (fun i => A (r.1 + i)) r.2

theorem cmpRow_spec {dim : ℕ} {dir : ℕ → ℤ} {A B : ℕ → ℕ → K} {r : ℕ × ℕ} (hr : 0 < r.2 ∧ IsFront dim dir (fun i => A (r.1 + i)) r.2) (cs : List ℕ) :
    ∀ (size : ℕ) (s : ℕ × ℕ), (∀ q ∈ runsOf cs size, 0 < q.2 ∧ IsFront dim dir (fun i => B (q.1 + i)) q.2) →
      cmpRow dim dir (fun i => A (r.1 + i)) r.2 B cs size s =
        some (s.1 + (runsOf cs size).countP (fun q => betterRun dim dir A B r q), s.2 + (runsOf cs size).countP (fun q => betterRun dim dir B A q r)) := by
  induction cs with
  | nil => intro size s _; rfl
  | cons c cs ih =>
    intro size s h
    have hq := h (size, c - size) (by simp [runsOf])
    obtain ⟨v, h1, h2, h3, h4⟩ := C39_pareto_better hr.2 hq.2 hr.1 hq.1
    rw [cmpRow, h1]
    dsimp only
    rw [ih c _ (fun q hq => h q (by simp [runsOf, hq])), runsOf, List.countP_cons, List.countP_cons]
    have ha : betterRun dim dir A B r (size, c - size) = decide (v = -1) := by unfold betterRun; rw [decide_eq_decide, h3]
    have hb : betterRun dim dir B A (size, c - size) r = decide (v = 1) := by unfold betterRun; rw [decide_eq_decide, h4]
    rw [ha, hb]
    rcases h2 with rfl | rfl | rfl
    · simp; omega
    · simp
    · simp; omega

/-- **C39 (counts)**: for two files of non-empty fronts, `cmpparetos` counts the pairs of sets in which the set of the first (second) file is better. -/
theorem C39_cmpparetos {dim : ℕ} {dir : ℕ → ℤ} {A B : ℕ → ℕ → K} {cumA cumB : List ℕ} (hA : FrontFile dim dir A cumA) (hB : FrontFile dim dir B cumB) :
    cmpparetos dim dir A cumA B cumB = some
      (((runsOf cumA 0).map (fun r => (runsOf cumB 0).countP (fun q => betterRun dim dir A B r q))).sum,
       ((runsOf cumA 0).map (fun r => (runsOf cumB 0).countP (fun q => betterRun dim dir B A q r))).sum) := by
  have key : ∀ (cs : List ℕ) (size : ℕ) (s : ℕ × ℕ), (∀ q ∈ runsOf cs size, 0 < q.2 ∧ IsFront dim dir (fun i => A (q.1 + i)) q.2) →
      cmpRows dim dir A B cumB cs size s = some
      (s.1 + ((runsOf cs size).map (fun r => (runsOf cumB 0).countP (fun q => betterRun dim dir A B r q))).sum,
       s.2 + ((runsOf cs size).map (fun r => (runsOf cumB 0).countP (fun q => betterRun dim dir B A q r))).sum) := by
    intro cs
    induction cs with
    | nil => intro size s _; simp [cmpRows, runsOf]
    | cons c cs ih =>
      intro size s h
      rw [cmpRows, cmpRow_spec (r := (size, c - size)) (h _ (by simp [runsOf])) cumB 0 s hB]
      dsimp only
      rw [ih c _ (fun q hq => h q (by simp [runsOf, hq])), runsOf]
      simp only [List.map_cons, List.sum_cons, Nat.add_assoc]
  unfold cmpparetos
  rw [key cumA 0 (0, 0) hA]
  simp

/-- **C39 (ranks)**: the rank of a file is the number of times that a set of another file is better than one of its sets. -/
theorem C39_rank (numfiles : ℕ) (results : ℕ → ℕ → ℤ) (k : ℕ) :
    dsRank numfiles results k = (((List.range numfiles).filter (fun j => j ≠ k)).map (fun j => results j k)).sum := by
  unfold dsRank
  have : ∀ (l : List ℕ) (a : ℤ), l.foldl (fun rank j => if k = j then rank else rank + results j k) a = a + ((l.filter (fun j => j ≠ k)).map (fun j => results j k)).sum := by
    intro l
    induction l with
    | nil => intro a; simp
    | cons j l ih =>
      intro a
      rw [List.foldl_cons, ih]
      by_cases h : k = j
      · subst h; simp
      · have h' : j ≠ k := fun e => h e.symm
        simp [h, h', add_assoc]
  rw [this]; simp

/-- **C39 (check, exact)**: for non-empty sets and no ignored objective, the check of the input accepts exactly the files whose sets are fronts of at least two points. -/
theorem C39_check_exact (sortFn : (ℕ → ℕ → K) → ℕ → List ℕ) (garbage : ℕ → Bool) {dim : ℕ} (mx : ℕ → Bool) {P : ℕ → ℕ → K} {cum : List ℕ}
    (hsort : ∀ pp size, SortedPP2d pp size (sortFn pp size)) (h1 : ∀ r ∈ runsOf cum 0, 1 ≤ r.2) :
    ∃ b, dsCheckFailed sortFn garbage dim (minmaxFromBool mx) P cum 0 = some b ∧
      (b = false ↔ FrontFile dim (minmaxFromBool mx) P cum ∧ ∀ r ∈ runsOf cum 0, 2 ≤ r.2) := by
  have key : ∀ (cs : List ℕ) (size : ℕ), (∀ r ∈ runsOf cs size, 1 ≤ r.2) → ∃ b, dsCheckFailed sortFn garbage dim (minmaxFromBool mx) P cs size = some b ∧
      (b = false ↔ (∀ r ∈ runsOf cs size, 0 < r.2 ∧ IsFront dim (minmaxFromBool mx) (fun i => P (r.1 + i)) r.2) ∧ ∀ r ∈ runsOf cs size, 2 ≤ r.2) := by
    intro cs
    induction cs with
    | nil => intro size _; exact ⟨false, rfl, by simp [runsOf]⟩
    | cons c cs ih =>
      intro size h
      have h1 : 1 ≤ c - size := h (size, c - size) (by simp [runsOf])
      obtain ⟨b, g1, g2⟩ := ih c (fun q hq => h q (by simp [runsOf, hq]))
      rcases Nat.eq_or_lt_of_le h1 with h1 | h2
      · refine ⟨true, ?_, ?_⟩
        · rw [dsCheckFailed, ← h1, C06_false_single]
          dsimp only
          rw [g1]
          simp
        · simp only [Bool.true_eq_false, false_iff, not_and]
          intro _ hh
          have := hh (size, c - size) (by simp [runsOf])
          dsimp only at this
          omega
      obtain ⟨r, e1, e2, e3⟩ := C06_find_dominated_partial sortFn garbage (fun i => P (size + i)) dim (c - size) mx h2
        (fun a b => neg_le_neg_iff) (fun pp => hsort pp _)
      refine ⟨decide (r ≥ 0) || b, by rw [dsCheckFailed, e1]; dsimp only; rw [g1]; rfl, ?_⟩
      have hfr : (∀ i < c - size, ∀ j < c - size, i ≠ j → ¬ WeakDom dim mx (P (size + i)) (P (size + j))) ↔
          IsFront dim (minmaxFromBool mx) (fun i => P (size + i)) (c - size) := by
        unfold IsFront
        simp only [weakDomDir_bool]
      have hr : r = -1 ↔ ¬ r ≥ 0 := by
        constructor
        · intro h; omega
        · intro h
          by_contra hne
          obtain ⟨i, _, hi, _⟩ := e3 hne
          omega
      rw [Bool.or_eq_false_iff, decide_eq_false_iff_not, ← hr, e2, hfr, g2, runsOf]
      simp only [List.mem_cons, forall_eq_or_imp]
      constructor
      · rintro ⟨h1, h2, h3⟩; exact ⟨⟨⟨by omega, h1⟩, h2⟩, by omega, h3⟩
      · rintro ⟨⟨⟨_, h1⟩, h2⟩, _, h3⟩; exact ⟨h1, h2, h3⟩
  exact key cum 0 h1

/-- **C39 (check)**: for files whose sets have at least two points, and no ignored objective, the check of the input accepts exactly the files of fronts. Missing: sets of one point (see `C39_check_rejects_single`). -/
theorem C39_check_partial (sortFn : (ℕ → ℕ → K) → ℕ → List ℕ) (garbage : ℕ → Bool) {dim : ℕ} (mx : ℕ → Bool) {P : ℕ → ℕ → K} {cum : List ℕ}
    (hsort : ∀ pp size, SortedPP2d pp size (sortFn pp size)) (h2 : ∀ r ∈ runsOf cum 0, 2 ≤ r.2) :
    ∃ b, dsCheckFailed sortFn garbage dim (minmaxFromBool mx) P cum 0 = some b ∧ (b = false ↔ FrontFile dim (minmaxFromBool mx) P cum) := by
  obtain ⟨b, h, h'⟩ := C39_check_exact sortFn garbage mx (P := P) (cum := cum) hsort (fun r hr => le_trans (by norm_num) (h2 r hr))
  exact ⟨b, h, h'.trans ⟨fun h => h.1, fun h => ⟨h, h2⟩⟩⟩

/-- **Defect**: the check of the input rejects every file that begins with a set of a single point, although such a set is a front. -/
theorem C39_check_rejects_single (sortFn : (ℕ → ℕ → K) → ℕ → List ℕ) (garbage : ℕ → Bool) (dim : ℕ) (dir : ℕ → ℤ) (P : ℕ → ℕ → K) :
    dsCheckFailed sortFn garbage dim dir P [1] 0 = some true ∧ FrontFile dim dir P [1] := by
  refine ⟨?_, ?_⟩
  · simp [dsCheckFailed, C06_false_single]
  · intro r hr
    simp only [runsOf, List.mem_singleton] at hr
    subst hr
    refine ⟨by simp, ?_⟩
    intro i hi j hj hij
    simp at hi hj
    omega

/-- **Without the check** (`--no-check`) the program may abort: the set {(0,0),(1,1)} against {(0,0)}. -/
theorem C39_no_check_abort : paretoBetter 2 (fun _ => -1) (fun i _ => (i : ℚ)) 2 (fun _ _ => (0 : ℚ)) 1 = none := by
  have h1 : setDominates 2 (fun _ => -1) (fun i _ => (i : ℚ)) 2 (fun _ _ => (0 : ℚ)) 1 = -1 := by
    simp [setDominates, dsOuter, dsInner, dsDominance, List.range_succ]
  have h2 : epsilonAdditiveInd 2 (fun _ => -1) (fun i _ => (i : ℚ)) 2 (fun _ _ => (0 : ℚ)) 1 = 0 := by
    rw [(C19_epsilon_additive_ind _ _ _ _ _ _).2.2]
    constructor
    · intro _ a ha
      refine ⟨0, by omega, fun d _ => ⟨fun _ => by positivity, fun h => absurd h (by decide +revert)⟩⟩
    · intro _ b _
      exact ⟨0, by omega, fun d _ => ⟨fun _ => by simp, fun h => absurd h (by decide +revert)⟩⟩
  unfold paretoBetter
  rw [h1, h2]
  decide

/-- Non-vacuity: two fronts of two points, the first one better. -/
example : ∃ A B : ℕ → ℕ → ℚ, IsFront 2 (fun _ => -1) A 2 ∧ IsFront 2 (fun _ => -1) B 2 ∧ SetWeakDomDir 2 (fun _ => -1) A 2 B 2 ∧
    ¬ SetWeakDomDir 2 (fun _ => -1) B 2 A 2 := by
  have hfr : ∀ c : ℚ, IsFront 2 (fun _ => -1) (fun i d => if i = d then c else c + 1) 2 := by
    intro c i hi j hj hij h
    have := (h j (by omega)).1 (by norm_num)
    simp only [if_neg hij, if_pos] at this
    linarith
  refine ⟨_, _, hfr 0, hfr 1, ?_, ?_⟩
  · intro b hb
    refine ⟨b, hb, fun d _ => ⟨fun _ => ?_, fun h => absurd h (by decide +revert)⟩⟩
    dsimp only
    split_ifs <;> norm_num
  · intro h
    obtain ⟨a, ha, h⟩ := h 0 (by omega)
    have := (h 0 (by omega)).1 (by decide)
    dsimp only at this
    split_ifs at this <;> norm_num at this; omega

end

end Moo
