import Verif.Model.Epsilon
import Verif.Lemmas.NondominatedSpec
import Mathlib.Algebra.Order.Field.Basic
import Mathlib.Tactic.Linarith

set_option autoImplicit false
set_option linter.unusedSectionVars false

namespace Moo

section
variable {β : Type*} [LinearOrder β]

theorem cMax_eq (x y : β) : cMax x y = max x y := by
  unfold cMax
  split_ifs with h
  · exact (max_eq_left h.le).symm
  · exact (max_eq_right (not_lt.1 h)).symm

theorem cMin_eq (x y : β) : cMin x y = min x y := by
  unfold cMin
  split_ifs with h
  · exact (min_eq_left h.le).symm
  · exact (min_eq_right (not_lt.1 h)).symm

theorem foldMax_le {γ : Type*} (f : γ → β) (l : List γ) (init c : β) :
    l.foldl (fun m x => cMax m (f x)) init ≤ c ↔ init ≤ c ∧ ∀ x ∈ l, f x ≤ c := by
  induction l generalizing init with
  | nil => simp
  | cons a l ih => rw [List.foldl_cons, ih, cMax_eq]; simp [and_assoc]

theorem foldMin_le {γ : Type*} (f : γ → β) (l : List γ) (init c : β) :
    l.foldl (fun m x => cMin m (f x)) init ≤ c ↔ init ≤ c ∨ ∃ x ∈ l, f x ≤ c := by
  induction l generalizing init with
  | nil => simp
  | cons a l ih => rw [List.foldl_cons, ih, cMin_eq]; simp [or_assoc]

theorem foldMax_mem {γ : Type*} (f : γ → β) (l : List γ) (init : β) :
    l.foldl (fun m x => cMax m (f x)) init = init ∨
      ∃ x ∈ l, l.foldl (fun m x => cMax m (f x)) init = f x := by
  induction l generalizing init with
  | nil => simp
  | cons a l ih =>
    rw [List.foldl_cons]
    rcases ih (cMax init (f a)) with h | ⟨x, hx, h⟩
    · rw [h]; unfold cMax; split_ifs
      · exact Or.inl rfl
      · exact Or.inr ⟨a, List.mem_cons_self, rfl⟩
    · exact Or.inr ⟨x, List.mem_cons_of_mem _ hx, h⟩

theorem foldMin_mem {γ : Type*} (f : γ → β) (l : List γ) (init : β) :
    l.foldl (fun m x => cMin m (f x)) init = init ∨
      ∃ x ∈ l, l.foldl (fun m x => cMin m (f x)) init = f x := by
  induction l generalizing init with
  | nil => simp
  | cons a l ih =>
    rw [List.foldl_cons]
    rcases ih (cMin init (f a)) with h | ⟨x, hx, h⟩
    · rw [h]; unfold cMin; split_ifs
      · exact Or.inl rfl
      · exact Or.inr ⟨a, List.mem_cons_self, rfl⟩
    · exact Or.inr ⟨x, List.mem_cons_of_mem _ hx, h⟩

end

section
variable {K : Type*} [Field K] [LinearOrder K] [IsStrictOrderedRing K]

theorem fin_le_fin {a b : K} : (fin a : Ext K) ≤ fin b ↔ a ≤ b := by simp [fin]
theorem not_top_le_fin {b : K} : ¬ (⊤ : Ext K) ≤ fin b := by simp [fin]
theorem fin_ne_top {b : K} : (fin b : Ext K) ≠ ⊤ := by
  intro h; exact not_top_le_fin (b := b) h.ge
theorem fin_ne_bot {b : K} : (fin b : Ext K) ≠ ⊥ := by simp [fin]
theorem fin_inj {a b : K} : (fin a : Ext K) = fin b ↔ a = b := by simp [fin]

/-- if every value of a non-empty family is finite then so is the maximum -/
theorem foldMax_finite {γ : Type*} (f : γ → Ext K) (l : List γ) (hl : l ≠ [])
    (hf : ∀ x ∈ l, ∃ v, f x = fin v) (init : Ext K) (hi : init = ⊥ ∨ ∃ v, init = fin v) :
    ∃ v, l.foldl (fun m x => cMax m (f x)) init = fin v := by
  rcases foldMax_mem f l init with h | ⟨x, hx, h⟩
  · rcases hi with h0 | ⟨v, h0⟩
    · exfalso
      obtain ⟨x, hx⟩ := List.exists_mem_of_ne_nil l hl
      have := (foldMax_le f l init _).1 le_rfl
      have h2 := this.2 x hx
      obtain ⟨v, hv⟩ := hf x hx
      rw [h, h0, hv] at h2
      exact fin_ne_bot (le_bot_iff.1 h2)
    · exact ⟨v, h.trans h0⟩
  · obtain ⟨v, hv⟩ := hf x hx
    exact ⟨v, h.trans hv⟩

theorem foldMin_finite {γ : Type*} (f : γ → Ext K) (l : List γ) (hl : l ≠ [])
    (hf : ∀ x ∈ l, ∃ v, f x = fin v) :
    ∃ v, l.foldl (fun m x => cMin m (f x)) ⊤ = fin v := by
  rcases foldMin_mem f l ⊤ with h | ⟨x, hx, h⟩
  · exfalso
    obtain ⟨x, hx⟩ := List.exists_mem_of_ne_nil l hl
    obtain ⟨v, hv⟩ := hf x hx
    have := (foldMin_le f l ⊤ (fin v)).2 (Or.inr ⟨x, hx, hv.le⟩)
    rw [h] at this
    exact not_top_le_fin this
  · obtain ⟨v, hv⟩ := hf x hx
    exact ⟨v, h.trans hv⟩

theorem epsAdd_le_iff (dim : ℕ) (minmax : ℕ → ℤ) (A : ℕ → ℕ → K) (sizeA : ℕ)
    (B : ℕ → ℕ → K) (sizeB : ℕ) (c : K) :
    epsilonAdditiveMinmax dim minmax A sizeA B sizeB ≤ fin c ↔
      ∀ b < sizeB, ∃ a < sizeA, ∀ d < dim, epsAddTemp (minmax d) (A a d) (B b d) ≤ c := by
  unfold epsilonAdditiveMinmax epsAddMin epsAddMax
  rw [foldMax_le]
  simp only [bot_le, true_and, List.mem_range]
  refine forall_congr' fun b => forall_congr' fun _ => ?_
  rw [foldMin_le]
  simp only [not_top_le_fin, false_or, List.mem_range]
  refine exists_congr fun a => and_congr_right fun _ => ?_
  rw [foldMax_le]
  simp only [bot_le, true_and, List.mem_range, fin_le_fin]

theorem range_ne_nil {n : ℕ} (h : 0 < n) : List.range n ≠ [] := by
  intro h'; rw [List.range_eq_nil] at h'; omega

theorem epsAdd_finite (dim : ℕ) (minmax : ℕ → ℤ) (A : ℕ → ℕ → K) (sizeA : ℕ)
    (B : ℕ → ℕ → K) (sizeB : ℕ) (hd : 0 < dim) (ha : 0 < sizeA) (hb : 0 < sizeB) :
    ∃ e, epsilonAdditiveMinmax dim minmax A sizeA B sizeB = fin e := by
  unfold epsilonAdditiveMinmax epsAddMin epsAddMax
  refine foldMax_finite _ _ (range_ne_nil hb) (fun b _ => ?_) _ (Or.inl rfl)
  refine foldMin_finite _ _ (range_ne_nil ha) (fun a _ => ?_)
  exact foldMax_finite _ _ (range_ne_nil hd) (fun d _ => ⟨_, rfl⟩) _ (Or.inl rfl)

/-! multiplicative -/

theorem epsMultMax_eq (minmax : ℕ → ℤ) (pa pb : ℕ → K) (l : List ℕ) (m : Ext K) :
    epsMultMax minmax pa pb l m = if ∃ d ∈ l, pa d ≤ 0 ∨ pb d ≤ 0 then none
      else some (l.foldl (fun m d => cMax m (fin (epsMultTemp (minmax d) (pa d) (pb d)))) m) := by
  induction l generalizing m with
  | nil => simp [epsMultMax]
  | cons d l ih =>
    unfold epsMultMax
    by_cases h : pa d ≤ 0 ∨ pb d ≤ 0
    · rw [if_pos h, if_pos ⟨d, List.mem_cons_self, h⟩]
    · rw [if_neg h]
      push Not at h
      have ht : ¬ epsMultTemp (minmax d) (pa d) (pb d) < 0 := by
        unfold epsMultTemp
        split_ifs
        · exact not_lt.2 (div_nonneg h.1.le h.2.le)
        · exact not_lt.2 (div_nonneg h.2.le h.1.le)
        · exact not_lt.2 zero_le_one
      simp only [ht, if_false]
      rw [ih, List.foldl_cons]
      have : (∃ d' ∈ d :: l, pa d' ≤ 0 ∨ pb d' ≤ 0) ↔ ∃ d' ∈ l, pa d' ≤ 0 ∨ pb d' ≤ 0 := by
        simp only [List.exists_mem_cons_iff, not_le.2 h.1, not_le.2 h.2, or_self, false_or]
      simp only [this]

/-- value of the loop over `d` when there is no error -/
def epsMultMaxV (dim : ℕ) (minmax : ℕ → ℤ) (pa pb : ℕ → K) : Ext K :=
  (List.range dim).foldl (fun m d => cMax m (fin (epsMultTemp (minmax d) (pa d) (pb d)))) (fin 0)

theorem epsMultMin_ok (dim : ℕ) (minmax : ℕ → ℤ) (A : ℕ → ℕ → K) (pb : ℕ → K) (l : List ℕ)
    (m : Ext K) (h : ∀ a ∈ l, ∀ d < dim, 0 < A a d ∧ 0 < pb d) :
    epsMultMin dim minmax A pb l m =
      some (l.foldl (fun m a => cMin m (epsMultMaxV dim minmax (A a) pb)) m) := by
  induction l generalizing m with
  | nil => rfl
  | cons a l ih =>
    unfold epsMultMin
    rw [epsMultMax_eq, if_neg]
    · rw [List.foldl_cons]
      exact ih _ (fun a' ha' => h a' (List.mem_cons_of_mem _ ha'))
    · rintro ⟨d, hd, h'⟩
      have := h a List.mem_cons_self d (List.mem_range.1 hd)
      rcases h' with h' | h'
      · exact absurd this.1 (not_lt.2 h')
      · exact absurd this.2 (not_lt.2 h')

theorem epsMultMin_err (dim : ℕ) (minmax : ℕ → ℤ) (A : ℕ → ℕ → K) (pb : ℕ → K) (l : List ℕ)
    (m : Ext K) (h : ∃ a ∈ l, ∃ d < dim, A a d ≤ 0 ∨ pb d ≤ 0) :
    epsMultMin dim minmax A pb l m = none := by
  induction l generalizing m with
  | nil => simp at h
  | cons a l ih =>
    unfold epsMultMin
    rw [epsMultMax_eq]
    by_cases h' : ∃ d ∈ List.range dim, A a d ≤ 0 ∨ pb d ≤ 0
    · rw [if_pos h']
    · rw [if_neg h']
      apply ih
      obtain ⟨a', ha', hh⟩ := h
      rcases List.mem_cons.1 ha' with rfl | hm
      · obtain ⟨d, hd, hh⟩ := hh
        exact absurd ⟨d, List.mem_range.2 hd, hh⟩ h'
      · exact ⟨a', hm, hh⟩

theorem epsMultOuter_ok (dim : ℕ) (minmax : ℕ → ℤ) (A : ℕ → ℕ → K) (sizeA : ℕ) (B : ℕ → ℕ → K) (l : List ℕ)
    (m : Ext K) (h : ∀ b ∈ l, ∀ a < sizeA, ∀ d < dim, 0 < A a d ∧ 0 < B b d) :
    epsMultOuter dim minmax A sizeA B l m =
      some (l.foldl (fun m b => cMax m ((List.range sizeA).foldl
        (fun m a => cMin m (epsMultMaxV dim minmax (A a) (B b))) ⊤)) m) := by
  induction l generalizing m with
  | nil => rfl
  | cons b l ih =>
    unfold epsMultOuter
    rw [epsMultMin_ok dim minmax A (B b) (List.range sizeA) ⊤
      (fun a ha => h b List.mem_cons_self a (List.mem_range.1 ha))]
    rw [List.foldl_cons]
    exact ih _ (fun b' hb' => h b' (List.mem_cons_of_mem _ hb'))

theorem epsMultOuter_err (dim : ℕ) (minmax : ℕ → ℤ) (A : ℕ → ℕ → K) (sizeA : ℕ) (B : ℕ → ℕ → K) (l : List ℕ)
    (m : Ext K) (h : ∃ b ∈ l, ∃ a < sizeA, ∃ d < dim, A a d ≤ 0 ∨ B b d ≤ 0) :
    epsMultOuter dim minmax A sizeA B l m = none := by
  induction l generalizing m with
  | nil => simp at h
  | cons b l ih =>
    unfold epsMultOuter
    by_cases h' : ∃ a < sizeA, ∃ d < dim, A a d ≤ 0 ∨ B b d ≤ 0
    · obtain ⟨a, ha, hh⟩ := h'
      rw [epsMultMin_err dim minmax A (B b) (List.range sizeA) ⊤ ⟨a, List.mem_range.2 ha, hh⟩]
    · have hpos : ∀ a ∈ List.range sizeA, ∀ d < dim, 0 < A a d ∧ 0 < B b d := by
        intro a ha d hd
        by_contra hn
        apply h'
        refine ⟨a, List.mem_range.1 ha, d, hd, ?_⟩
        by_contra hn'
        push Not at hn'
        exact hn hn'
      rw [epsMultMin_ok dim minmax A (B b) (List.range sizeA) ⊤ hpos]
      apply ih
      obtain ⟨b', hb', hh⟩ := h
      rcases List.mem_cons.1 hb' with rfl | hm
      · exact absurd hh h'
      · exact ⟨b', hm, hh⟩

theorem epsMult_le_iff (dim : ℕ) (minmax : ℕ → ℤ) (A : ℕ → ℕ → K) (sizeA : ℕ)
    (B : ℕ → ℕ → K) (sizeB : ℕ) (c : K) (hc : 0 ≤ c) :
    ((List.range sizeB).foldl (fun m b => cMax m ((List.range sizeA).foldl
        (fun m a => cMin m (epsMultMaxV dim minmax (A a) (B b))) ⊤)) (fin 0)) ≤ fin c ↔
      ∀ b < sizeB, ∃ a < sizeA, ∀ d < dim, epsMultTemp (minmax d) (A a d) (B b d) ≤ c := by
  unfold epsMultMaxV
  rw [foldMax_le]
  simp only [fin_le_fin, hc, true_and, List.mem_range]
  refine forall_congr' fun b => forall_congr' fun _ => ?_
  rw [foldMin_le]
  simp only [not_top_le_fin, false_or, List.mem_range]
  refine exists_congr fun a => and_congr_right fun _ => ?_
  rw [foldMax_le]
  simp only [hc, true_and, List.mem_range, fin_le_fin]

end

end Moo
