import Verif.Props.DomWrappers

/-!
# C85: the dominance functions depend only on the order of the values
-/

set_option autoImplicit false
set_option linter.unusedSectionVars false

namespace Moo

/-- In every objective, the first `n` rows of `x` (with the directions `mx`) and of `y` (with the directions `my`) compare alike. -/
def SameOrder {K : Type*} [LinearOrder K] (nobj n : ℕ) (mx : ℕ → Bool) (x : ℕ → ℕ → K) (my : ℕ → Bool) (y : ℕ → ℕ → K) : Prop :=
  ∀ i < n, ∀ j < n, ∀ k < nobj, AtLeastAsGood (mx k) (x i k) (x j k) ↔ AtLeastAsGood (my k) (y i k) (y j k)

theorem perObjective_recycledTo {β : Type*} {d : ℕ} {arg : List β} {f : ℕ → β} (h : PerObjective d arg f) : RecycledTo d arg f := by
  intro k hk
  have := h.2 k hk
  rcases h.1 with h1 | h1
  · rw [if_pos h1] at this
    rw [h1, Nat.mod_one]
    exact this
  · by_cases h2 : arg.length = 1
    · rw [if_pos h2] at this
      rw [h2, Nat.mod_one]
      exact this
    · rw [if_neg h2] at this
      rw [h1, Nat.mod_eq_of_lt hk]
      exact this

section
variable {K : Type*} [Field K] [LinearOrder K] [IsStrictOrderedRing K]

/-- Strictly increasing functions of the objectives, and strictly decreasing ones if the direction is reversed, keep the order. -/
theorem sameOrder_of_monotone (nobj n : ℕ) (mx : ℕ → Bool) (x : ℕ → ℕ → K) (g : ℕ → K → K) (rev : ℕ → Bool)
    (hg : ∀ k < nobj, if rev k then StrictAnti (g k) else StrictMono (g k)) :
    SameOrder nobj n mx x (fun k => if rev k then !mx k else mx k) (fun i k => g k (x i k)) := by
  intro i _ j _ k hk
  have := hg k hk
  unfold AtLeastAsGood
  cases hr : rev k <;> cases hm : mx k <;> simp_all [StrictMono.le_iff_le, StrictAnti.le_iff_ge]

theorem SameOrder.weakDom {nobj n : ℕ} {mx my : ℕ → Bool} {x y : ℕ → ℕ → K} (h : SameOrder nobj n mx x my y) {i j : ℕ} (hi : i < n) (hj : j < n) :
    WeakDom nobj mx (x i) (x j) ↔ WeakDom nobj my (y i) (y j) :=
  forall_congr' fun k => forall_congr' fun hk => h i hi j hj k hk

theorem SameOrder.dom {nobj n : ℕ} {mx my : ℕ → Bool} {x y : ℕ → ℕ → K} (h : SameOrder nobj n mx x my y) {i j : ℕ} (hi : i < n) (hj : j < n) :
    Dom nobj mx (x i) (x j) ↔ Dom nobj my (y i) (y j) := by
  rw [dom_iff, dom_iff, h.weakDom hi hj, h.weakDom hj hi]

theorem sameVec_iff_weakDom (nobj : ℕ) (mx : ℕ → Bool) (p q : ℕ → K) : SameVec nobj p q ↔ WeakDom nobj mx p q ∧ WeakDom nobj mx q p := by
  unfold SameVec WeakDom AtLeastAsGood
  constructor
  · intro h
    exact ⟨fun d hd => by rw [h d hd]; simp, fun d hd => by rw [h d hd]; simp⟩
  · rintro ⟨h1, h2⟩ d hd
    have a := h1 d hd
    have b := h2 d hd
    cases hm : mx d <;> simp only [hm, Bool.false_eq_true, if_false, if_true] at a b
    · exact le_antisymm a b
    · exact le_antisymm b a

theorem SameOrder.nondominated {nobj n : ℕ} {mx my : ℕ → Bool} {x y : ℕ → ℕ → K} (h : SameOrder nobj n mx x my y) {i : ℕ} (hi : i < n) :
    Nondominated nobj n mx x i ↔ Nondominated nobj n my y i :=
  forall_congr' fun _ => forall_congr' fun hj => not_congr (h.dom hj hi)

theorem SameOrder.isFilterMask {keep : Bool} {nobj n : ℕ} {mx my : ℕ → Bool} {x y : ℕ → ℕ → K} (h : SameOrder nobj n mx x my y) {mask : List Bool} :
    IsFilterMask keep nobj n mx x mask ↔ IsFilterMask keep nobj n my y mask := by
  unfold IsFilterMask
  refine and_congr_right fun _ => and_congr ?_ ?_
  · exact forall_congr' fun i => forall_congr' fun hi => imp_congr_right fun _ => h.nondominated hi
  · refine forall_congr' fun i => forall_congr' fun hi => ?_
    rw [h.nondominated hi]
    refine imp_congr_right fun _ => ?_
    cases keep
    · simp only [Bool.false_eq_true, if_false]
      have hs : ∀ j, j < n → (SameVec nobj (x j) (x i) ↔ SameVec nobj (y j) (y i)) := fun j hj => by
        rw [sameVec_iff_weakDom nobj mx, sameVec_iff_weakDom nobj my, h.weakDom hi hj, h.weakDom hj hi]
      have hcongr : ∀ j, (j < n ∧ mask[j]? = some true ∧ SameVec nobj (x j) (x i)) ↔ (j < n ∧ mask[j]? = some true ∧ SameVec nobj (y j) (y i)) :=
        fun j => and_congr_right fun hj => and_congr_right fun _ => hs j hj
      exact existsUnique_congr hcongr
    · simp

theorem SameOrder.inFront {nobj n : ℕ} {mx my : ℕ → Bool} {x y : ℕ → ℕ → K} (h : SameOrder nobj n mx x my y) (r i : ℕ) :
    InFront nobj n mx x r i ↔ InFront nobj n my y r i := by
  have hlt : ∀ {m : ℕ → Bool} {z : ℕ → ℕ → K} r i, Remaining nobj n m z r i → i < n := by
    intro m z r
    induction r with
    | zero => intro i hi; exact hi
    | succ r ih => intro i hi; exact ih i hi.1
  have hr : ∀ r i, Remaining nobj n mx x r i ↔ Remaining nobj n my y r i := by
    intro r
    induction r with
    | zero => intro i; exact Iff.rfl
    | succ r ih =>
      intro i
      simp only [Remaining, ih]
      exact and_congr_right fun hi => exists_congr fun j => and_congr_right fun hj => h.dom (hlt r j hj) (hlt r i hi)
  unfold InFront
  refine and_congr_right fun _ => ?_
  rw [hr]
  exact and_congr_right fun hi => forall_congr' fun j => by
    rw [hr]
    exact imp_congr_right fun hj => not_congr (h.dom (hlt _ j hj) (hlt _ i hi))

variable {lib : DomLib K} {nobj n : ℕ} {x y : ℕ → ℕ → K} {maximise maximise' : List Bool} {mx my : ℕ → Bool}

/-- **C85.** If the values of every objective compare alike in two tables, `is_nondominated` returns the same flags for both, and `pareto_rank` the same ranks, in Python and in R
(when all copies of a vector are kept; see `C85_same_order_one_copy` for the other case). -/
theorem C85_same_order (hlib : DomLibOk lib) (hn : 1 ≤ n) (hd : 2 ≤ nobj) (hm : PerObjective nobj maximise mx) (hm' : PerObjective nobj maximise' my)
    (h : SameOrder nobj n mx x my y) :
    (∃ mask, pyIsNondominated lib (.mat n nobj x) maximise true = .value mask ∧ pyIsNondominated lib (.mat n nobj y) maximise' true = .value mask ∧
      rIsNondominated lib (.mat n nobj x) maximise true = .value mask ∧ rIsNondominated lib (.mat n nobj y) maximise' true = .value mask) ∧
    ∃ ranks, pyParetoRank lib (.mat n nobj x) maximise = .value ranks ∧ pyParetoRank lib (.mat n nobj y) maximise' = .value ranks ∧
      rParetoRank lib (.mat n nobj x) maximise = .value ranks ∧ rParetoRank lib (.mat n nobj y) maximise' = .value ranks := by
  constructor
  · obtain ⟨m1, e1, h1⟩ := C74_py_is_nondominated hlib x n nobj maximise mx hm true
    obtain ⟨m2, e2, h2⟩ := C74_py_is_nondominated hlib y n nobj maximise' my hm' true
    obtain ⟨m3, h3, e3, -⟩ := C74_r_filter_dominated hlib x n nobj hn hd maximise mx (perObjective_recycledTo hm) true
    obtain ⟨m4, h4, e4, -⟩ := C74_r_filter_dominated hlib y n nobj hn hd maximise' my (perObjective_recycledTo hm') true
    have g2 := h1.unique (h.isFilterMask.2 h2)
    have g3 := h1.unique h3
    have g4 := h1.unique (h.isFilterMask.2 h4)
    exact ⟨m1, e1, g2 ▸ e2, g3 ▸ e3, g4 ▸ e4⟩
  · obtain ⟨m1, e1, l1, h1⟩ := C74_py_pareto_rank hlib x n nobj maximise mx hm (fun _ => hn)
    obtain ⟨m2, e2, l2, h2⟩ := C74_py_pareto_rank hlib y n nobj maximise' my hm' (fun _ => hn)
    obtain ⟨m3, e3, l3, h3⟩ := C74_r_pareto_rank hlib x n nobj hn hd maximise mx hm
    obtain ⟨m4, e4, l4, h4⟩ := C74_r_pareto_rank hlib y n nobj hn hd maximise' my hm'
    have key : ∀ m : List ℕ, m.length = n → (∀ i < n, ∃ r, m[i]? = some r ∧ InFront nobj n mx x r i) → m1 = m := by
      intro m l hmf
      apply List.ext_getElem?
      intro i
      by_cases hi : i < n
      · obtain ⟨r, hr1, hr2⟩ := h1 i hi
        obtain ⟨s, hs1, hs2⟩ := hmf i hi
        rw [hr1, hs1, inFront_unique hr2 hs2]
      · rw [List.getElem?_eq_none (by omega), List.getElem?_eq_none (by omega)]
    have g2 := key m2 l2 (fun i hi => (h2 i hi).imp fun r hr => ⟨hr.1, (h.inFront r i).2 hr.2⟩)
    have g3 := key m3 l3 h3
    have g4 := key m4 l4 (fun i hi => (h4 i hi).imp fun r hr => ⟨hr.1, (h.inFront r i).2 hr.2⟩)
    exact ⟨m1, e1, g2 ▸ e2, g3 ▸ e3, g4 ▸ e4⟩

/-- **C85.** If one copy of each nondominated vector is kept, the flags for a table are right flags for every table whose values compare alike: they select the nondominated vectors,
each once. -/
theorem C85_same_order_one_copy (hlib : DomLibOk lib) (hm : PerObjective nobj maximise mx) (h : SameOrder nobj n mx x my y) :
    ∃ mask, pyIsNondominated lib (.mat n nobj x) maximise false = .value mask ∧ IsFilterMask false nobj n mx x mask ∧ IsFilterMask false nobj n my y mask := by
  obtain ⟨m1, e1, h1⟩ := C74_py_is_nondominated hlib x n nobj maximise mx hm false
  exact ⟨m1, e1, h1, h.isFilterMask.1 h1⟩

/-- **C85.** The rows of rank 1 are the nondominated rows. -/
theorem C85_rank_one (hlib : DomLibOk lib) (hn : 1 ≤ n) (hm : PerObjective nobj maximise mx) :
    ∃ mask ranks, pyIsNondominated lib (.mat n nobj x) maximise true = .value mask ∧ pyParetoRank lib (.mat n nobj x) maximise = .value ranks ∧
      mask = ranks.map (fun r => decide (r = 1)) := by
  obtain ⟨m, e, h⟩ := C74_py_is_nondominated hlib x n nobj maximise mx hm true
  obtain ⟨ranks, e', l, hr⟩ := C74_py_pareto_rank hlib x n nobj maximise mx hm (fun _ => hn)
  refine ⟨m, ranks, e, e', h.unique ⟨by simp [l], fun i hi hi1 => ?_, fun i hi hnd => ?_⟩⟩
  · obtain ⟨r, h1, h2⟩ := hr i hi
    rw [List.getElem?_map, h1] at hi1
    have h1' : r = 1 := by simpa using hi1
    subst h1'
    exact fun j hj => h2.2.2 j hj
  · rw [if_pos rfl]
    obtain ⟨r, h1, h2⟩ := hr i hi
    have h3 : InFront nobj n mx x 1 i := ⟨le_rfl, hi, fun j hj => hnd j hj⟩
    rw [List.getElem?_map, h1, inFront_unique h2 h3]
    rfl

/-- **C85, order of the rows.** If the rows are permuted, the flags and the ranks are permuted in the same way. -/
theorem C85_permute_rows (hlib : DomLibOk lib) (hn : 1 ≤ n) (hm : PerObjective nobj maximise mx) (σ : ℕ → ℕ) (hσ : Set.BijOn σ (Set.Iio n) (Set.Iio n)) :
    ∃ mask mask' ranks ranks', pyIsNondominated lib (.mat n nobj x) maximise true = .value mask ∧
      pyIsNondominated lib (.mat n nobj (fun i => x (σ i))) maximise true = .value mask' ∧
      pyParetoRank lib (.mat n nobj x) maximise = .value ranks ∧ pyParetoRank lib (.mat n nobj (fun i => x (σ i))) maximise = .value ranks' ∧
      ∀ i < n, mask'[i]? = mask[σ i]? ∧ ranks'[i]? = ranks[σ i]? := by
  obtain ⟨m, e, h⟩ := C74_py_is_nondominated hlib x n nobj maximise mx hm true
  obtain ⟨m', e', h'⟩ := C74_py_is_nondominated hlib (fun i => x (σ i)) n nobj maximise mx hm true
  obtain ⟨rk, f, l, hr⟩ := C74_py_pareto_rank hlib x n nobj maximise mx hm (fun _ => hn)
  obtain ⟨rk', f', l', hr'⟩ := C74_py_pareto_rank hlib (fun i => x (σ i)) n nobj maximise mx hm (fun _ => hn)
  refine ⟨m, m', rk, rk', e, e', f, f', fun i hi => ?_⟩
  have hσi : σ i < n := hσ.mapsTo hi
  constructor
  · have hnd : Nondominated nobj n mx (fun i => x (σ i)) i ↔ Nondominated nobj n mx x (σ i) := by
      constructor
      · intro hN j hj
        obtain ⟨j', hj', rfl⟩ := hσ.surjOn (show j ∈ Set.Iio n from hj)
        exact hN j' hj'
      · intro hN j hj
        exact hN (σ j) (hσ.mapsTo hj)
    have a : m'[i]? = some true ↔ m[σ i]? = some true :=
      ⟨fun hh => by simpa using h.2.2 (σ i) hσi (hnd.1 (h'.2.1 i hi hh)), fun hh => by simpa using h'.2.2 i hi (hnd.2 (h.2.1 (σ i) hσi hh))⟩
    rw [List.getElem?_eq_getElem (by rw [h'.1]; exact hi), List.getElem?_eq_getElem (by rw [h.1]; exact hσi)] at a ⊢
    simp only [Option.some.injEq] at a ⊢
    exact Bool.eq_iff_iff.2 a
  · obtain ⟨r, h1, h2⟩ := hr (σ i) hσi
    obtain ⟨s, h3, h4⟩ := hr' i hi
    have hlt : ∀ {z : ℕ → ℕ → K} r i, Remaining nobj n mx z r i → i < n := by
      intro z r
      induction r with
      | zero => intro i hi; exact hi
      | succ r ih => intro i hi; exact ih i hi.1
    have hrem : ∀ r i, i < n → (Remaining nobj n mx (fun i => x (σ i)) r i ↔ Remaining nobj n mx x r (σ i)) := by
      intro r
      induction r with
      | zero => intro i hi; exact ⟨fun _ => hσ.mapsTo hi, fun _ => hi⟩
      | succ r ih =>
        intro i hi
        simp only [Remaining, ih i hi]
        refine and_congr_right fun _ => ?_
        constructor
        · rintro ⟨j, hj, hdom⟩
          exact ⟨σ j, (ih j (hlt r j hj)).1 hj, hdom⟩
        · rintro ⟨j, hj, hdom⟩
          obtain ⟨j', hj', rfl⟩ := hσ.surjOn (show j ∈ Set.Iio n from hlt r j hj)
          exact ⟨j', (ih j' hj').2 hj, hdom⟩
    have : InFront nobj n mx x s (σ i) := by
      refine ⟨h4.1, (hrem _ i hi).1 h4.2.1, fun j hj hdom => ?_⟩
      obtain ⟨j', hj', rfl⟩ := hσ.surjOn (show j ∈ Set.Iio n from hlt _ j hj)
      exact h4.2.2 j' ((hrem _ j' hj').2 hj) hdom
    rw [h1, h3, inFront_unique h2 this]

end

/-- Halving the first objective and changing the sign of the second one, with its direction: the order is kept. -/
example : SameOrder 2 3 (fun k => k = 1) (fun i k => (i + k : ℚ)) (fun _ => false) (fun i k => if k = 1 then -(i + k : ℚ) else (i + k : ℚ) / 2) := by
  have h := sameOrder_of_monotone (K := ℚ) 2 3 (fun k => k = 1) (fun i k => (i + k : ℚ)) (fun k a => if k = 1 then -a else a / 2) (fun k => k = 1) (by
    intro k hk
    rcases (show k = 0 ∨ k = 1 by omega) with rfl | rfl
    · simp only [if_false, show ¬ ((0 : ℕ) = 1) by omega]
      intro a b hab
      show a / 2 < b / 2
      linarith
    · simp only [decide_true, if_true]
      intro a b hab
      show -b < -a
      linarith)
  intro i hi j hj k hk
  have := h i hi j hj k hk
  rcases (show k = 0 ∨ k = 1 by omega) with rfl | rfl <;> simpa using this

end Moo
