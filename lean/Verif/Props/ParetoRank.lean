import Verif.Lemmas.ParetoRank2d
import Verif.Props.Nondominated

set_option autoImplicit false

/-!
# Properties of `pareto_rank` (`c/pareto.c`)

`InFront dim n mx pts r i` (Verif/Spec/Rank.lean): row `i` is in the `r`-th front of nondominated sorting.
The loop of the general algorithm is `do ... while (!nothing_new)`; `fuel` bounds the number of its iterations in the model
and the theorems show that every `fuel > size` gives the same, complete run (so the C loop terminates).
-/

namespace Moo

section
variable {α : Type*} [LinearOrder α]

/-- **C08.** The general algorithm terminates, fails no assertion and ranks every row by its front, for any number
of objectives. -/
theorem C08_general_peels (pts : ℕ → ℕ → α) (dim size fuel : ℕ) (hf : size < fuel) :
    ∃ rank, paretoRankGeneral fuel pts dim size = .done rank ∧
      ∀ i < size, InFront dim size (fun _ => false) pts (rank i) i :=
  rkLevels_spec fuel 0 (fun _ => 1) (by omega) (fun i hi => Or.inl ⟨rfl, hi⟩) (Or.inl rfl)

/-- **C08, the exported function** (with whichever algorithm it picks).  With two objectives the set must not be
empty, see `C09_empty_2d`. -/
theorem C08_pareto_rank_peels (sortFn : (ℕ → ℕ → α) → ℕ → List ℕ) (garbage : ℕ → ℕ)
    (pts : ℕ → ℕ → α) (dim size fuel : ℕ) (hf : size < fuel) (h0 : dim = 2 → 0 < size)
    (hsort : ∀ pp, SortedFront pp size (sortFn pp size)) :
    ∃ rank, paretoRank sortFn garbage fuel pts dim size = .done rank ∧
      ∀ i < size, InFront dim size (fun _ => false) pts (rank i) i := by
  unfold paretoRank
  by_cases h2 : dim = 2
  · subst h2
    rw [if_pos rfl]
    exact paretoRank2d_spec garbage pts size _ (hsort pts) (h0 rfl)
  · rw [if_neg h2]
    exact C08_general_peels pts dim size fuel hf

/-- A row is in exactly one front, so the two theorems above determine the result. -/
theorem C08_front_unique (dim n : ℕ) (mx : ℕ → Bool) (pts : ℕ → ℕ → α) (i r s : ℕ)
    (h1 : InFront dim n mx pts r i) (h2 : InFront dim n mx pts s i) : r = s :=
  inFront_unique h1 h2

/-- **C09.** For two objectives the sort and binary search algorithm gives the ranks of the general algorithm, whatever order the sort
leaves equal points in, and no internal assertion fails. -/
theorem C09_rank2d_eq_general (garbage : ℕ → ℕ) (pts : ℕ → ℕ → α) (size fuel : ℕ) (p : List ℕ)
    (hp : SortedFront pts size p) (h0 : 0 < size) (hf : size < fuel) :
    ∃ rank rank', paretoRank2d garbage pts size p = .done rank ∧
      paretoRankGeneral fuel pts 2 size = .done rank' ∧ ∀ i < size, rank i = rank' i := by
  obtain ⟨rank, e, h⟩ := paretoRank2d_spec garbage pts size p hp h0
  obtain ⟨rank', e', h'⟩ := C08_general_peels pts 2 size fuel hf
  exact ⟨rank, rank', e, e', fun i hi => inFront_unique (h i hi) (h' i hi)⟩

/-- For an empty set with two objectives the code writes outside of the (empty) blocks it has allocated. -/
theorem C09_empty_2d (sortFn : (ℕ → ℕ → α) → ℕ → List ℕ) (garbage : ℕ → ℕ) (fuel : ℕ) (pts : ℕ → ℕ → α) :
    paretoRank sortFn garbage fuel pts 2 0 = .outOfBounds := rfl

/-- **C10.** Consequences for a user: a dominating row has a smaller rank, equal rows have equal ranks, rank 1 is
nondominated, and every rank below one that occurs also occurs (no gaps). -/
theorem C10_rank_respects_dominance (sortFn : (ℕ → ℕ → α) → ℕ → List ℕ) (garbage : ℕ → ℕ)
    (pts : ℕ → ℕ → α) (dim size fuel : ℕ) (hf : size < fuel) (h0 : dim = 2 → 0 < size)
    (hsort : ∀ pp, SortedFront pp size (sortFn pp size)) :
    ∃ rank, paretoRank sortFn garbage fuel pts dim size = .done rank ∧
      (∀ i < size, ∀ j < size, Dom dim (fun _ => false) (pts i) (pts j) → rank i < rank j) ∧
      (∀ i < size, ∀ j < size, SameVec dim (pts i) (pts j) → rank i = rank j) ∧
      (∀ i < size, rank i = 1 ↔ Nondominated dim size (fun _ => false) pts i) ∧
      (∀ i < size, 1 ≤ rank i ∧ rank i ≤ size) ∧
      (∀ i < size, ∀ r, 1 ≤ r → r ≤ rank i → ∃ j < size, rank j = r) := by
  obtain ⟨rank, e, h⟩ := C08_pareto_rank_peels sortFn garbage pts dim size fuel hf h0 hsort
  have h1 : ∀ i < size, 1 ≤ rank i := fun i hi => (h i hi).1
  have hdom : ∀ i < size, ∀ j < size, Dom dim (fun _ => false) (pts i) (pts j) → rank i < rank j := by
    intro i hi j hj hd
    by_contra hlt
    have hri : Remaining dim size (fun _ => false) pts (rank j - 1) i :=
      Remaining.mono (by omega) (h i hi).2.1
    exact (h j hj).2.2 i hri hd
  have hrem : ∀ i < size, ∀ r, Remaining dim size (fun _ => false) pts r i ↔ r < rank i := by
    intro i hi r
    have hh := h i hi
    obtain ⟨s, hs⟩ := Nat.exists_eq_add_of_le' hh.1
    rw [hs] at hh ⊢
    rw [inFront_iff] at hh
    constructor
    · intro hr
      by_contra hlt
      exact hh.2 (hr.mono (by omega))
    · intro hr
      exact hh.1.mono (by omega)
  have hpred : ∀ i < size, 1 < rank i → ∃ j < size, rank j + 1 = rank i := by
    intro i hi hr
    obtain ⟨s, hs⟩ : ∃ s, rank i = s + 2 := ⟨rank i - 2, by omega⟩
    have hh := (hrem i hi (s + 1)).2 (by omega)
    obtain ⟨_, j, hj, hd⟩ := hh
    have hj' := (hrem j hj.lt s).1 hj
    have := hdom j hj.lt i hi hd
    exact ⟨j, hj.lt, by omega⟩
  refine ⟨rank, e, hdom, ?_, ?_, ?_, ?_⟩
  · have key : ∀ i < size, ∀ j < size, SameVec dim (pts i) (pts j) → rank i ≤ rank j := by
      intro i hi j hj hs
      by_contra hlt
      have := (h j hj)
      obtain ⟨s, hs'⟩ := Nat.exists_eq_add_of_le' this.1
      have hri := (hrem i hi (s + 1)).2 (by omega)
      obtain ⟨_, m, hm, hd⟩ := hri
      rw [hs'] at this
      exact this.2.2 m (by simpa using hm) (hd.of_dom_weak hs.weakDom)
    intro i hi j hj hs
    exact le_antisymm (key i hi j hj hs) (key j hj i hi hs.symm)
  · intro i hi
    constructor
    · intro hr j hj hd
      have := hdom j hj i hi hd
      have := h1 j hj
      omega
    · intro hn
      by_contra hr
      have := h1 i hi
      have hh := (hrem i hi 1).2 (by omega)
      obtain ⟨_, j, hj, hd⟩ := hh
      exact hn j hj hd
  · intro i hi
    refine ⟨h1 i hi, ?_⟩
    by_contra hlt
    exact not_remaining (le_refl size) ((hrem i hi size).2 (by omega))
  · intro i hi r hr1 hr2
    have : ∀ m i, i < size → rank i = r + m → ∃ j < size, rank j = r := by
      intro m
      induction m with
      | zero => intro i hi hh; exact ⟨i, hi, hh⟩
      | succ m ih =>
        intro i hi hh
        obtain ⟨j, hj, hjr⟩ := hpred i hi (by omega)
        exact ih j hj (by omega)
    exact this (rank i - r) i hi (by omega)

/-- **C10 (agreement with the filter).** Rank 1 is exactly what `is_nondominated(keep_weakly = true)` flags. -/
theorem C10_rank_one_iff_filter [Neg α] (hneg : ∀ a b : α, -a ≤ -b ↔ b ≤ a)
    (sortFn sortFn' : (ℕ → ℕ → α) → ℕ → List ℕ) (garbage : ℕ → ℕ) (garbage' : ℕ → Bool)
    (pts : ℕ → ℕ → α) (dim size fuel : ℕ) (hf : size < fuel) (h0 : dim = 2 → 0 < size)
    (hsort : ∀ pp, SortedFront pp size (sortFn pp size))
    (hsort' : ∀ pp, SortedPP2d pp size (sortFn' pp size)) :
    ∃ rank nd, paretoRank sortFn garbage fuel pts dim size = .done rank ∧
      isNondominated sortFn' garbage' pts dim size (fun _ => false) true = some nd ∧
      ∀ i < size, rank i = 1 ↔ nd i = true := by
  obtain ⟨rank, e, -, -, h, -⟩ := C10_rank_respects_dominance sortFn garbage pts dim size fuel hf h0 hsort
  obtain ⟨nd, e', h'⟩ := C01_isNondominated_keep_exact sortFn' garbage' pts dim size (fun _ => false) hneg hsort'
  exact ⟨rank, nd, e, e', fun i hi => (h i hi).trans (h' i hi).symm⟩

/-- **C08/C07, the Python function** `pareto_rank(data, maximise)`: fronts with respect to the given directions. -/
theorem C08_pareto_rank_py [Neg α] (hneg : ∀ a b : α, -a ≤ -b ↔ b ≤ a)
    (sortFn : (ℕ → ℕ → α) → ℕ → List ℕ) (garbage : ℕ → ℕ)
    (data : ℕ → ℕ → α) (nobj nrows fuel : ℕ) (mx : ℕ → Bool) (hf : nrows < fuel) (h0 : nobj = 2 → 0 < nrows)
    (hsort : ∀ pp, SortedFront pp nrows (sortFn pp nrows)) :
    ∃ rank, paretoRankPy sortFn garbage fuel data nobj nrows mx = .done rank ∧
      ∀ i < nrows, InFront nobj nrows mx data (rank i) i := by
  obtain ⟨rank, e, h⟩ := C08_pareto_rank_peels sortFn garbage
    (fun i d => if mx d then -(data i d) else data i d) nobj nrows fuel hf h0 hsort
  refine ⟨rank, e, fun i hi => ?_⟩
  have hw : ∀ a b, WeakDom nobj mx (data a) (data b) ↔
      WeakDom nobj (fun _ => false) (fun d => if mx d then -(data a d) else data a d)
        (fun d => if mx d then -(data b d) else data b d) := by
    intro a b
    unfold WeakDom
    refine forall_congr' fun d => forall_congr' fun _ => ?_
    unfold AtLeastAsGood
    rcases Bool.eq_false_or_eq_true (mx d) with hd | hd <;> simp [hd, hneg]
  have hd : ∀ a b, Dom nobj mx (data a) (data b) ↔
      Dom nobj (fun _ => false) (fun d => if mx d then -(data a d) else data a d)
        (fun d => if mx d then -(data b d) else data b d) := by
    intro a b; rw [dom_iff, dom_iff, hw, hw]
  have hr : ∀ r i, Remaining nobj nrows mx data r i ↔
      Remaining nobj nrows (fun _ => false) (fun i d => if mx d then -(data i d) else data i d) r i := by
    intro r
    induction r with
    | zero => intro i; exact Iff.rfl
    | succ r ih => intro i; simp only [Remaining, ih, hd]
  have := h i hi
  unfold InFront at this ⊢
  simp only [hr, hd]
  exact this

/-! ## Non-vacuity -/

/-- a sort with the assumed contract exists -/
theorem sortedFront_exists : ∃ sortFn : (ℕ → ℕ → α) → ℕ → List ℕ, ∀ pp m, SortedFront pp m (sortFn pp m) :=
  sortedPP2d_exists

/-- three fronts, with a duplicated point and ties, both algorithms -/
example : ∃ rank rank',
    paretoRank2d (fun _ => 0) (tab [[1, 1], [0, 2], [2, 2], [1, 1], [2, 3]]) 5 [1, 0, 3, 2, 4] = .done rank ∧
    paretoRankGeneral 6 (tab [[1, 1], [0, 2], [2, 2], [1, 1], [2, 3]]) 2 5 = .done rank' ∧
    (List.range 5).map rank = [1, 1, 2, 1, 3] ∧ (List.range 5).map rank' = [1, 1, 2, 1, 3] :=
  ⟨_, _, rfl, rfl, by decide, by decide⟩

example : SortedFront (tab [[1, 1], [0, 2], [2, 2], [1, 1], [2, 3]]) 5 [1, 0, 3, 2, 4] := ⟨by decide, by decide⟩

end

end Moo
