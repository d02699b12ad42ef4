import Verif.Lemmas.NondominatedSpec
import Mathlib.Data.List.Sort
import Mathlib.Algebra.Order.Group.Int

set_option autoImplicit false

/-!
# Properties of dominance filtering (`c/nondominated.h`)

Coordinates range over any linear order with an order-reversing negation (`hneg`), which
holds for the reals, the extended reals and the doubles without NaN.
`hsort` is the contract of `qsort`: whatever the table, the sort returns *some* sorted permutation of the rows.
-/

namespace Moo

variable {α : Type*} [LinearOrder α] [Neg α]

/-- **C01.** `is_nondominated(keep_weakly = true)` flags exactly the rows that no row dominates. -/
theorem C01_isNondominated_keep_exact
    (sortFn : (ℕ → ℕ → α) → ℕ → List ℕ) (garbage : ℕ → Bool)
    (data : ℕ → ℕ → α) (nobj n : ℕ) (mx : ℕ → Bool)
    (hneg : ∀ a b : α, -a ≤ -b ↔ b ≤ a)
    (hsort : ∀ pp, SortedPP2d pp n (sortFn pp n)) :
    ∃ nd, isNondominated sortFn garbage data nobj n mx true = some nd ∧
      ∀ i < n, nd i = true ↔ Nondominated nobj n mx data i := by
  obtain ⟨nd, e, pri, -, -, h⟩ := isNondominated_char sortFn garbage data nobj n mx true hneg hsort
  refine ⟨nd, e, fun i hi => ?_⟩
  rw [h i hi]
  unfold Nondominated
  simp

/-- **C02.** `is_nondominated(keep_weakly = false)` flags only nondominated rows, exactly one copy of every
nondominated vector, namely the last one when the number of objectives is not 2. -/
theorem C02_isNondominated_delete_exact
    (sortFn : (ℕ → ℕ → α) → ℕ → List ℕ) (garbage : ℕ → Bool)
    (data : ℕ → ℕ → α) (nobj n : ℕ) (mx : ℕ → Bool)
    (hneg : ∀ a b : α, -a ≤ -b ↔ b ≤ a)
    (hsort : ∀ pp, SortedPP2d pp n (sortFn pp n)) :
    ∃ nd, isNondominated sortFn garbage data nobj n mx false = some nd ∧
      (∀ i < n, nd i = true → Nondominated nobj n mx data i) ∧
      (∀ i < n, Nondominated nobj n mx data i →
        ∃ j, (j < n ∧ nd j = true ∧ SameVec nobj (data j) (data i)) ∧
          ∀ j', j' < n ∧ nd j' = true ∧ SameVec nobj (data j') (data i) → j' = j) ∧
      (nobj ≠ 2 → ∀ i < n, nd i = true ↔
        Nondominated nobj n mx data i ∧ ∀ j < n, i < j → ¬ SameVec nobj (data i) (data j)) := by
  obtain ⟨nd, e, pri, hinj, hpri, h⟩ :=
    isNondominated_char sortFn garbage data nobj n mx false hneg hsort
  have hnd : ∀ i < n, nd i = true → Nondominated nobj n mx data i := by
    intro i hi hf j hj hd
    exact (h i hi).1 hf j hj (Or.inl hd)
  refine ⟨nd, e, hnd, ?_, ?_⟩
  · intro i hi hnon
    obtain ⟨j, hj, hsame, hmin⟩ := exists_min_pri n pri (fun j => SameVec nobj (data j) (data i))
      ⟨i, hi, fun _ _ => rfl⟩
    refine ⟨j, ⟨hj, (h j hj).2 ?_, hsame⟩, ?_⟩
    · rintro k hk (hd | ⟨_, hlt, hs⟩)
      · exact hnon k hk (Dom.of_dom_weak hd hsame.weakDom)
      · exact absurd (hmin k hk (hs.trans hsame)) (by omega)
    · rintro j' ⟨hj', hf, hs'⟩
      apply hinj j' hj' j hj
      have h1 := hmin j' hj' hs'
      have h2 := (h j' hj').1 hf j hj
      by_contra hne
      exact h2 (Or.inr ⟨rfl, by omega, hsame.trans hs'.symm⟩)
  · intro h2 i hi
    constructor
    · intro hf
      refine ⟨hnd i hi hf, fun j hj hij hs => ?_⟩
      exact (h i hi).1 hf j hj (Or.inr ⟨rfl, (hpri h2 j hj i hi).2 hij, hs.symm⟩)
    · rintro ⟨ha, hb⟩
      rw [h i hi]
      rintro j hj (hd | ⟨_, hlt, hs⟩)
      · exact ha j hj hd
      · exact hb j hj ((hpri h2 j hj i hi).1 hlt) hs.symm

/-- The general pairwise algorithm alone (the code of `find_nondominated_set_` after the `dim == 2` case,
c/nondominated.h:179-238), usable with any number of objectives. -/
def isNondominatedPairwise (data : ℕ → ℕ → α) (nobj n : ℕ) (mx : ℕ → Bool) (keep : Bool) :
    Option (ℕ → Bool) :=
  match ndOuter data nobj n (minmaxFromBool mx) AGREE_NONE false keep (List.range (n - 1)) nondomInit with
  | .cont nd => some nd
  | _ => none

omit [Neg α] in
theorem isNondominatedPairwise_char (data : ℕ → ℕ → α) (nobj n : ℕ) (mx : ℕ → Bool) (keep : Bool) :
    ∃ nd, isNondominatedPairwise data nobj n mx keep = some nd ∧
      ∀ i < n, nd i = true ↔ ∀ j < n, ¬ (Dom nobj mx (data j) (data i) ∨
        (keep = false ∧ i < j ∧ SameVec nobj (data j) (data i))) := by
  obtain ⟨nd, e, h⟩ := ndOuter_final (dim := nobj) (minmax := minmaxFromBool mx)
    (agree := AGREE_NONE) (keep := keep) (pts := data) (size := n) nondomInit (fun _ _ => rfl)
  refine ⟨nd, by unfold isNondominatedPairwise; rw [e], fun i hi => ?_⟩
  rw [h i hi]; simp only [beats_none_iff]

/-- **C03 (keep_weakly = true).** With two objectives the sort-and-scan path flags the same rows as the
pairwise algorithm. -/
theorem C03_fastpath_keep_eq
    (sortFn : (ℕ → ℕ → α) → ℕ → List ℕ) (garbage : ℕ → Bool)
    (data : ℕ → ℕ → α) (n : ℕ) (mx : ℕ → Bool)
    (hneg : ∀ a b : α, -a ≤ -b ↔ b ≤ a)
    (hsort : ∀ pp, SortedPP2d pp n (sortFn pp n)) :
    ∃ nd nd', isNondominated sortFn garbage data 2 n mx true = some nd ∧
      isNondominatedPairwise data 2 n mx true = some nd' ∧ ∀ i < n, nd i = nd' i := by
  obtain ⟨nd, e, h⟩ := C01_isNondominated_keep_exact sortFn garbage data 2 n mx hneg hsort
  obtain ⟨nd', e', h'⟩ := isNondominatedPairwise_char data 2 n mx true
  refine ⟨nd, nd', e, e', fun i hi => ?_⟩
  rw [Bool.eq_iff_iff, h i hi, h' i hi]
  unfold Nondominated; simp

/-- **C03 (keep_weakly = false).** With two objectives both algorithms keep the same objective vectors, each
of them exactly once. -/
theorem C03_fastpath_delete_eq
    (sortFn : (ℕ → ℕ → α) → ℕ → List ℕ) (garbage : ℕ → Bool)
    (data : ℕ → ℕ → α) (n : ℕ) (mx : ℕ → Bool)
    (hneg : ∀ a b : α, -a ≤ -b ↔ b ≤ a)
    (hsort : ∀ pp, SortedPP2d pp n (sortFn pp n)) :
    ∃ nd nd', isNondominated sortFn garbage data 2 n mx false = some nd ∧
      isNondominatedPairwise data 2 n mx false = some nd' ∧
      (∀ i < n, nd i = true → ∃ j, (j < n ∧ nd' j = true ∧ SameVec 2 (data j) (data i)) ∧
        ∀ j', j' < n ∧ nd' j' = true ∧ SameVec 2 (data j') (data i) → j' = j) ∧
      (∀ i < n, nd' i = true → ∃ j, (j < n ∧ nd j = true ∧ SameVec 2 (data j) (data i)) ∧
        ∀ j', j' < n ∧ nd j' = true ∧ SameVec 2 (data j') (data i) → j' = j) := by
  obtain ⟨nd, e, hnd, hex, -⟩ := C02_isNondominated_delete_exact sortFn garbage data 2 n mx hneg hsort
  obtain ⟨nd', e', h'⟩ := isNondominatedPairwise_char data 2 n mx false
  refine ⟨nd, nd', e, e', ?_, ?_⟩
  · intro i hi hf
    have hnon := hnd i hi hf
    obtain ⟨j, hj, hsame, hmin⟩ := exists_min_pri n (fun j => n - j)
      (fun j => SameVec 2 (data j) (data i)) ⟨i, hi, fun _ _ => rfl⟩
    refine ⟨j, ⟨hj, (h' j hj).2 ?_, hsame⟩, ?_⟩
    · rintro k hk (hd | ⟨_, hlt, hs⟩)
      · exact hnon k hk (Dom.of_dom_weak hd hsame.weakDom)
      · have := hmin k hk (hs.trans hsame); omega
    · rintro j' ⟨hj', hf', hs'⟩
      have h1 := hmin j' hj' hs'
      have h2 := (h' j' hj').1 hf' j hj
      by_contra hne
      exact h2 (Or.inr ⟨rfl, by omega, hsame.trans hs'.symm⟩)
  · intro i hi hf
    exact hex i hi (fun j hj hd => (h' i hi).1 hf j hj (Or.inl hd))

/-- Every row is weakly dominated by a nondominated row. -/
theorem exists_nondominated_weakDom {β : Type*} [LinearOrder β] (nobj n : ℕ) (mx : ℕ → Bool)
    (data : ℕ → ℕ → β) (i : ℕ) (hi : i < n) :
    ∃ j < n, Nondominated nobj n mx data j ∧ WeakDom nobj mx (data j) (data i) := by
  -- choose a row weakly dominating `i` that has the fewest rows dominating it
  obtain ⟨j, hj, hw, hmin⟩ := exists_min_pri n
    (fun j => ((List.range n).filter (fun k => decide (Dom nobj mx (data k) (data j)))).length)
    (fun j => WeakDom nobj mx (data j) (data i)) ⟨i, hi, weakDom_refl _ _ _⟩
  refine ⟨j, hj, fun k hk hd => ?_, hw⟩
  have h1 := hmin k hk (weakDom_trans hd.1 hw)
  have hsub : ((List.range n).filter (fun l => decide (Dom nobj mx (data l) (data k)))).Sublist
      ((List.range n).filter (fun l => decide (Dom nobj mx (data l) (data j)))) := by
    apply List.monotone_filter_right
    intro l hl
    simp only [decide_eq_true_eq] at hl ⊢
    exact Dom.trans hl hd
  have heq := hsub.eq_of_length_le h1
  have hmem : k ∈ (List.range n).filter (fun l => decide (Dom nobj mx (data l) (data j))) := by
    simp [hk, hd]
  rw [← heq] at hmem
  simp only [List.mem_filter, decide_eq_true_eq] at hmem
  exact Dom.irrefl hmem.2

/-- **C04.** The rows kept are mutually nondominated, every row is weakly dominated by a kept row, a non-empty
set keeps at least one row. -/
theorem C04_filter_sound_complete
    (sortFn : (ℕ → ℕ → α) → ℕ → List ℕ) (garbage : ℕ → Bool)
    (data : ℕ → ℕ → α) (nobj n : ℕ) (mx : ℕ → Bool) (keep : Bool)
    (hneg : ∀ a b : α, -a ≤ -b ↔ b ≤ a)
    (hsort : ∀ pp, SortedPP2d pp n (sortFn pp n)) :
    ∃ nd, isNondominated sortFn garbage data nobj n mx keep = some nd ∧
      (∀ i < n, ∀ j < n, nd i = true → nd j = true → ¬ Dom nobj mx (data i) (data j)) ∧
      (∀ i < n, ∃ j < n, nd j = true ∧ WeakDom nobj mx (data j) (data i)) ∧
      (0 < n → ∃ i < n, nd i = true) := by
  cases keep
  · obtain ⟨nd, e, hnd, hex, -⟩ := C02_isNondominated_delete_exact sortFn garbage data nobj n mx hneg hsort
    have key : ∀ i < n, ∃ j < n, nd j = true ∧ WeakDom nobj mx (data j) (data i) := by
      intro i hi
      obtain ⟨j, hj, hnon, hw⟩ := exists_nondominated_weakDom nobj n mx data i hi
      obtain ⟨k, ⟨hk, hf, hs⟩, -⟩ := hex j hj hnon
      exact ⟨k, hk, hf, weakDom_trans hs.weakDom hw⟩
    refine ⟨nd, e, fun i hi j hj _ hfj hd => hnd j hj hfj i hi hd, key, fun hn => ?_⟩
    obtain ⟨j, hj, hf, _⟩ := key 0 hn
    exact ⟨j, hj, hf⟩
  · obtain ⟨nd, e, h⟩ := C01_isNondominated_keep_exact sortFn garbage data nobj n mx hneg hsort
    have key : ∀ i < n, ∃ j < n, nd j = true ∧ WeakDom nobj mx (data j) (data i) := by
      intro i hi
      obtain ⟨j, hj, hnon, hw⟩ := exists_nondominated_weakDom nobj n mx data i hi
      exact ⟨j, hj, (h j hj).2 hnon, hw⟩
    refine ⟨nd, e, fun i hi j hj _ hfj hd => (h j hj).1 hfj i hi hd, key, fun hn => ?_⟩
    obtain ⟨j, hj, hf, _⟩ := key 0 hn
    exact ⟨j, hj, hf⟩

/-- **C04 (idempotence).** If the rows of `data'` are, in order, the rows of `data` kept by the filter, then the
filter keeps all rows of `data'`. (`filter_dominated(filter_dominated(x)) = filter_dominated(x)`.) -/
theorem C04_filter_idempotent
    (sortFn : (ℕ → ℕ → α) → ℕ → List ℕ) (garbage garbage' : ℕ → Bool)
    (data data' : ℕ → ℕ → α) (nobj n n' : ℕ) (mx : ℕ → Bool) (keep : Bool)
    (hneg : ∀ a b : α, -a ≤ -b ↔ b ≤ a)
    (hsort : ∀ pp m, SortedPP2d pp m (sortFn pp m))
    (nd : ℕ → Bool) (hnd : isNondominated sortFn garbage data nobj n mx keep = some nd)
    (hn' : n' = ((List.range n).filter (fun i => nd i)).length)
    (hdata' : ∀ t (ht : t < ((List.range n).filter (fun i => nd i)).length),
      data' t = data ((List.range n).filter (fun i => nd i))[t]) :
    ∃ nd', isNondominated sortFn garbage' data' nobj n' mx keep = some nd' ∧ ∀ i < n', nd' i = true := by
  subst hn'
  obtain ⟨nd0, e0, pri, hinj, -, h⟩ :=
    isNondominated_char sortFn garbage data nobj n mx keep hneg (fun pp => hsort pp n)
  rw [hnd] at e0; cases e0
  obtain ⟨nd', e', pri', -, -, h'⟩ :=
    isNondominated_char sortFn garbage' data' nobj _ mx keep hneg (fun pp => hsort pp _)
  refine ⟨nd', e', fun i hi => ?_⟩
  rw [h' i hi]
  intro j hj hB
  rw [hdata' i hi, hdata' j hj] at hB
  have mi : ((List.range n).filter (fun i => nd i))[i] ∈ (List.range n).filter (fun i => nd i) :=
    List.getElem_mem hi
  have mj : ((List.range n).filter (fun i => nd i))[j] ∈ (List.range n).filter (fun i => nd i) :=
    List.getElem_mem hj
  simp only [List.mem_filter, List.mem_range] at mi mj
  rcases hB with hd | ⟨hk, hlt, hs⟩
  · exact (h _ mi.1).1 mi.2 _ mj.1 (Or.inl hd)
  · have hne : ((List.range n).filter (fun i => nd i))[j] ≠ ((List.range n).filter (fun i => nd i))[i] := by
      intro heq
      have hnodup : ((List.range n).filter (fun i => nd i)).Nodup := List.nodup_range.filter _
      have := (hnodup.getElem_inj_iff (hi := hj) (hj := hi)).1 heq
      subst this; omega
    rcases lt_trichotomy (pri ((List.range n).filter (fun i => nd i))[j])
      (pri ((List.range n).filter (fun i => nd i))[i]) with hl | hl | hl
    · exact (h _ mi.1).1 mi.2 _ mj.1 (Or.inr ⟨hk, hl, hs⟩)
    · exact hne (hinj _ mj.1 _ mi.1 hl)
    · exact (h _ mj.1).1 mj.2 _ mi.1 (Or.inr ⟨hk, hl, hs.symm⟩)

/-! ## C05: the returned count -/

/-- **C05 (holds unless there are exactly two objectives and at least two points).**
`find_nondominated_set` and `find_weak_nondominated_set` return the number of flags left true.
What is missing: the case of two objectives with at least two points, where the claim is false, see `C05_false_2d`. -/
theorem C05_count_partial
    (sortFn : (ℕ → ℕ → α) → ℕ → List ℕ) (garbage : ℕ → Bool)
    (pts : ℕ → ℕ → α) (dim size : ℕ) (minmax : ℕ → ℤ) (keep : Bool) (h2 : dim ≠ 2 ∨ size < 2) :
    ∃ r nd, findNondominatedSet_ sortFn garbage pts dim size minmax AGREE_NONE nondomInit false keep = .done r nd ∧
      r = ((List.range size).filter (fun i => nd i)).length := by
  unfold findNondominatedSet_
  by_cases hn : size < 2
  · refine ⟨size, nondomInit, by simp [hn], ?_⟩
    simp [nondomInit]
  · have h2' : dim ≠ 2 := by tauto
    obtain ⟨nd, e, -⟩ := ndOuter_final (dim := dim) (minmax := minmax)
      (agree := AGREE_NONE) (keep := keep) (pts := pts) (size := size) nondomInit (fun _ _ => rfl)
    refine ⟨_, nd, by simp [hn, h2', e], countFlags_eq nd size⟩

/-- With two objectives (and at least two points) the function returns instead the number of flags it has *cleared*. -/
theorem C05_count_2d_returns_dominated
    (sortFn : (ℕ → ℕ → α) → ℕ → List ℕ) (garbage : ℕ → Bool)
    (pts : ℕ → ℕ → α) (size : ℕ) (mx : ℕ → Bool) (keep : Bool) (hn : 2 ≤ size)
    (hneg : ∀ a b : α, -a ≤ -b ↔ b ≤ a)
    (hsort : ∀ pp, SortedPP2d pp size (sortFn pp size)) :
    ∃ r nd, findNondominatedSet_ sortFn garbage pts 2 size (minmaxFromBool mx) AGREE_NONE nondomInit false keep
        = .done r nd ∧
      r = ((List.range size).filter (fun i => !nd i)).length := by
  obtain ⟨pp, hpp, -⟩ := forceAgreeMinimize_bool pts mx hneg
  obtain ⟨-, hc⟩ := findNondominatedSet2d_spec keep garbage nondomInit (hsort pp) (fun _ _ => rfl)
  refine ⟨_, _, ?_, hc⟩
  unfold findNondominatedSet_
  simp [show ¬ size < 2 by omega, hpp]

/-- the rows of a small table -/
def tab (l : List (List ℤ)) : ℕ → ℕ → ℤ := fun i d => (l.getD i []).getD d 0

/-- **C05 is false with two objectives**: two mutually nondominated points, the function returns 0 and leaves
both flags true. -/
theorem C05_false_2d :
    ∃ (pts : ℕ → ℕ → ℤ) (sorted : List ℕ), SortedPP2d pts 2 sorted ∧
      ∃ nd, findNondominatedSet (fun _ _ => sorted) (fun _ => false) pts 2 2 (fun _ => -1) nondomInit = .done 0 nd ∧
        nd 0 = true ∧ nd 1 = true := by
  refine ⟨tab [[1, 2], [2, 1]], [0, 1], ?_, _, rfl, ?_, ?_⟩
  · constructor
    · decide
    · decide
  · decide
  · decide

/-- ... and `get_nondominated_set` writes outside the block that it has allocated. -/
theorem C05_get_nondominated_set_overflow_2d :
    ∃ (pts : ℕ → ℕ → ℤ) (sorted : List ℕ), SortedPP2d pts 2 sorted ∧
      getNondominatedSet (fun _ _ => sorted) (fun _ => false) pts 2 2 (fun _ => -1) = .heapOverflow := by
  refine ⟨tab [[1, 2], [2, 1]], [0, 1], ?_, ?_⟩
  · constructor
    · decide
    · decide
  · rfl

omit [LinearOrder α] [Neg α] in
theorem getNdCopy_ok (pts : ℕ → ℕ → α) (nd : ℕ → Bool) (dim : ℕ) (cap : ℤ) (l : List ℕ)
    (out : List (ℕ → α)) (h : (out.length : ℤ) + (l.filter (fun i => nd i)).length ≤ cap) :
    getNdCopy pts nd dim cap l out = some (out ++ (l.filter (fun i => nd i)).map pts) := by
  induction l generalizing out with
  | nil => simp [getNdCopy]
  | cons a l ih =>
    unfold getNdCopy
    by_cases ha : nd a = true
    · have hl : ((a :: l).filter (fun i => nd i)) = a :: l.filter (fun i => nd i) := by simp [ha]
      rw [hl, List.length_cons] at h
      push_cast at h
      have hc : (out.length : ℤ) + 1 ≤ cap ∨ dim = 0 := by
        left; omega
      simp only [ha, Bool.not_true, Bool.false_eq_true, if_false, hc, if_true]
      rw [ih (out ++ [pts a]) (by simp only [List.length_append, List.length_singleton]; push_cast; omega)]
      rw [hl]; simp
    · have hl : ((a :: l).filter (fun i => nd i)) = l.filter (fun i => nd i) := by simp [ha]
      rw [hl] at h ⊢
      simp only [Bool.not_eq_true] at ha
      simp [ha, ih out h]

/-- **C05 for `get_nondominated_set`** (same restriction): it returns exactly the flagged rows in their original
order, without writing outside the allocated block. -/
theorem C05_get_nondominated_set_partial
    (sortFn : (ℕ → ℕ → α) → ℕ → List ℕ) (garbage : ℕ → Bool)
    (pts : ℕ → ℕ → α) (dim size : ℕ) (minmax : ℕ → ℤ) (h2 : dim ≠ 2 ∨ size < 2) :
    ∃ r nd, findNondominatedSet sortFn garbage pts dim size minmax nondomInit = .done r nd ∧
      getNondominatedSet sortFn garbage pts dim size minmax =
        .done (((List.range size).filter (fun i => nd i)).map pts)
          ((List.range size).filter (fun i => nd i)).length := by
  obtain ⟨r, nd, e, hr⟩ := C05_count_partial sortFn garbage pts dim size minmax false h2
  refine ⟨r, nd, e, ?_⟩
  unfold getNondominatedSet
  rw [show findNondominatedSet sortFn garbage pts dim size minmax nondomInit = .done r nd from e]
  have hle : ((List.range size).filter (fun i => nd i)).length ≤ size := by
    simpa using List.length_filter_le (fun i => nd i) (List.range size)
  have hgt : ¬ (r > (size : ℤ)) := by rw [hr]; omega
  simp only [hgt, if_false]
  rw [getNdCopy_ok pts nd dim r (List.range size) [] (by simp [hr])]
  simp [hr]

/-! ## C06: `find_dominated_point` -/

/-- **C06 (needs at least two points).** `find_dominated_point` returns -1 iff the points are pairwise different
and mutually nondominated; otherwise it returns the index of a point weakly dominated by another one.
Missing: fewer than two points, where the claim is false, see `C06_false_single`. -/
theorem C06_find_dominated_partial
    (sortFn : (ℕ → ℕ → α) → ℕ → List ℕ) (garbage : ℕ → Bool)
    (pts : ℕ → ℕ → α) (dim size : ℕ) (mx : ℕ → Bool) (hn : 2 ≤ size)
    (hneg : ∀ a b : α, -a ≤ -b ↔ b ≤ a)
    (hsort : ∀ pp, SortedPP2d pp size (sortFn pp size)) :
    ∃ r, findDominatedPoint sortFn garbage pts dim size (minmaxFromBool mx) = some r ∧
      (r = -1 ↔ ∀ i < size, ∀ j < size, i ≠ j → ¬ WeakDom dim mx (pts i) (pts j)) ∧
      (r ≠ -1 → ∃ i < size, r = i ∧ ∃ j < size, j ≠ i ∧ WeakDom dim mx (pts j) (pts i)) := by
  -- both algorithms: either nothing is beaten, or a beaten row is returned
  have key : ∃ (r : ℤ) (pri : ℕ → ℕ), findDominatedPoint sortFn garbage pts dim size (minmaxFromBool mx) = some r ∧
      (∀ i < size, ∀ j < size, pri i = pri j → i = j) ∧
      (((∀ i < size, ∀ j < size, ¬ (Dom dim mx (pts j) (pts i) ∨
        (pri j < pri i ∧ SameVec dim (pts j) (pts i)))) ∧ r = -1) ∨
      (∃ i < size, ∃ j < size, (Dom dim mx (pts j) (pts i) ∨
        (pri j < pri i ∧ SameVec dim (pts j) (pts i))) ∧ r = i)) := by
    unfold findDominatedPoint findNondominatedSet_
    have hn' : ¬ size < 2 := by omega
    by_cases h2 : dim = 2
    · subst h2
      obtain ⟨pp, hpp, hle⟩ := forceAgreeMinimize_bool pts mx hneg
      refine ⟨findDominated2d pp false (sortFn pp size), fun i => (sortFn pp size).idxOf i, ?_, ?_, ?_⟩
      · simp [hn', hpp]
      · intro i hi j hj h
        exact (List.idxOf_inj ((sorted_mem (hsort pp) i).2 hi)).1 h
      · rcases findDominated2d_spec false (hsort pp) with ⟨h1, h2⟩ | ⟨i, hi, j, hj, hB, h2⟩
        · left
          refine ⟨fun i hi j hj => ?_, h2⟩
          have := h1 i hi j hj
          rw [beats2_iff false (sortFn pp size) hle] at this
          simpa using this
        · right
          rw [beats2_iff false (sortFn pp size) hle] at hB
          exact ⟨i, hi, j, hj, by simpa using hB, h2⟩
    · rcases ndOuter_find (dim := dim) (minmax := minmaxFromBool mx) (agree := AGREE_NONE) (keep := false)
        (pts := pts) (size := size) (List.range (size - 1)) (by intro k hk; rw [List.mem_range] at hk; omega)
        nondomInit (fun _ _ => rfl) with ⟨h1, nd', e⟩ | ⟨i, hi, j, hj, nd', hB, e⟩
      · refine ⟨-1, fun i => size - i, by simp [hn', h2, e], ?_, Or.inl ⟨?_, rfl⟩⟩
        · intro i hi j hj h; beta_reduce at h; omega
        · intro i hi j hj hB
          have hB' : Beats dim (minmaxFromBool mx) AGREE_NONE false pts j i := by
            rw [beats_none_iff]
            rcases hB with hB | hB
            · exact Or.inl hB
            · exact Or.inr ⟨rfl, by have := hB.1; beta_reduce at this; omega, hB.2⟩
          rcases lt_trichotomy i j with h | h | h
          · exact (h1 i (by rw [List.mem_range]; omega) j h hj).1 hB'
          · subst h; exact Beats.irrefl _ _ _ _ _ _ hB'
          · exact (h1 j (by rw [List.mem_range]; omega) i h hi).2 hB'
      · refine ⟨i, fun i => size - i, by simp [hn', h2, e], ?_, Or.inr ⟨i, hi, j, hj, ?_, rfl⟩⟩
        · intro i hi j hj h; beta_reduce at h; omega
        · rw [beats_none_iff] at hB
          rcases hB with hB | hB
          · exact Or.inl hB
          · exact Or.inr ⟨by beta_reduce; omega, hB.2.2⟩
  obtain ⟨r, pri, e, hinj, hcase⟩ := key
  refine ⟨r, e, ?_, ?_⟩
  · rcases hcase with ⟨h, hr⟩ | ⟨i, hi, j, hj, hB, hr⟩
    · refine ⟨fun _ i hi j hj hij hw => ?_, fun _ => hr⟩
      by_cases hw' : WeakDom dim mx (pts j) (pts i)
      · have hs := weakDom_antisymm hw hw'
        rcases lt_trichotomy (pri i) (pri j) with hl | hl | hl
        · exact h j hj i hi (Or.inr ⟨hl, hs⟩)
        · exact hij (hinj i hi j hj hl)
        · exact h i hi j hj (Or.inr ⟨hl, hs.symm⟩)
      · exact h j hj i hi (Or.inl ((dom_iff _ _ _ _).2 ⟨hw, hw'⟩))
    · refine ⟨fun hr' => by omega, fun h => ?_⟩
      exfalso
      rcases hB with hB | hB
      · refine h j hj i hi ?_ hB.1
        rintro rfl; exact Dom.irrefl hB
      · refine h j hj i hi ?_ hB.2.weakDom
        rintro rfl; omega
  · intro hr'
    rcases hcase with ⟨h, hr⟩ | ⟨i, hi, j, hj, hB, hr⟩
    · exact absurd hr hr'
    · refine ⟨i, hi, hr, j, hj, ?_, ?_⟩
      · rintro rfl
        rcases hB with hB | hB
        · exact Dom.irrefl hB
        · omega
      · rcases hB with hB | hB
        · exact hB.1
        · exact hB.2.weakDom

/-- **C06 is false for a single point**: for every set of exactly one point `find_dominated_point` returns 1,
an index outside of the set, instead of -1. -/
theorem C06_false_single (sortFn : (ℕ → ℕ → α) → ℕ → List ℕ) (garbage : ℕ → Bool)
    (pts : ℕ → ℕ → α) (dim : ℕ) (minmax : ℕ → ℤ) :
    findDominatedPoint sortFn garbage pts dim 1 minmax = some 1 := by
  simp [findDominatedPoint, findNondominatedSet_]

/-! ## C07: maximisation is minimisation of the negation -/

/-- **C07.** Marking objectives as maximised gives, with `keep_weakly = true`, the flags of the table with these columns negated and
everything minimised. -/
theorem C07_maximise_is_negation
    (sortFn : (ℕ → ℕ → α) → ℕ → List ℕ) (garbage : ℕ → Bool)
    (data : ℕ → ℕ → α) (nobj n : ℕ) (mx : ℕ → Bool)
    (hneg : ∀ a b : α, -a ≤ -b ↔ b ≤ a)
    (hsort : ∀ pp, SortedPP2d pp n (sortFn pp n)) :
    ∃ nd nd', isNondominated sortFn garbage data nobj n mx true = some nd ∧
      isNondominated sortFn garbage (fun i d => if mx d then -(data i d) else data i d) nobj n
        (fun _ => false) true = some nd' ∧
      ∀ i < n, nd i = nd' i := by
  obtain ⟨nd, e, h⟩ := C01_isNondominated_keep_exact sortFn garbage data nobj n mx hneg hsort
  obtain ⟨nd', e', h'⟩ := C01_isNondominated_keep_exact sortFn garbage
    (fun i d => if mx d then -(data i d) else data i d) nobj n (fun _ => false) hneg hsort
  refine ⟨nd, nd', e, e', fun i hi => ?_⟩
  rw [Bool.eq_iff_iff, h i hi, h' i hi]
  unfold Nondominated
  refine forall_congr' fun j => forall_congr' fun _ => not_congr ?_
  have hw : ∀ a b, WeakDom nobj mx (data a) (data b) ↔
      WeakDom nobj (fun _ => false) (fun d => if mx d then -(data a d) else data a d)
        (fun d => if mx d then -(data b d) else data b d) := by
    intro a b
    unfold WeakDom
    refine forall_congr' fun d => forall_congr' fun _ => ?_
    unfold AtLeastAsGood
    rcases Bool.eq_false_or_eq_true (mx d) with hd | hd <;> simp [hd, hneg]
  rw [dom_iff, dom_iff, hw, hw]

/-- **C07 for `keep_weakly = false` and more than two objectives or one**: the same flags. -/
theorem C07_maximise_is_negation_delete
    (sortFn : (ℕ → ℕ → α) → ℕ → List ℕ) (garbage : ℕ → Bool)
    (data : ℕ → ℕ → α) (nobj n : ℕ) (mx : ℕ → Bool)
    (hneg : ∀ a b : α, -a ≤ -b ↔ b ≤ a)
    (hsort : ∀ pp, SortedPP2d pp n (sortFn pp n)) :
    ∃ nd nd', isNondominated sortFn garbage data nobj n mx false = some nd ∧
      isNondominated sortFn garbage (fun i d => if mx d then -(data i d) else data i d) nobj n
        (fun _ => false) false = some nd' ∧
      (nobj ≠ 2 → ∀ i < n, nd i = nd' i) ∧
      (∀ i < n, nd i = true → ∃ j < n, nd' j = true ∧ SameVec nobj (data j) (data i)) ∧
      (∀ i < n, nd' i = true → ∃ j < n, nd j = true ∧ SameVec nobj (data j) (data i)) := by
  obtain ⟨nd, e, ha, hb, hc⟩ := C02_isNondominated_delete_exact sortFn garbage data nobj n mx hneg hsort
  obtain ⟨nd', e', ha', hb', hc'⟩ := C02_isNondominated_delete_exact sortFn garbage
    (fun i d => if mx d then -(data i d) else data i d) nobj n (fun _ => false) hneg hsort
  have hw : ∀ a b, WeakDom nobj mx (data a) (data b) ↔
      WeakDom nobj (fun _ => false) (fun d => if mx d then -(data a d) else data a d)
        (fun d => if mx d then -(data b d) else data b d) := by
    intro a b
    unfold WeakDom
    refine forall_congr' fun d => forall_congr' fun _ => ?_
    unfold AtLeastAsGood
    rcases Bool.eq_false_or_eq_true (mx d) with hd | hd <;> simp [hd, hneg]
  have hs : ∀ a b, SameVec nobj (data a) (data b) ↔
      SameVec nobj (fun d => if mx d then -(data a d) else data a d)
        (fun d => if mx d then -(data b d) else data b d) := by
    intro a b
    rw [sameVec_iff (mx := mx), sameVec_iff (mx := fun _ => false), hw, hw]
  have hN : ∀ i, Nondominated nobj n mx data i ↔
      Nondominated nobj n (fun _ => false) (fun i d => if mx d then -(data i d) else data i d) i := by
    intro i
    unfold Nondominated
    refine forall_congr' fun j => forall_congr' fun _ => not_congr ?_
    rw [dom_iff, dom_iff, hw, hw]
  refine ⟨nd, nd', e, e', ?_, ?_, ?_⟩
  · intro h2 i hi
    rw [Bool.eq_iff_iff, hc h2 i hi, hc' h2 i hi, hN i]
    simp only [hs]
  · intro i hi hf
    obtain ⟨j, ⟨hj, hfj, hsj⟩, -⟩ := hb' i hi ((hN i).1 (ha i hi hf))
    exact ⟨j, hj, hfj, (hs j i).2 hsj⟩
  · intro i hi hf
    obtain ⟨j, ⟨hj, hfj, hsj⟩, -⟩ := hb i hi ((hN i).2 (ha' i hi hf))
    exact ⟨j, hj, hfj, hsj⟩

/-! ## The hypotheses are satisfiable -/

/-- A sort satisfying the contract assumed of `qsort` exists for every table. -/
theorem sortedPP2d_exists {β : Type*} [LinearOrder β] :
    ∃ sortFn : (ℕ → ℕ → β) → ℕ → List ℕ, ∀ pp m, SortedPP2d pp m (sortFn pp m) := by
  classical
  refine ⟨fun pp m => (List.range m).mergeSort
    (fun a b => decide (compareXascYasc (pp a) (pp b) ≤ 0)), fun pp m => ⟨List.mergeSort_perm _ _, ?_⟩⟩
  have := List.pairwise_mergeSort (le := fun a b => decide (compareXascYasc (pp a) (pp b) ≤ 0))
    (fun a b c hab hbc => by
      simp only [decide_eq_true_eq, compareXascYasc_le] at *
      rcases hab with h | h <;> rcases hbc with h' | h'
      · exact Or.inl (h.trans h')
      · exact Or.inl (h'.1 ▸ h)
      · exact Or.inl (h.1 ▸ h')
      · exact Or.inr ⟨h.1.trans h'.1, h.2.trans h'.2⟩)
    (fun a b => by
      simp only [Bool.or_eq_true, decide_eq_true_eq, compareXascYasc_le]
      rcases lt_trichotomy (pp a 0) (pp b 0) with h | h | h
      · exact Or.inl (Or.inl h)
      · rcases le_total (pp a 1) (pp b 1) with h' | h'
        · exact Or.inl (Or.inr ⟨h, h'⟩)
        · exact Or.inr (Or.inr ⟨h.symm, h'⟩)
      · exact Or.inr (Or.inl h)) (List.range m)
  exact this.imp (fun h => by simpa using h)

/-- Non-vacuity of C01-C07: all hypotheses hold for integer tables with a suitable sort, and a concrete set has a
dominated row, a duplicated nondominated vector and both kinds of flags. -/
example : (∀ a b : ℤ, -a ≤ -b ↔ b ≤ a) ∧
    (∃ sortFn : (ℕ → ℕ → ℤ) → ℕ → List ℕ, ∀ pp m, SortedPP2d pp m (sortFn pp m)) ∧
    ∃ nd, isNondominated (fun _ _ => [1, 3, 0, 2]) (fun _ => false) (tab [[1, 2], [0, 3], [2, 2], [0, 3]]) 2 4
      (fun _ => false) false = some nd ∧ nd 0 = true ∧ nd 1 = true ∧ nd 2 = false ∧ nd 3 = false :=
  ⟨fun a b => by omega, sortedPP2d_exists, _, rfl, by decide, by decide, by decide, by decide⟩

/-- the same set extended to three objectives goes through the pairwise loop and keeps the *last* copy -/
example : ∃ nd, isNondominated (fun _ _ => []) (fun _ => false)
      (tab [[1, 2, 5], [0, 3, 5], [2, 2, 5], [0, 3, 5]]) 3 4
      (fun _ => false) false = some nd ∧ nd 0 = true ∧ nd 1 = false ∧ nd 2 = false ∧ nd 3 = true :=
  ⟨_, rfl, by decide, by decide, by decide, by decide⟩

/-! ## C46: ignored objectives -/

/-- **C46 (not two objectives).** `find_nondominated_set` / `find_weak_nondominated_set` called with
directions in which some objectives are ignored flags (with `keep_weakly`) exactly the rows not dominated in the
remaining objectives.  Missing: two objectives, where the claim is false, see `C46_false_2d`. -/
theorem C46_ignored_objectives_partial
    (sortFn : (ℕ → ℕ → α) → ℕ → List ℕ) (garbage : ℕ → Bool)
    (pts : ℕ → ℕ → α) (dim size : ℕ) (dir : ℕ → ℤ) (h2 : dim ≠ 2) (hn : 2 ≤ size) :
    ∃ r nd, findWeakNondominatedSet sortFn garbage pts dim size dir nondomInit = .done r nd ∧
      ∀ i < size, nd i = true ↔ ∀ j < size, ¬ DomDir dim dir (pts j) (pts i) := by
  obtain ⟨nd, e, h⟩ := ndOuter_final (dim := dim) (minmax := dir)
    (agree := AGREE_NONE) (keep := true) (pts := pts) (size := size) nondomInit (fun _ _ => rfl)
  refine ⟨countFlags nd size, nd, ?_, fun i hi => ?_⟩
  · unfold findWeakNondominatedSet findNondominatedSet_
    simp [show ¬ size < 2 by omega, h2, e]
  · rw [h i hi]
    refine forall_congr' fun j => forall_congr' fun _ => not_congr ?_
    unfold Beats
    rw [leRow_none_iff, leRow_none_iff, domDir_iff]
    simp

/-- **C46 is false with two objectives**: the second objective is to be ignored, row 1 dominates row 0, but
the code treats the ignored objective as minimised and keeps row 0. -/
theorem C46_false_2d :
    ∃ (pts : ℕ → ℕ → ℤ) (sorted : List ℕ), SortedPP2d pts 2 sorted ∧
      DomDir 2 (fun d => if d = 0 then -1 else 0) (pts 1) (pts 0) ∧
      ∃ r nd, findWeakNondominatedSet (fun _ _ => sorted) (fun _ => false) pts 2 2
        (fun d => if d = 0 then -1 else 0) nondomInit = .done r nd ∧ nd 0 = true := by
  refine ⟨tab [[1, 0], [0, 5]], [1, 0], ⟨by decide, by decide⟩, ?_, _, _, rfl, by decide⟩
  refine ⟨?_, 0, by omega, by decide⟩
  intro d hd
  rcases d with _ | _ | d
  · decide
  · decide
  · omega

/-- ... and when moreover the other objective is maximised, an internal assertion fails. -/
theorem C46_assert_2d :
    findWeakNondominatedSet (fun _ _ => [1, 0]) (fun _ => false) (tab [[1, 0], [0, 5]]) 2 2
        (fun d => if d = 0 then 1 else 0) nondomInit = .assertFail := rfl

end Moo
