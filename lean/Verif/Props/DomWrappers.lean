import Verif.Model.DomWrappers
import Verif.Spec.DomWrappers
import Verif.Props.Nondominated
import Verif.Props.ParetoRank
import Verif.Props.Normalise
import Verif.Props.IndWrappers

/-!
# C74: the dominance filters, ranks and normalisation of the Python and R packages
-/

set_option autoImplicit false
set_option linter.unusedSectionVars false

namespace Moo

section
variable {K : Type*} [Field K] [LinearOrder K] [IsStrictOrderedRing K]

/-- The calls of `qsort` sort. -/
structure DomLibOk (lib : DomLib K) : Prop where
  nd : ∀ pp m, SortedPP2d pp m (lib.sortNd pp m)
  rank : ∀ pp m, SortedFront pp m (lib.sortRank pp m)

theorem exists_domLib : ∃ lib : DomLib K, DomLibOk lib := by
  obtain ⟨s, hs⟩ := sortedPP2d_exists (β := K)
  obtain ⟨t, ht⟩ := sortedFront_exists (α := K)
  exact ⟨⟨s, fun _ => false, t, fun _ => 0⟩, hs, ht⟩

variable {lib : DomLib K}

theorem domW_neg_le (a b : K) : -a ≤ -b ↔ b ≤ a := neg_le_neg_iff

/-! ### Masks -/

theorem domW_weakDom_congr {dim : ℕ} {mx mx' : ℕ → Bool} (h : ∀ k < dim, mx k = mx' k) (p q : ℕ → K) : WeakDom dim mx p q ↔ WeakDom dim mx' p q :=
  forall_congr' fun d => forall_congr' fun hd => by rw [h d hd]

theorem domW_dom_congr {dim : ℕ} {mx mx' : ℕ → Bool} (h : ∀ k < dim, mx k = mx' k) (p q : ℕ → K) : Dom dim mx p q ↔ Dom dim mx' p q := by
  rw [dom_iff, dom_iff, domW_weakDom_congr h, domW_weakDom_congr h]

theorem nondominated_congr {dim n : ℕ} {mx mx' : ℕ → Bool} (h : ∀ k < dim, mx k = mx' k) (pts : ℕ → ℕ → K) (i : ℕ) :
    Nondominated dim n mx pts i ↔ Nondominated dim n mx' pts i :=
  forall_congr' fun _ => forall_congr' fun _ => not_congr (domW_dom_congr h _ _)

theorem IsFilterMask.congr {keep : Bool} {dim n : ℕ} {mx mx' : ℕ → Bool} {pts : ℕ → ℕ → K} {mask : List Bool} (hm : IsFilterMask keep dim n mx pts mask)
    (h : ∀ k < dim, mx k = mx' k) : IsFilterMask keep dim n mx' pts mask := by
  unfold IsFilterMask at *
  simpa only [nondominated_congr h] using hm

theorem callIsNondominated_spec (hlib : DomLibOk lib) (data : ℕ → ℕ → K) (nobj n : ℕ) (mx : ℕ → Bool) (keep : Bool) :
    ∃ nd, isNondominated lib.sortNd lib.garbageNd data nobj n mx keep = some nd ∧ callIsNondominated lib data nobj n mx keep = .value ((List.range n).map nd) ∧
      IsFilterMask keep nobj n mx data ((List.range n).map nd) := by
  have hmask : ∀ (nd : ℕ → Bool) (i : ℕ), i < n → (((List.range n).map nd)[i]? = some true ↔ nd i = true) := by
    intro nd i hi
    simp [hi]
  cases keep with
  | true =>
    obtain ⟨nd, e, h⟩ := C01_isNondominated_keep_exact lib.sortNd lib.garbageNd data nobj n mx domW_neg_le (fun pp => hlib.nd pp n)
    refine ⟨nd, e, by simp only [callIsNondominated, e], by simp, fun i hi hm => (h i hi).1 ((hmask nd i hi).1 hm), fun i hi hn => ?_⟩
    rw [if_pos rfl]
    exact (hmask nd i hi).2 ((h i hi).2 hn)
  | false =>
    obtain ⟨nd, e, h1, h2, -⟩ := C02_isNondominated_delete_exact lib.sortNd lib.garbageNd data nobj n mx domW_neg_le (fun pp => hlib.nd pp n)
    refine ⟨nd, e, by simp only [callIsNondominated, e], by simp, fun i hi hm => h1 i hi ((hmask nd i hi).1 hm), fun i hi hn => ?_⟩
    rw [if_neg (by simp)]
    obtain ⟨j, ⟨hj, hf, hs⟩, hu⟩ := h2 i hi hn
    exact ⟨j, ⟨hj, (hmask nd j hj).2 hf, hs⟩, fun j' ⟨hj', hf', hs'⟩ => hu j' ⟨hj', (hmask nd j' hj').1 hf', hs'⟩⟩

/-- **C74, Python `is_nondominated`.** One flag per row; the rows flagged are the nondominated ones (`keep_weakly`), or exactly one copy of each nondominated vector. -/
theorem C74_py_is_nondominated (hlib : DomLibOk lib) (x : ℕ → ℕ → K) (n nobj : ℕ) (maximise : List Bool) (mx : ℕ → Bool) (hm : PerObjective nobj maximise mx) (keep : Bool) :
    ∃ mask, pyIsNondominated lib (.mat n nobj x) maximise keep = .value mask ∧ IsFilterMask keep nobj n mx x mask := by
  obtain ⟨nd, -, e, h⟩ := callIsNondominated_spec hlib x nobj n (fun k => ((List.range nobj).map mx).getD k false) keep
  refine ⟨_, ?_, h.congr (fun k hk => by simp [List.getD_eq_getElem?_getD, hk])⟩
  simp only [pyIsNondominated, atleast1d_spec maximise nobj mx hm, e]

/-- The flags do not depend on anything but the values and directions if all copies are kept. -/
theorem IsFilterMask.unique {dim n : ℕ} {mx : ℕ → Bool} {pts : ℕ → ℕ → K} {mask mask' : List Bool} (h : IsFilterMask true dim n mx pts mask) (h' : IsFilterMask true dim n mx pts mask') :
    mask = mask' := by
  apply List.ext_getElem (h.1.trans h'.1.symm)
  intro i hi hi'
  have hn : i < n := h.1 ▸ hi
  have a : mask[i] = true ↔ Nondominated dim n mx pts i := by
    constructor
    · intro e; exact h.2.1 i hn (by rw [List.getElem?_eq_getElem hi, e])
    · intro e; have := h.2.2 i hn e; rw [if_pos rfl, List.getElem?_eq_getElem hi] at this; simpa using this
  have b : mask'[i] = true ↔ Nondominated dim n mx pts i := by
    constructor
    · intro e; exact h'.2.1 i hn (by rw [List.getElem?_eq_getElem hi', e])
    · intro e; have := h'.2.2 i hn e; rw [if_pos rfl, List.getElem?_eq_getElem hi'] at this; simpa using this
  rw [Bool.eq_iff_iff, a, b]

theorem npRows_spec (x : ℕ → ℕ → K) (n nobj : ℕ) (mask : List Bool) : npRows true (.mat n nobj x) mask = .value (keptRows n x mask) := by
  simp only [npRows, keptRows]
  congr 2
  apply List.filter_congr
  intro i _
  cases h : mask[i]? with
  | none => simp [List.getD_eq_getElem?_getD, h]
  | some b => cases b <;> simp [List.getD_eq_getElem?_getD, h]

/-- **C74, Python `filter_dominated`.** For an array, the result consists of the rows flagged by `is_nondominated`, unchanged and in the same order. -/
theorem C74_py_filter_dominated (hlib : DomLibOk lib) (x : ℕ → ℕ → K) (n nobj : ℕ) (maximise : List Bool) (mx : ℕ → Bool) (hm : PerObjective nobj maximise mx) (keep : Bool) :
    ∃ mask, IsFilterMask keep nobj n mx x mask ∧ pyFilterDominated lib true (.mat n nobj x) maximise keep = .value (keptRows n x mask) := by
  obtain ⟨mask, e, h⟩ := C74_py_is_nondominated hlib x n nobj maximise mx hm keep
  exact ⟨mask, h, by simp only [pyFilterDominated, e, npRows_spec]⟩

/-- **C74, lists.** `is_nondominated` accepts a list of lists, but `filter_dominated` raises an exception for it. -/
theorem C74_false_filter_list (data : ArrArg K) (maximise : List Bool) (keep : Bool) :
    ∀ rows, pyFilterDominated lib false data maximise keep ≠ .value rows := by
  intro rows h
  unfold pyFilterDominated at h
  cases hd : pyIsNondominated lib data maximise keep with
  | value mask => rw [hd] at h; simp only [npRows] at h; cases data <;> simp at h
  | error => rw [hd] at h; simp at h
  | exit => rw [hd] at h; simp at h
  | undefined => rw [hd] at h; simp at h

/-- **C74, idempotence.** Filtering the result again changes nothing. -/
theorem C74_py_filter_idempotent (hlib : DomLibOk lib) (x : ℕ → ℕ → K) (n nobj : ℕ) (maximise : List Bool) (hm : maximise.length = 1 ∨ maximise.length = nobj) (keep : Bool) :
    ∃ rows, pyFilterDominated lib true (.mat n nobj x) maximise keep = .value rows ∧
      pyFilterDominated lib true (.mat rows.length nobj (fun i => rows.getD i (fun _ => 0))) maximise keep = .value rows := by
  obtain ⟨mx, hmx⟩ := exists_perObjective maximise nobj hm
  obtain ⟨nd, e1, e2, hmask⟩ := callIsNondominated_spec hlib x nobj n (fun k => ((List.range nobj).map mx).getD k false) keep
  have hkept : keptRows n x ((List.range n).map nd) = ((List.range n).filter (fun i => nd i)).map x := by
    unfold keptRows
    congr 1
    apply List.filter_congr
    intro i hi
    rw [List.mem_range] at hi
    cases hb : nd i <;> simp [hi, hb]
  have e3 : ∀ data n' nd', isNondominated lib.sortNd lib.garbageNd data nobj n' (fun k => ((List.range nobj).map mx).getD k false) keep = some nd' →
      pyFilterDominated lib true (.mat n' nobj data) maximise keep = .value (keptRows n' data ((List.range n').map nd')) := by
    intro data n' nd' h
    simp only [pyFilterDominated, pyIsNondominated, atleast1d_spec maximise nobj mx hmx, callIsNondominated, h, npRows_spec]
  refine ⟨_, e3 x n nd e1, ?_⟩
  rw [hkept]
  obtain ⟨nd', e4, h4⟩ := C04_filter_idempotent lib.sortNd lib.garbageNd lib.garbageNd x
    (fun i => (((List.range n).filter (fun i => nd i)).map x).getD i (fun _ => 0)) nobj n (((List.range n).filter (fun i => nd i)).map x).length (fun k => ((List.range nobj).map mx).getD k false) keep domW_neg_le hlib.nd nd e1
    (by simp) (by
      intro t ht
      simp [List.getD_eq_getElem?_getD, List.getElem?_eq_getElem ht])
  rw [e3 _ _ nd' e4]
  congr 1
  unfold keptRows
  generalize (((List.range n).filter (fun i => nd i)).map x) = L at *
  have : (List.range L.length).filter (fun i => ((List.range L.length).map nd')[i]? = some true) = List.range L.length := by
    rw [List.filter_eq_self]
    intro i hi
    rw [List.mem_range] at hi
    simp [hi, h4 i hi]
  rw [this]
  apply List.ext_getElem
  · simp
  · intro i h1 h2
    simp [List.getD_eq_getElem?_getD, List.getElem?_eq_getElem h2]

/-- **C74, Python, errors of `is_nondominated` and `pareto_rank`:** exactly if `data` is not a table or `maximise` does not have 1 element or one per objective. -/
theorem C74_py_error (hlib : DomLibOk lib) (data : ArrArg K) (maximise : List Bool) (keep : Bool) :
    (pyIsNondominated lib data maximise keep = .error ↔ ¬ ∃ n nobj x, data = .mat n nobj x ∧ (maximise.length = 1 ∨ maximise.length = nobj)) ∧
    (pyParetoRank lib data maximise = .error ↔ ¬ ∃ n nobj x, data = .mat n nobj x ∧ (maximise.length = 1 ∨ maximise.length = nobj)) := by
  cases data with
  | vec l => simp [pyIsNondominated, pyParetoRank]
  | mat n nobj x =>
    by_cases h : maximise.length = 1 ∨ maximise.length = nobj
    · obtain ⟨mx, hmx⟩ := exists_perObjective maximise nobj h
      have hR : ¬¬ ∃ n' nobj' x', (ArrArg.mat n nobj x : ArrArg K) = .mat n' nobj' x' ∧ (maximise.length = 1 ∨ maximise.length = nobj') := not_not.2 ⟨n, nobj, x, rfl, h⟩
      refine ⟨⟨fun e => ?_, fun e => absurd e hR⟩, ⟨fun e => ?_, fun e => absurd e hR⟩⟩
      · obtain ⟨mask, e', -⟩ := C74_py_is_nondominated hlib x n nobj maximise mx hmx keep
        rw [e'] at e; simp at e
      · simp only [pyParetoRank, atleast1d_spec maximise nobj mx hmx, callParetoRank] at e
        split at e <;> simp at e
    · have hR : ¬ ∃ n' nobj' x', (ArrArg.mat n nobj x : ArrArg K) = .mat n' nobj' x' ∧ (maximise.length = 1 ∨ maximise.length = nobj') := by
        rintro ⟨_, _, _, e, h'⟩
        cases e
        exact h h'
      simp only [pyIsNondominated, pyParetoRank, atleast1d_none maximise nobj h, true_iff]
      exact ⟨hR, hR⟩

/-! ### Ranks -/

theorem domW_inFront_congr {dim n : ℕ} {mx mx' : ℕ → Bool} {pts pts' : ℕ → ℕ → K} (h : ∀ a b, Dom dim mx (pts a) (pts b) ↔ Dom dim mx' (pts' a) (pts' b)) (r i : ℕ) :
    InFront dim n mx pts r i ↔ InFront dim n mx' pts' r i := by
  have hr : ∀ r i, Remaining dim n mx pts r i ↔ Remaining dim n mx' pts' r i := by
    intro r
    induction r with
    | zero => intro i; exact Iff.rfl
    | succ r ih => intro i; simp only [Remaining, ih, h]
  unfold InFront
  simp only [hr, h]

/-- Fronts of a table in which the columns to be maximised are negated. -/
theorem callParetoRank_spec (hlib : DomLibOk lib) (x y : ℕ → ℕ → K) (nobj n : ℕ) (hn : nobj = 2 → 0 < n) (mx : ℕ → Bool)
    (hy : ∀ i, ∀ k < nobj, y i k = if mx k then -x i k else x i k) :
    ∃ ranks, callParetoRank lib y nobj n = .value ranks ∧ ranks.length = n ∧ ∀ i < n, ∃ r, ranks[i]? = some r ∧ InFront nobj n mx x r i := by
  obtain ⟨rank, e, h⟩ := C08_pareto_rank_peels lib.sortRank lib.garbageRank y nobj n (n + 1) (by omega) hn (fun pp => hlib.rank pp n)
  refine ⟨(List.range n).map rank, by simp only [callParetoRank, e], by simp, fun i hi => ⟨rank i, by simp [hi], ?_⟩⟩
  rw [domW_inFront_congr (mx' := fun _ => false) (pts' := y)]
  · exact h i hi
  · intro a b
    have hw : ∀ a b, WeakDom nobj mx (x a) (x b) ↔ WeakDom nobj (fun _ => false) (y a) (y b) := by
      intro a b
      refine forall_congr' fun d => forall_congr' fun hd => ?_
      rw [hy a d hd, hy b d hd]
      unfold AtLeastAsGood
      cases mx d <;> simp
    rw [dom_iff, dom_iff, hw, hw]

/-- **C74, Python `pareto_rank`.** One rank per row: the number of the front of the row, in the given directions. -/
theorem C74_py_pareto_rank (hlib : DomLibOk lib) (x : ℕ → ℕ → K) (n nobj : ℕ) (maximise : List Bool) (mx : ℕ → Bool) (hm : PerObjective nobj maximise mx) (hn : nobj = 2 → 0 < n) :
    ∃ ranks, pyParetoRank lib (.mat n nobj x) maximise = .value ranks ∧ ranks.length = n ∧ ∀ i < n, ∃ r, ranks[i]? = some r ∧ InFront nobj n mx x r i := by
  simp only [pyParetoRank, atleast1d_spec maximise nobj mx hm]
  refine callParetoRank_spec hlib x _ nobj n hn mx (fun i k hk => ?_)
  split_ifs with h1 h2 h2
  · simp [npNegateColumns, List.getD_eq_getElem?_getD, hk, h2]
  · simp [npNegateColumns, List.getD_eq_getElem?_getD, hk, h2]
  · rw [any_false_spec nobj mx h1 k hk] at h2; simp at h2
  · rfl

/-- With two objectives and no rows, memory outside of the allocated blocks is written. -/
theorem C74_py_pareto_rank_empty (x : ℕ → ℕ → K) (maximise : List Bool) (hm : maximise.length = 1 ∨ maximise.length = 2) : pyParetoRank lib (.mat 0 2 x) maximise = .undefined := by
  obtain ⟨mx, hmx⟩ := exists_perObjective maximise 2 hm
  simp only [pyParetoRank, atleast1d_spec maximise 2 mx hmx, callParetoRank, C09_empty_2d]

/-! ### Normalisation -/

theorem foldl_min_spec (l : List K) (a : K) : (l.foldl min a = a ∨ l.foldl min a ∈ l) ∧ l.foldl min a ≤ a ∧ ∀ b ∈ l, l.foldl min a ≤ b := by
  induction l generalizing a with
  | nil => simp
  | cons c l ih =>
    rw [List.foldl_cons]
    obtain ⟨h1, h2, h3⟩ := ih (min a c)
    refine ⟨?_, h2.trans (min_le_left _ _), ?_⟩
    · rcases h1 with h1 | h1
      · rcases min_choice a c with h | h
        · exact Or.inl (h1.trans h)
        · exact Or.inr (by rw [h1, h]; simp)
      · exact Or.inr (by simp [h1])
    · intro b hb
      rcases List.mem_cons.1 hb with rfl | hb
      · exact h2.trans (min_le_right _ _)
      · exact h3 b hb

theorem foldl_max_spec (l : List K) (a : K) : (l.foldl max a = a ∨ l.foldl max a ∈ l) ∧ a ≤ l.foldl max a ∧ ∀ b ∈ l, b ≤ l.foldl max a := by
  induction l generalizing a with
  | nil => simp
  | cons c l ih =>
    rw [List.foldl_cons]
    obtain ⟨h1, h2, h3⟩ := ih (max a c)
    refine ⟨?_, (le_max_left _ _).trans h2, ?_⟩
    · rcases h1 with h1 | h1
      · rcases max_choice a c with h | h
        · exact Or.inl (h1.trans h)
        · exact Or.inr (by rw [h1, h]; simp)
      · exact Or.inr (by simp [h1])
    · intro b hb
      rcases List.mem_cons.1 hb with rfl | hb
      · exact (le_max_right _ _).trans h2
      · exact h3 b hb

/-- The values of a column. -/
def column (x : ℕ → ℕ → K) (n k : ℕ) : Set K := {v | ∃ i < n, v = x i k}

theorem colMin_spec (x : ℕ → ℕ → K) (n k : ℕ) (hn : 0 < n) : IsLeast (column x n k) (colMin x n k) := by
  obtain ⟨h1, h2, h3⟩ := foldl_min_spec ((List.range n).map (fun i => x i k)) (x 0 k)
  refine ⟨?_, ?_⟩
  · rcases h1 with h1 | h1
    · exact ⟨0, hn, h1⟩
    · obtain ⟨i, hi, e⟩ := List.mem_map.1 h1
      exact ⟨i, List.mem_range.1 hi, e.symm⟩
  · rintro v ⟨i, hi, rfl⟩
    exact h3 _ (List.mem_map.2 ⟨i, List.mem_range.2 hi, rfl⟩)

theorem colMax_spec (x : ℕ → ℕ → K) (n k : ℕ) (hn : 0 < n) : IsGreatest (column x n k) (colMax x n k) := by
  obtain ⟨h1, h2, h3⟩ := foldl_max_spec ((List.range n).map (fun i => x i k)) (x 0 k)
  refine ⟨?_, ?_⟩
  · rcases h1 with h1 | h1
    · exact ⟨0, hn, h1⟩
    · obtain ⟨i, hi, e⟩ := List.mem_map.1 h1
      exact ⟨i, List.mem_range.1 hi, e.symm⟩
  · rintro v ⟨i, hi, rfl⟩
    exact h3 _ (List.mem_map.2 ⟨i, List.mem_range.2 hi, rfl⟩)

/-- The bounds are as specified. -/
def BoundsOk (x : ℕ → ℕ → K) (n nobj : ℕ) (lower upper : ℕ → Option K) (L U : ℕ → K) : Prop :=
  ∀ k < nobj, IsBound (lower k) (column x n k) IsLeast (L k) ∧ IsBound (upper k) (column x n k) IsGreatest (U k)

theorem agreeNormalise_value (x : ℕ → ℕ → K) (n nobj : ℕ) (hn : 0 < n) (mx mx' : ℕ → Bool) (lo hi : K) (lower upper lower' upper' : ℕ → Option K) (L U : ℕ → K)
    (hb : BoundsOk x n nobj lower upper L U) (hm : ∀ k < nobj, mx' k = mx k) (hl : ∀ k < nobj, lower' k = lower k) (hu : ∀ k < nobj, upper' k = upper k)
    {i k : ℕ} (hi' : i < n) (hk : k < nobj) :
    agreeNormalise x nobj n mx' lo hi (fun k => (lower' k).getD (colMin x n k)) (fun k => (upper' k).getD (colMax x n k)) i k = normValue (mx k) lo hi (L k) (U k) (x i k) := by
  have hL : (lower' k).getD (colMin x n k) = L k := by
    have := (hb k hk).1
    rw [hl k hk]
    cases h : lower k with
    | none => rw [h] at this; exact (colMin_spec x n k hn).unique this
    | some v => rw [h] at this; exact this.symm
  have hU : (upper' k).getD (colMax x n k) = U k := by
    have := (hb k hk).2
    rw [hu k hk]
    cases h : upper k with
    | none => rw [h] at this; exact (colMax_spec x n k hn).unique this
    | some v => rw [h] at this; exact this.symm
  rw [agreeNormalise_val x nobj n mx' lo hi _ _ hi' hk]
  unfold normDiff normValue
  simp only [hL, hU, hm k hk, sub_eq_zero, mul_div_assoc]
  cases mx k <;> simp

/-- **C74, Python `normalise`.** The entry in row `i` and column `k` is the value of the data mapped linearly from the bounds of its objective to the range. -/
theorem C74_py_normalise (x : ℕ → ℕ → K) (n nobj : ℕ) (hd : 2 ≤ nobj) (hn : 0 < n) (lo hi : K) (lower upper : List (Option K)) (l u : ℕ → Option K) (maximise : List Bool) (mx : ℕ → Bool)
    (hl : PerObjective nobj lower l) (hu : PerObjective nobj upper u) (hm : PerObjective nobj maximise mx) (L U : ℕ → K) (hb : BoundsOk x n nobj l u L U) :
    ∃ y, pyNormalise (.mat n nobj x) [lo, hi] lower upper maximise = .value y ∧ ∀ i < n, ∀ k < nobj, y i k = normValue (mx k) lo hi (L k) (U k) (x i k) := by
  have hn' : ¬ ((((List.range nobj).map l).any Option.isNone || ((List.range nobj).map u).any Option.isNone) = true ∧ n = 0) := fun h => by omega
  refine ⟨agreeNormalise x nobj n (fun k => ((List.range nobj).map mx).getD k false) lo hi (fun k => (((List.range nobj).map l).getD k none).getD (colMin x n k))
    (fun k => (((List.range nobj).map u).getD k none).getD (colMax x n k)), by simp only [pyNormalise, if_neg (show ¬ nobj = 1 by omega), List.length_cons, List.length_nil, Nat.zero_add, Nat.reduceAdd, ne_eq, not_true_eq_false, if_false,
    atleast1d_spec lower nobj l hl, atleast1d_spec upper nobj u hu, atleast1d_spec maximise nobj mx hm, if_neg hn']; rfl, fun i hi' k hk => ?_⟩
  exact agreeNormalise_value x n nobj hn mx _ lo hi l u (fun k => ((List.range nobj).map l).getD k none) (fun k => ((List.range nobj).map u).getD k none) L U hb
    (fun k hk => by simp [List.getD_eq_getElem?_getD, hk]) (fun k hk => by simp [List.getD_eq_getElem?_getD, hk]) (fun k hk => by simp [List.getD_eq_getElem?_getD, hk]) hi' hk

/-- **C74, Python `normalise`, errors:** an exception is raised exactly if the data are no table or have one column, the range does not have two values, the bounds or the directions
do not have 1 element or one per objective, or a bound has to be determined from no rows. -/
theorem C74_py_normalise_error (data : ArrArg K) (toRange : List K) (lower upper : List (Option K)) (maximise : List Bool) :
    pyNormalise data toRange lower upper maximise = .error ↔
      ¬ ∃ n nobj x, data = .mat n nobj x ∧ nobj ≠ 1 ∧ toRange.length = 2 ∧ (lower.length = 1 ∨ lower.length = nobj) ∧ (upper.length = 1 ∨ upper.length = nobj) ∧
        (maximise.length = 1 ∨ maximise.length = nobj) ∧ (n = 0 → ∀ l u, PerObjective nobj lower l → PerObjective nobj upper u → ∀ k < nobj, l k ≠ none ∧ u k ≠ none) := by
  cases data with
  | vec l => simp [pyNormalise]
  | mat n nobj x =>
    have hex : (∃ n' nobj' x', (ArrArg.mat n nobj x : ArrArg K) = .mat n' nobj' x' ∧ nobj' ≠ 1 ∧ toRange.length = 2 ∧ (lower.length = 1 ∨ lower.length = nobj') ∧
        (upper.length = 1 ∨ upper.length = nobj') ∧ (maximise.length = 1 ∨ maximise.length = nobj') ∧
        (n' = 0 → ∀ l u, PerObjective nobj' lower l → PerObjective nobj' upper u → ∀ k < nobj', l k ≠ none ∧ u k ≠ none)) ↔
        (nobj ≠ 1 ∧ toRange.length = 2 ∧ (lower.length = 1 ∨ lower.length = nobj) ∧ (upper.length = 1 ∨ upper.length = nobj) ∧ (maximise.length = 1 ∨ maximise.length = nobj) ∧
        (n = 0 → ∀ l u, PerObjective nobj lower l → PerObjective nobj upper u → ∀ k < nobj, l k ≠ none ∧ u k ≠ none)) := by
      constructor
      · rintro ⟨_, _, _, e, h⟩
        cases e
        exact h
      · exact fun h => ⟨n, nobj, x, rfl, h⟩
    rw [hex]
    simp only [pyNormalise]
    by_cases h1 : nobj = 1
    · simp [h1]
    by_cases h2 : toRange.length = 2
    swap
    · simp [h1, h2]
    by_cases h3 : lower.length = 1 ∨ lower.length = nobj
    swap
    · simp only [h1, h2, atleast1d_none lower nobj h3]; simp [h3]
    by_cases h4 : upper.length = 1 ∨ upper.length = nobj
    swap
    · obtain ⟨l, hl⟩ := exists_perObjective lower nobj h3
      simp only [h1, h2, atleast1d_none upper nobj h4, atleast1d_spec lower nobj l hl]; simp [h4]
    obtain ⟨l, hl⟩ := exists_perObjective lower nobj h3
    obtain ⟨u, hu⟩ := exists_perObjective upper nobj h4
    simp only [h1, h2, h3, h4, atleast1d_spec lower nobj l hl, atleast1d_spec upper nobj u hu, if_false, ne_eq, not_true_eq_false, not_false_eq_true, true_and]
    have hany : ((((List.range nobj).map l).any Option.isNone || ((List.range nobj).map u).any Option.isNone) = true ∧ n = 0) ↔
        ¬ (n = 0 → ∀ l u, PerObjective nobj lower l → PerObjective nobj upper u → ∀ k < nobj, l k ≠ none ∧ u k ≠ none) := by
      have huniq : ∀ {arg : List (Option K)} {f g : ℕ → Option K}, PerObjective nobj arg f → PerObjective nobj arg g → ∀ k < nobj, f k = g k := by
        intro arg f g hf hg k hk
        have := (hf.2 k hk).symm.trans (hg.2 k hk)
        simpa using this
      rw [Bool.or_eq_true, List.any_eq_true, List.any_eq_true]
      constructor
      · rintro ⟨h, hn⟩ hc
        have hc := hc hn l u hl hu
        rcases h with ⟨v, hv, e⟩ | ⟨v, hv, e⟩
        · obtain ⟨k, hk, rfl⟩ := List.mem_map.1 hv
          exact (hc k (List.mem_range.1 hk)).1 (Option.isNone_iff_eq_none.1 e)
        · obtain ⟨k, hk, rfl⟩ := List.mem_map.1 hv
          exact (hc k (List.mem_range.1 hk)).2 (Option.isNone_iff_eq_none.1 e)
      · intro h
        push Not at h
        obtain ⟨hn, l', u', hl', hu', k, hk, h⟩ := h
        refine ⟨?_, hn⟩
        rw [huniq hl' hl k hk, huniq hu' hu k hk] at h
        by_cases hlk : l k = none
        · exact Or.inl ⟨l k, List.mem_map.2 ⟨k, List.mem_range.2 hk, rfl⟩, by simp [hlk]⟩
        · exact Or.inr ⟨u k, List.mem_map.2 ⟨k, List.mem_range.2 hk, rfl⟩, by simp [h hlk]⟩
    by_cases h5 : maximise.length = 1 ∨ maximise.length = nobj
    · obtain ⟨mx, hmx⟩ := exists_perObjective maximise nobj h5
      simp only [atleast1d_spec maximise nobj mx hmx, h5, true_and]
      rw [← hany]
      split_ifs with h6
      · exact iff_of_true rfl h6
      · exact iff_of_false (by simp) h6
    · simp only [atleast1d_none maximise nobj h5, h5, false_and, not_false_eq_true, ite_self]

/-- **C74, the default bounds.** With `lower` and `upper` left out, an increasing range, and the values of an objective not all equal: every value lands in the range, the least and the
greatest value of an objective land on the ends, and dominance is preserved (all objectives being minimised afterwards). -/
theorem C74_normalise_default (x y : ℕ → ℕ → K) (n nobj : ℕ) (lo hi : K) (hlh : lo < hi) (mx : ℕ → Bool) (L U : ℕ → K)
    (hb : BoundsOk x n nobj (fun _ => none) (fun _ => none) L U) (hne : ∀ k < nobj, L k ≠ U k)
    (hy : ∀ i < n, ∀ k < nobj, y i k = normValue (mx k) lo hi (L k) (U k) (x i k)) :
    (∀ i < n, ∀ k < nobj, lo ≤ y i k ∧ y i k ≤ hi) ∧ (∀ k < nobj, (∃ i < n, y i k = lo) ∧ ∃ i < n, y i k = hi) ∧
    ∀ i < n, ∀ j < n, Dom nobj mx (x i) (x j) ↔ Dom nobj (fun _ => false) (y i) (y j) := by
  have hL : ∀ k < nobj, IsLeast (column x n k) (L k) := fun k hk => (hb k hk).1
  have hU : ∀ k < nobj, IsGreatest (column x n k) (U k) := fun k hk => (hb k hk).2
  have hLU : ∀ k < nobj, L k < U k := fun k hk => lt_of_le_of_ne ((hL k hk).2 (hU k hk).1) (hne k hk)
  have hval : ∀ k < nobj, ∀ v, normValue (mx k) lo hi (L k) (U k) v = lo + (hi - lo) * ((if mx k then U k - v else v - L k) / (U k - L k)) := by
    intro k hk v
    unfold normValue
    rw [if_neg (hne k hk).symm]
  have hpos : ∀ k < nobj, 0 < U k - L k := fun k hk => sub_pos.2 (hLU k hk)
  have hmono : ∀ k < nobj, ∀ v w, normValue (mx k) lo hi (L k) (U k) v ≤ normValue (mx k) lo hi (L k) (U k) w ↔ AtLeastAsGood (mx k) v w := by
    intro k hk v w
    rw [hval k hk, hval k hk, add_le_add_iff_left, mul_le_mul_iff_right₀ (sub_pos.2 hlh), div_le_div_iff_of_pos_right (hpos k hk)]
    unfold AtLeastAsGood
    cases mx k
    · simp
    · simp only [if_true]
      exact sub_le_sub_iff_left _
  have hendL : ∀ k < nobj, normValue (mx k) lo hi (L k) (U k) (L k) = if mx k then hi else lo := by
    intro k hk
    rw [hval k hk]
    cases mx k
    · simp
    · simp [div_self (hpos k hk).ne']
  have hendU : ∀ k < nobj, normValue (mx k) lo hi (L k) (U k) (U k) = if mx k then lo else hi := by
    intro k hk
    rw [hval k hk]
    cases mx k
    · simp [div_self (hpos k hk).ne']
    · simp
  refine ⟨fun i hi' k hk => ?_, fun k hk => ?_, fun i hi' j hj => ?_⟩
  · have h1 : L k ≤ x i k := (hL k hk).2 ⟨i, hi', rfl⟩
    have h2 : x i k ≤ U k := (hU k hk).2 ⟨i, hi', rfl⟩
    have a := hmono k hk (L k) (x i k)
    have b := hmono k hk (x i k) (U k)
    have a' := hmono k hk (x i k) (L k)
    have b' := hmono k hk (U k) (x i k)
    rw [hendL k hk] at a a'
    rw [hendU k hk] at b b'
    rw [hy i hi' k hk]
    unfold AtLeastAsGood at a b a' b'
    cases hm : mx k <;> simp only [hm, if_true, Bool.false_eq_true, if_false] at a b a' b' ⊢
    · exact ⟨a.2 h1, b.2 h2⟩
    · exact ⟨b'.2 h2, a'.2 h1⟩
  · obtain ⟨i, hi1, e1⟩ := (hL k hk).1
    obtain ⟨j, hj1, e2⟩ := (hU k hk).1
    have a : y i k = if mx k then hi else lo := by rw [hy i hi1 k hk, ← e1, hendL k hk]
    have b : y j k = if mx k then lo else hi := by rw [hy j hj1 k hk, ← e2, hendU k hk]
    cases hm : mx k <;> simp only [hm, if_true, Bool.false_eq_true, if_false] at a b
    · exact ⟨⟨i, hi1, a⟩, ⟨j, hj1, b⟩⟩
    · exact ⟨⟨j, hj1, b⟩, ⟨i, hi1, a⟩⟩
  · have hw : ∀ i < n, ∀ j < n, (WeakDom nobj mx (x i) (x j) ↔ WeakDom nobj (fun _ => false) (y i) (y j)) := by
      intro i hi' j hj
      refine forall_congr' fun k => forall_congr' fun hk => ?_
      rw [hy i hi' k hk, hy j hj k hk, ← hmono k hk]
      simp [AtLeastAsGood]
    rw [dom_iff, dom_iff, hw i hi' j hj, hw j hj i hi']

/-! ### R -/

theorem recycledTo_getD {β : Type*} {n : ℕ} {arg : List β} {f : ℕ → β} (h : RecycledTo n arg f) (d : β) {k : ℕ} (hk : k < n) : arg.getD (k % arg.length) d = f k := by
  simp [List.getD_eq_getElem?_getD, h k hk]

theorem recycledTo_length {β : Type*} {n : ℕ} {arg : List β} {f : ℕ → β} (h : RecycledTo n arg f) (hn : 0 < n) : arg.length ≠ 0 := by
  intro h0
  have := h 0 hn
  rw [List.length_eq_zero_iff.1 h0] at this
  simp at this

/-- **C74, R `is_nondominated` and `filter_dominated`.** -/
theorem C74_r_filter_dominated (hlib : DomLibOk lib) (x : ℕ → ℕ → K) (n nobj : ℕ) (hn : 1 ≤ n) (hd : 2 ≤ nobj) (maximise : List Bool) (mx : ℕ → Bool) (hm : RecycledTo nobj maximise mx) (keep : Bool) :
    ∃ mask, IsFilterMask keep nobj n mx x mask ∧ rIsNondominated lib (.mat n nobj x) maximise keep = .value mask ∧
      rFilterDominated lib (.mat n nobj x) maximise keep = .value (keptRows n x mask) := by
  obtain ⟨nd, -, e, h⟩ := callIsNondominated_spec hlib x nobj n (fun k => maximise.getD (k % maximise.length) false) keep
  have e' : rIsNondominated lib (.mat n nobj x) maximise keep = .value ((List.range n).map nd) := by
    have : asDoubleMatrix (.mat n nobj x) = some (n, nobj, x) := by
      simp only [asDoubleMatrix, if_neg (show ¬ n < 1 by omega), if_neg (show ¬ nobj < 2 by omega)]
    simp only [rIsNondominated, this, if_neg (recycledTo_length hm (by omega)), e]
  exact ⟨_, h.congr (fun k hk => recycledTo_getD hm false hk), e', by simp only [rFilterDominated, e', npRows_spec]⟩

/-- **C74, R `pareto_rank`.** With one direction or one per objective. -/
theorem C74_r_pareto_rank (hlib : DomLibOk lib) (x : ℕ → ℕ → K) (n nobj : ℕ) (hn : 1 ≤ n) (hd : 2 ≤ nobj) (maximise : List Bool) (mx : ℕ → Bool) (hm : PerObjective nobj maximise mx) :
    ∃ ranks, rParetoRank lib (.mat n nobj x) maximise = .value ranks ∧ ranks.length = n ∧ ∀ i < n, ∃ r, ranks[i]? = some r ∧ InFront nobj n mx x r i := by
  have ha : asDoubleMatrix (.mat n nobj x) = some (n, nobj, x) := by
    simp only [asDoubleMatrix, if_neg (show ¬ n < 1 by omega), if_neg (show ¬ nobj < 2 by omega)]
  have ht : ∃ y, transformMaximise x nobj maximise = some y ∧ ∀ i, ∀ k < nobj, y i k = if mx k then -x i k else x i k := by
    have hmem : ∀ k < nobj, mx k ∈ maximise := fun k hk => List.mem_of_getElem? (hm.2 k hk)
    unfold transformMaximise
    by_cases h1 : maximise.any id = true
    · by_cases h2 : maximise.all id = true
      · refine ⟨fun i k => -x i k, by rw [if_pos h1, if_pos h2], fun i k hk => ?_⟩
        have : mx k = true := by
          rw [List.all_eq_true] at h2
          simpa using h2 _ (hmem k hk)
        simp [this]
      · have hl : maximise.length = nobj := by
          rcases hm.1 with h | h
          · obtain ⟨a, rfl⟩ := List.length_eq_one_iff.1 h
            cases a <;> simp at h1 h2
          · exact h
        refine ⟨npNegateColumns x maximise, by rw [if_pos h1, if_neg h2, if_neg (by simpa using hl)], fun i k hk => ?_⟩
        have hk' := hm.2 k hk
        rw [if_neg (by omega)] at hk'
        simp [npNegateColumns, List.getD_eq_getElem?_getD, hk']
    · refine ⟨x, by rw [if_neg h1], fun i k hk => ?_⟩
      have : mx k = false := by
        by_contra hc
        exact h1 (List.any_eq_true.2 ⟨mx k, hmem k hk, by simpa using hc⟩)
      simp [this]
  obtain ⟨y, e, hy⟩ := ht
  obtain ⟨ranks, e', h⟩ := callParetoRank_spec hlib x y nobj n (fun _ => by omega) mx hy
  exact ⟨ranks, by simp only [rParetoRank, ha, e, e'], h⟩

/-- **C74, R, errors.** Matrices without rows or with fewer than two columns are rejected by all functions.  `pareto_rank` also rejects directions of another length, unless all are
equal; the other functions repeat or cut them. -/
theorem C74_r_error (data : ArrArg K) (toRange : List K) (lower upper : List (Option K)) (maximise : List Bool) (keep : Bool) :
    ((¬ ∃ n nobj x, data = .mat n nobj x ∧ 1 ≤ n ∧ 2 ≤ nobj) → rIsNondominated lib data maximise keep = .error ∧ rFilterDominated lib data maximise keep = .error ∧
      rParetoRank lib data maximise = .error ∧ rNormalise data toRange lower upper maximise = .error) ∧
    (∀ n nobj x, data = .mat n nobj x → maximise.length ≠ nobj → true ∈ maximise → false ∈ maximise → rParetoRank lib data maximise = .error) ∧
    (toRange.length ≠ 2 → rNormalise data toRange lower upper maximise = .error) := by
  refine ⟨fun h => ?_, ?_, ?_⟩
  · have ha : asDoubleMatrix data = none := by
      cases data with
      | vec l => rfl
      | mat n nobj x =>
        simp only [asDoubleMatrix]
        by_cases h1 : n < 1
        · rw [if_pos h1]
        · by_cases h2 : nobj < 2
          · rw [if_neg h1, if_pos h2]
          · exact absurd ⟨n, nobj, x, rfl, by omega, by omega⟩ h
    simp only [rIsNondominated, rFilterDominated, rParetoRank, rNormalise, ha, and_self]
  · rintro n nobj x rfl hl ht hf
    unfold rParetoRank
    cases ha : asDoubleMatrix (.mat n nobj x) with
    | none => rfl
    | some q =>
      obtain ⟨n', nobj', x'⟩ := q
      have : nobj' = nobj ∧ x' = x := by
        simp only [asDoubleMatrix] at ha
        split_ifs at ha
        simp only [Option.some.injEq, Prod.mk.injEq] at ha
        exact ⟨ha.2.1.symm, ha.2.2.symm⟩
      obtain ⟨rfl, rfl⟩ := this
      have h1 : maximise.any id = true := List.any_eq_true.2 ⟨true, ht, rfl⟩
      have h2 : ¬ maximise.all id = true := fun h => by
        rw [List.all_eq_true] at h
        simpa using h _ hf
      simp only [transformMaximise, if_pos h1, if_neg h2, if_pos hl]
  · intro h
    unfold rNormalise
    cases asDoubleMatrix data with
    | none => rfl
    | some q => simp only [ne_eq, h, not_false_eq_true, if_true]

/-- **C74, R `normalise`.** -/
theorem C74_r_normalise (x : ℕ → ℕ → K) (n nobj : ℕ) (hd : 2 ≤ nobj) (hn : 1 ≤ n) (lo hi : K) (lower upper : List (Option K)) (l u : ℕ → Option K) (maximise : List Bool) (mx : ℕ → Bool)
    (hl : RecycledTo nobj lower l) (hu : RecycledTo nobj upper u) (hm : RecycledTo nobj maximise mx) (L U : ℕ → K) (hb : BoundsOk x n nobj l u L U) :
    ∃ y, rNormalise (.mat n nobj x) [lo, hi] lower upper maximise = .value y ∧ ∀ i < n, ∀ k < nobj, y i k = normValue (mx k) lo hi (L k) (U k) (x i k) := by
  have ha : asDoubleMatrix (.mat n nobj x) = some (n, nobj, x) := by
    simp only [asDoubleMatrix, if_neg (show ¬ n < 1 by omega), if_neg (show ¬ nobj < 2 by omega)]
  refine ⟨agreeNormalise x nobj n (fun k => maximise.getD (k % maximise.length) false) lo hi (fun k => (lower.getD (k % lower.length) none).getD (colMin x n k))
    (fun k => (upper.getD (k % upper.length) none).getD (colMax x n k)), ?_, fun i hi' k hk => ?_⟩
  · simp only [rNormalise, ha, List.length_cons, List.length_nil, Nat.zero_add, Nat.reduceAdd, ne_eq, not_true_eq_false, if_false,
      if_neg (recycledTo_length hm (by omega))]
    rfl
  exact agreeNormalise_value x n nobj hn mx _ lo hi l u (fun k => lower.getD (k % lower.length) none) (fun k => upper.getD (k % upper.length) none) L U hb
    (fun k hk => recycledTo_getD hm false hk) (fun k hk => recycledTo_getD hl none hk) (fun k hk => recycledTo_getD hu none hk) hi' hk

end

/-! ### Non-vacuity -/

/-- Bounds partly given: (3, 1) and (1, 2) with lower bound 0 for the first objective. -/
example : BoundsOk (fun i k => if i = 0 then (if k = 0 then 3 else 1) else (if k = 0 then 1 else 2) : ℕ → ℕ → ℚ) 2 2 (fun k => if k = 0 then some 0 else none) (fun _ => none)
    (fun k => if k = 0 then 0 else 1) (fun k => if k = 0 then 3 else 2) := by
  intro k hk
  rcases k with _ | _ | k
  · refine ⟨rfl, ⟨0, by norm_num, by simp⟩, ?_⟩
    rintro v ⟨i, hi, rfl⟩
    rcases i with _ | _ | i <;> norm_num
  · refine ⟨⟨⟨0, by norm_num, by simp⟩, ?_⟩, ⟨1, by norm_num, by simp⟩, ?_⟩
    · rintro v ⟨i, hi, rfl⟩
      rcases i with _ | _ | i <;> norm_num
    · rintro v ⟨i, hi, rfl⟩
      rcases i with _ | _ | i <;> norm_num
  · omega

/-- The masks of `(1,2), (2,1), (1,2), (2,2)`: both copies of (1,2), or one of them. -/
example : IsFilterMask true 2 4 (fun _ => false) (tab [[1, 2], [2, 1], [1, 2], [2, 2]]) [true, true, true, false] := by
  refine ⟨rfl, by decide, ?_⟩
  simp only [if_true]
  decide

example : PerObjective 2 [some (0 : ℚ), none] (fun k => if k = 0 then some 0 else none) ∧ RecycledTo 3 [true, false] (fun k => decide (k % 2 = 0)) := by
  refine ⟨⟨Or.inr rfl, fun k hk => ?_⟩, fun k hk => ?_⟩
  · rcases k with _ | _ | k
    · rfl
    · rfl
    · omega
  · rcases k with _ | _ | _ | k
    · rfl
    · rfl
    · rfl
    · omega

end Moo
