import Verif.Lemmas.WithinSets
import Verif.Props.Nondominated
import Mathlib.Algebra.Order.Ring.Int

/-!
# Property C40: functions applied set by set
-/

set_option autoImplicit false
set_option linter.unusedSectionVars false

namespace Moo

section
variable {L : Type*} [LinearOrder L] {R β : Type*} [Inhabited β]

/-- **C40 (general form)**: if `f` returns one value per row, the result has one value per row and, restricted to the rows of any set (in their order), it is what `f`
returns on the rows of that set alone. -/
theorem C40_within_sets (f : List R → List β) (hf : ∀ rows, (f rows).length = rows.length) (data : ℕ → R) (labels : List L) :
    (withinSets f data labels).length = labels.length ∧
      ∀ x ∈ labels, (rowsWith labels x).map (fun j => (withinSets f data labels).getD j default) = f ((rowsWith labels x).map data) := by
  have hperm := setGroups_flatten_perm labels
  have hlen : ((setGroups labels).map (fun g => f (g.map data))).flatten.length = labels.length := by
    rw [flatten_length _ _ (fun g _ => by rw [hf]; simp), hperm.length_eq, List.length_range]
  constructor
  · unfold withinSets
    dsimp only
    rw [List.length_map, (npArgsort_perm _).length_eq, List.length_range, hperm.length_eq, List.length_range]
  · intro x hx
    exact flatten_split _ (fun g => f (g.map data)) _ (fun g _ => by rw [hf]; simp) (unsort_spec hperm hlen) _ (rowsWith_mem_setGroups labels hx)

theorem awsLoop_same (f : List R → List β) (data : ℕ → R) (gs : List (List ℕ)) : ∀ (sh : Bool) (res : List β), (∀ g ∈ gs, (f (g.map data)).length = g.length) →
    awsLoop f data gs sh res = some (sh, res ++ (gs.map (fun g => f (g.map data))).flatten) := by
  induction gs with
  | nil => intro sh res _; simp [awsLoop]
  | cons g gs ih =>
    intro sh res h
    have hg := h g (by simp)
    rw [awsLoop]
    rw [if_neg (by simpa using hg), ih _ _ (fun g hg => h g (by simp [hg]))]
    simp

theorem awsLoop_one (f : List R → List β) (data : ℕ → R) (gs : List (List ℕ)) : ∀ (sh : Bool) (res : List β), (∀ g ∈ gs, (f (g.map data)).length = 1) →
    awsLoop f data gs sh res = some (sh || gs.any (fun g => g.length ≠ 1), res ++ (gs.map (fun g => f (g.map data))).flatten) := by
  induction gs with
  | nil => intro sh res _; simp [awsLoop]
  | cons g gs ih =>
    intro sh res h
    have hg := h g (by simp)
    rw [awsLoop]
    by_cases h1 : (f (g.map data)).length ≠ g.length
    · rw [if_pos h1, if_neg (by simpa using hg), ih _ _ (fun g hg => h g (by simp [hg]))]
      rw [hg] at h1
      have : g.length ≠ 1 := fun h => h1 h.symm
      simp [this]
    · rw [if_neg h1, ih _ _ (fun g hg => h g (by simp [hg]))]
      rw [hg] at h1
      push Not at h1
      simp [h1.symm]

/-- **C40 (`apply_within_sets`, one value per row)**: the general form; no error is raised. -/
theorem C40_apply_per_row (f : List R → List β) (hf : ∀ rows, (f rows).length = rows.length) (data : ℕ → R) (labels : List L) :
    ∃ r, applyWithinSets f data labels = some r ∧ r.length = labels.length ∧
      ∀ x ∈ labels, (rowsWith labels x).map (fun j => r.getD j default) = f ((rowsWith labels x).map data) := by
  obtain ⟨h1, h2⟩ := C40_within_sets f hf data labels
  refine ⟨withinSets f data labels, ?_, h1, h2⟩
  unfold applyWithinSets withinSets
  dsimp only
  rw [awsLoop_same _ _ _ _ _ (fun g _ => by rw [hf]; simp)]
  simp

/-- **C40 (`apply_within_sets`, one value per set)**: the results of the sets in the order in which their labels first appear; no error is raised. -/
theorem C40_apply_per_set (f : List R → β) (data : ℕ → R) (labels : List L) :
    applyWithinSets (fun rows => [f rows]) data labels =
      some ((firsts labels).map (fun j => f (((List.range labels.length).filter (fun i => decide (labels[i]? = labels[j]?))).map data))) := by
  have hfl : ∀ gs : List (List ℕ), (gs.map (fun g => [f (g.map data)])).flatten = gs.map (fun g => f (g.map data)) := by
    intro gs
    induction gs with
    | nil => rfl
    | cons g gs ih => rw [List.map_cons, List.flatten_cons, ih]; rfl
  unfold applyWithinSets
  dsimp only
  rw [awsLoop_one _ _ _ _ _ (by simp), hfl]
  simp only [Bool.false_or, List.nil_append]
  by_cases hsh : (setGroups labels).any (fun g => g.length ≠ 1) = true
  · rw [if_pos hsh, setGroups_eq, List.map_map]
    rfl
  · rw [if_neg hsh]
    -- all the sets have one row: the groups are the rows in order
    have hone : ∀ g ∈ setGroups labels, g.length = 1 := by
      intro g hg
      by_contra hne
      exact hsh (List.any_eq_true.2 ⟨g, hg, by simpa using hne⟩)
    have hperm := setGroups_flatten_perm labels
    have hflat : (setGroups labels).flatten = firsts labels := by
      have key : ∀ l : List ℕ, (∀ j ∈ l, ((List.range labels.length).filter (fun i => decide (labels[i]? = labels[j]?))) = [j]) →
          (l.map (fun j => (List.range labels.length).filter (fun i => decide (labels[i]? = labels[j]?)))).flatten = l := by
        intro l
        induction l with
        | nil => intro _; rfl
        | cons j l ih =>
          intro h
          rw [List.map_cons, List.flatten_cons, h j (by simp), ih (fun j hj => h j (by simp [hj]))]
          rfl
      rw [setGroups_eq]
      apply key
      intro j hj
      have h1 := hone _ (by rw [setGroups_eq]; exact List.mem_map.2 ⟨j, hj, rfl⟩)
      obtain ⟨a, ha⟩ := List.length_eq_one_iff.1 h1
      have hjm : j ∈ (List.range labels.length).filter (fun i => decide (labels[i]? = labels[j]?)) := by
        simp only [List.mem_filter, decide_true, and_true]
        unfold firsts at hj
        exact (List.mem_filter.1 hj).1
      rw [ha] at hjm ⊢
      rw [List.mem_singleton] at hjm
      rw [hjm]
    have hr : firsts labels = List.range labels.length := by
      rw [hflat] at hperm
      exact List.Perm.eq_of_pairwise (fun _ _ _ _ h1 h2 => le_antisymm h1 h2) (range_filter_sorted _ _) (List.pairwise_lt_range.imp le_of_lt) hperm
    have hlen : ((setGroups labels).map (fun g => f (g.map data))).length = labels.length := by
      rw [List.length_map, setGroups_eq, List.length_map, hr, List.length_range]
    have hu := unsort_spec hperm hlen
    have hul : ((npArgsort (setGroups labels).flatten).map (fun i => ((setGroups labels).map (fun g => f (g.map data))).getD i default)).length = labels.length := by
      rw [List.length_map, (npArgsort_perm _).length_eq, List.length_range, hperm.length_eq, List.length_range]
    have e : (npArgsort (setGroups labels).flatten).map (fun i => ((setGroups labels).map (fun g => f (g.map data))).getD i default) =
        (setGroups labels).map (fun g => f (g.map data)) := by
      refine Eq.trans ?_ hu
      have : (setGroups labels).flatten = List.range labels.length := hflat.trans hr
      have e2 := map_getD_range ((npArgsort (setGroups labels).flatten).map (fun i => ((setGroups labels).map (fun g => f (g.map data))).getD i default)) default
      rw [hul] at e2
      rw [← this] at e2
      exact e2.symm
    rw [e, setGroups_eq, List.map_map]
    rfl

end

section
variable {α : Type*} [LinearOrder α] [Neg α] [Inhabited α] {L : Type*} [LinearOrder L]

theorem isNondominatedList_length (sortFn : (ℕ → ℕ → α) → ℕ → List ℕ) (garbage : ℕ → Bool) (nobj : ℕ) (mx : ℕ → Bool) (keep : Bool) (rows : List (ℕ → α)) :
    (isNondominatedList sortFn garbage nobj mx keep rows).length = rows.length := by
  unfold isNondominatedList
  cases isNondominated sortFn garbage (fun i => rows.getD i (fun _ => default)) nobj rows.length mx keep <;> simp

/-- The flags within one set, read off by row number. -/
theorem withinSets_row (sortFn : (ℕ → ℕ → α) → ℕ → List ℕ) (garbage : ℕ → Bool) (nobj : ℕ) (mx : ℕ → Bool) (keep : Bool) (data : ℕ → ℕ → α) (labels : List L)
    {x : L} (hx : x ∈ labels) {nd : ℕ → Bool}
    (hnd : isNondominated sortFn garbage (fun i => ((rowsWith labels x).map data).getD i (fun _ => default)) nobj (rowsWith labels x).length mx keep = some nd) :
    ∀ q (hq : q < (rowsWith labels x).length),
      (withinSets (isNondominatedList sortFn garbage nobj mx keep) data labels).getD (rowsWith labels x)[q] default = nd q := by
  have h := (C40_within_sets _ (isNondominatedList_length sortFn garbage nobj mx keep) data labels).2 x hx
  have he : isNondominatedList sortFn garbage nobj mx keep ((rowsWith labels x).map data) = (List.range (rowsWith labels x).length).map nd := by
    unfold isNondominatedList
    rw [List.length_map, hnd]
  rw [he] at h
  intro q hq
  have h2 := congrArg (fun l => l[q]?) h
  rw [List.getElem?_map, List.getElem?_map, List.getElem?_eq_getElem hq, List.getElem?_eq_getElem (by simpa using hq)] at h2
  simpa using h2

theorem rowsWith_mem (labels : List L) (x : L) (j : ℕ) : j ∈ rowsWith labels x ↔ labels[j]? = some x := by
  unfold rowsWith
  simp only [List.mem_filter, List.mem_range, decide_eq_true_eq]
  constructor
  · exact fun h => h.2
  · intro h
    refine ⟨?_, h⟩
    by_contra hn
    rw [List.getElem?_eq_none (by omega)] at h
    cases h

/-- **C40 (`keep_weakly=True`)**: a row is flagged if and only if no row *of the same set* dominates it, whatever the order and the interleaving of the labels. -/
theorem C40_is_nondominated_keep (sortFn : (ℕ → ℕ → α) → ℕ → List ℕ) (garbage : ℕ → Bool) {nobj : ℕ} (h2 : 2 ≤ nobj) (mx : ℕ → Bool)
    (data : ℕ → ℕ → α) (labels : List L) (hneg : ∀ a b : α, -a ≤ -b ↔ b ≤ a) (hsort : ∀ pp n, SortedPP2d pp n (sortFn pp n)) :
    ∃ r, isNondominatedWithinSets sortFn garbage nobj mx true data labels = some r ∧ r.length = labels.length ∧
      ∀ j < labels.length, r.getD j false = true ↔ ∀ i < labels.length, labels[i]? = labels[j]? → ¬ Dom nobj mx (data i) (data j) := by
  refine ⟨withinSets (isNondominatedList sortFn garbage nobj mx true) data labels, by unfold isNondominatedWithinSets; rw [if_neg (by omega)],
    (C40_within_sets _ (isNondominatedList_length sortFn garbage nobj mx true) data labels).1, ?_⟩
  intro j hj
  set x := labels[j] with hxdef
  have hx : x ∈ labels := List.getElem_mem hj
  have hjx : labels[j]? = some x := List.getElem?_eq_getElem hj
  obtain ⟨nd, e, hnd⟩ := C01_isNondominated_keep_exact sortFn garbage (fun i => ((rowsWith labels x).map data).getD i (fun _ => default)) nobj (rowsWith labels x).length mx hneg
    (fun pp => hsort pp _)
  obtain ⟨q, hq, hqj⟩ := List.getElem_of_mem ((rowsWith_mem labels x j).2 hjx)
  have := withinSets_row sortFn garbage nobj mx true data labels hx e q hq
  rw [hqj] at this
  have hrow : ∀ p (hp : p < (rowsWith labels x).length), ((rowsWith labels x).map data).getD p (fun _ => default) = data (rowsWith labels x)[p] := by
    intro p hp
    rw [List.getD_eq_getElem _ _ (by simpa using hp), List.getElem_map]
  have hd : (withinSets (isNondominatedList sortFn garbage nobj mx true) data labels).getD j false = nd q := this
  rw [hd, hnd q hq]
  unfold Nondominated
  constructor
  · intro h i hi hl hdom
    rw [hjx] at hl
    obtain ⟨p, hp, hpi⟩ := List.getElem_of_mem ((rowsWith_mem labels x i).2 hl)
    refine h p hp ?_
    dsimp only
    rw [hrow p hp, hrow q hq, hpi, hqj]
    exact hdom
  · intro h p hp hdom
    dsimp only at hdom
    rw [hrow p hp, hrow q hq, hqj] at hdom
    have hm := (rowsWith_mem labels x _).1 (List.getElem_mem hp)
    refine h _ ?_ (by rw [hm, hjx]) hdom
    by_contra hn
    rw [List.getElem?_eq_none (by omega)] at hm
    cases hm

/-- **C40 (`keep_weakly=False`)**: flagged rows are nondominated in their set, and for every row nondominated in its set exactly one row of the set with the same
vector is flagged. -/
theorem C40_is_nondominated_delete (sortFn : (ℕ → ℕ → α) → ℕ → List ℕ) (garbage : ℕ → Bool) {nobj : ℕ} (h2 : 2 ≤ nobj) (mx : ℕ → Bool)
    (data : ℕ → ℕ → α) (labels : List L) (hneg : ∀ a b : α, -a ≤ -b ↔ b ≤ a) (hsort : ∀ pp n, SortedPP2d pp n (sortFn pp n)) :
    ∃ r, isNondominatedWithinSets sortFn garbage nobj mx false data labels = some r ∧ r.length = labels.length ∧
      (∀ j < labels.length, r.getD j false = true → ∀ i < labels.length, labels[i]? = labels[j]? → ¬ Dom nobj mx (data i) (data j)) ∧
      (∀ j < labels.length, (∀ i < labels.length, labels[i]? = labels[j]? → ¬ Dom nobj mx (data i) (data j)) →
        ∃ k, (k < labels.length ∧ labels[k]? = labels[j]? ∧ r.getD k false = true ∧ SameVec nobj (data k) (data j)) ∧
          ∀ k', k' < labels.length ∧ labels[k']? = labels[j]? ∧ r.getD k' false = true ∧ SameVec nobj (data k') (data j) → k' = k) := by
  refine ⟨withinSets (isNondominatedList sortFn garbage nobj mx false) data labels, by unfold isNondominatedWithinSets; rw [if_neg (by omega)],
    (C40_within_sets _ (isNondominatedList_length sortFn garbage nobj mx false) data labels).1, ?_⟩
  have hlt : ∀ {i : ℕ} {x : L}, labels[i]? = some x → i < labels.length := by
    intro i x h
    by_contra hn
    rw [List.getElem?_eq_none (by omega)] at h
    cases h
  have key : ∀ j (hj : j < labels.length), ∃ (g : List ℕ) (nd : ℕ → Bool), g.Nodup ∧ (∀ i, i ∈ g ↔ labels[i]? = labels[j]?) ∧
      (∀ q (hq : q < g.length), (withinSets (isNondominatedList sortFn garbage nobj mx false) data labels).getD g[q] false = nd q) ∧
      (∀ q (hq : q < g.length), nd q = true → ∀ p (hp : p < g.length), ¬ Dom nobj mx (data g[p]) (data g[q])) ∧
      (∀ q (hq : q < g.length), (∀ p (hp : p < g.length), ¬ Dom nobj mx (data g[p]) (data g[q])) →
        ∃ k, ∃ hk : k < g.length, nd k = true ∧ SameVec nobj (data g[k]) (data g[q]) ∧
          ∀ k' (hk' : k' < g.length), nd k' = true → SameVec nobj (data g[k']) (data g[q]) → k' = k) := by
    intro j hj
    have hx : labels[j] ∈ labels := List.getElem_mem hj
    have hjx : labels[j]? = some labels[j] := List.getElem?_eq_getElem hj
    obtain ⟨nd, e, h1, h2, _⟩ := C02_isNondominated_delete_exact sortFn garbage (fun i => ((rowsWith labels labels[j]).map data).getD i (fun _ => default)) nobj
      (rowsWith labels labels[j]).length mx hneg (fun pp => hsort pp _)
    have hrow : ∀ p (hp : p < (rowsWith labels labels[j]).length), ((rowsWith labels labels[j]).map data).getD p (fun _ => default) = data (rowsWith labels labels[j])[p] := by
      intro p hp
      rw [List.getD_eq_getElem _ _ (by simpa using hp), List.getElem_map]
    refine ⟨rowsWith labels labels[j], nd, List.nodup_range.filter _, fun i => by rw [rowsWith_mem, hjx], withinSets_row sortFn garbage nobj mx false data labels hx e, ?_, ?_⟩
    · intro q hq hf p hp
      have := h1 q hq hf p hp
      beta_reduce at this
      rwa [hrow p hp, hrow q hq] at this
    · intro q hq hn
      obtain ⟨k, ⟨hk, hf, hs⟩, hu⟩ := h2 q hq (by
        intro p hp
        dsimp only
        rw [hrow p hp, hrow q hq]
        exact hn p hp)
      rw [hrow k hk, hrow q hq] at hs
      refine ⟨k, hk, hf, hs, ?_⟩
      intro k' hk' hf' hs'
      exact hu k' ⟨hk', hf', by rw [hrow k' hk', hrow q hq]; exact hs'⟩
  constructor
  · intro j hj hf i hi hl hdom
    obtain ⟨g, nd, _, hg, h1, h2, _⟩ := key j hj
    obtain ⟨q, hq, hqj⟩ := List.getElem_of_mem ((hg j).2 rfl)
    obtain ⟨p, hp, hpi⟩ := List.getElem_of_mem ((hg i).2 hl)
    have e := h1 q hq
    rw [hqj, hf] at e
    refine h2 q hq e.symm p hp ?_
    rw [hpi, hqj]; exact hdom
  · intro j hj hn
    obtain ⟨g, nd, _, hg, h1, _, h3⟩ := key j hj
    obtain ⟨q, hq, hqj⟩ := List.getElem_of_mem ((hg j).2 rfl)
    obtain ⟨k, hk, hf, hs, hu⟩ := h3 q hq (by
      intro p hp
      have hm := (hg _).1 (List.getElem_mem hp)
      rw [hqj]
      exact hn _ (hlt (hm.trans (List.getElem?_eq_getElem hj))) hm)
    have hkm := (hg _).1 (List.getElem_mem hk)
    rw [hqj] at hs hu
    refine ⟨g[k], ⟨hlt (hkm.trans (List.getElem?_eq_getElem hj)), hkm, by rw [h1 k hk, hf], hs⟩, ?_⟩
    rintro k' ⟨hk', hl', hf', hs'⟩
    obtain ⟨m, hm, hmk⟩ := List.getElem_of_mem ((hg k').2 hl')
    have e := h1 m hm
    rw [hmk, hf'] at e
    have := hu m hm e.symm (by rw [hmk]; exact hs')
    subst this
    exact hmk.symm

/-- **C40 (`filter_dominated_within_sets`)**: exactly the rows flagged by `is_nondominated_within_sets`, in their original order. -/
theorem C40_filter (sortFn : (ℕ → ℕ → α) → ℕ → List ℕ) (garbage : ℕ → Bool) {nobj : ℕ} (h2 : 2 ≤ nobj) (mx : ℕ → Bool) (data : ℕ → ℕ → α) (labels : List L)
    (hneg : ∀ a b : α, -a ≤ -b ↔ b ≤ a) (hsort : ∀ pp n, SortedPP2d pp n (sortFn pp n)) :
    ∃ l, filterDominatedWithinSets sortFn garbage nobj mx true data labels = some l ∧ l.Pairwise (· < ·) ∧
      ∀ j, j ∈ l ↔ j < labels.length ∧ ∀ i < labels.length, labels[i]? = labels[j]? → ¬ Dom nobj mx (data i) (data j) := by
  obtain ⟨r, h1, _, h3⟩ := C40_is_nondominated_keep sortFn garbage h2 mx data labels hneg hsort
  refine ⟨(List.range labels.length).filter (fun j => r.getD j false), by unfold filterDominatedWithinSets; rw [h1], List.Pairwise.filter _ List.pairwise_lt_range, ?_⟩
  intro j
  rw [List.mem_filter, List.mem_range]
  constructor
  · rintro ⟨hj, h⟩; exact ⟨hj, (h3 j hj).1 h⟩
  · rintro ⟨hj, h⟩; exact ⟨hj, (h3 j hj).2 h⟩

/-- Non-vacuity: interleaved labels `3 1 3 1`; row 2 is dominated in its set by row 0, while row 3 is dominated only by rows of the other set. -/
example : isNondominatedWithinSets (fun _ _ => []) (fun _ => false) 3 (fun _ => false) true
    (fun i d => [[1, 1, 1], [9, 9, 0], [2, 2, 2], [3, 3, -1]].getD i [] |>.getD d (0 : ℤ)) [3, 1, 3, (1 : ℤ)] = some [true, false, false, true] := by decide +kernel

end

end Moo
