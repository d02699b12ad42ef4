import Verif.Spec.RDatasets
import Verif.Model.RDatasets
import Verif.Lemmas.EafLabels
import Verif.Props.IoWrite

/-!
# C77, C78: `rbind_datasets`, and what R writes is what R reads
-/

set_option autoImplicit false
set_option linter.unusedSectionVars false

namespace Moo

/-! ## C77 -/

section rbind
variable {K : Type*} [Field K] [LinearOrder K] [IsStrictOrderedRing K]

theorem rFoldl_min_le (l : List K) : ∀ a : K, l.foldl min a ≤ a ∧ (∀ b ∈ l, l.foldl min a ≤ b) ∧ (l.foldl min a = a ∨ l.foldl min a ∈ l) := by
  induction l with
  | nil => intro a; simp
  | cons c l ih =>
    intro a
    obtain ⟨h1, h2, h3⟩ := ih (min a c)
    rw [List.foldl_cons]
    refine ⟨h1.trans (min_le_left _ _), ?_, ?_⟩
    · intro b hb
      rcases List.mem_cons.1 hb with rfl | hb
      · exact h1.trans (min_le_right _ _)
      · exact h2 b hb
    · rcases h3 with h3 | h3
      · rw [h3]
        rcases min_choice a c with h | h <;> rw [h] <;> simp
      · exact Or.inr (by simp [h3])

theorem rMinIsOne_iff (v : List K) : rMinIsOne v = true ↔ (∀ a ∈ v, 1 ≤ a) ∧ (1 : K) ∈ v := by
  cases v with
  | nil => simp [rMinIsOne]
  | cons a l =>
    obtain ⟨h1, h2, h3⟩ := rFoldl_min_le l a
    simp only [rMinIsOne, decide_eq_true_eq]
    constructor
    · intro h
      rw [h] at h1 h2 h3
      refine ⟨by simpa using ⟨h1, h2⟩, ?_⟩
      rcases h3 with h3 | h3
      · rw [← h3]; simp
      · simp [h3]
    · rintro ⟨g1, g2⟩
      apply le_antisymm
      · rcases List.mem_cons.1 g2 with g2 | g2
        · rw [g2]; exact h1
        · exact h2 _ g2
      · rcases h3 with h3 | h3
        · rw [h3]; exact g1 a (by simp)
        · exact g1 _ (by simp [h3])

theorem le_foldl_max (l : List K) : ∀ a : K, a ≤ l.foldl max a ∧ ∀ b ∈ l, b ≤ l.foldl max a := by
  induction l with
  | nil => intro a; simp
  | cons c l ih =>
    intro a
    obtain ⟨h1, h2⟩ := ih (max a c)
    rw [List.foldl_cons]
    refine ⟨(le_max_left _ _).trans h1, ?_⟩
    intro b hb
    rcases List.mem_cons.1 hb with rfl | hb
    · exact (le_max_right _ _).trans h1
    · exact h2 b hb

theorem le_rMax {v : List K} {a : K} (h : a ∈ v) : a ≤ rMax v := by
  cases v with
  | nil => simp at h
  | cons b l =>
    rcases List.mem_cons.1 h with rfl | h
    · exact (le_foldl_max l _).1
    · exact (le_foldl_max l _).2 a h

/-- **C77 (accepted)**: `rbind_datasets(x, y)` succeeds exactly if both have the same number of columns, at least three, and the smallest set number of either is 1. -/
theorem C77_accepted (xcols ycols : ℕ) (x y : List (List K)) : (∃ out, rbindDatasets xcols x ycols y = some out) ↔
    3 ≤ xcols ∧ xcols = ycols ∧ ((∀ a ∈ rowLabels (xcols - 1) x, 1 ≤ a) ∧ (1 : K) ∈ rowLabels (xcols - 1) x) ∧
      (∀ a ∈ rowLabels (xcols - 1) y, 1 ≤ a) ∧ (1 : K) ∈ rowLabels (xcols - 1) y := by
  have hx := rMinIsOne_iff (rColumn (xcols - 1) x)
  have hy := rMinIsOne_iff (rColumn (xcols - 1) y)
  change _ ↔ (∀ a ∈ rowLabels (xcols - 1) x, 1 ≤ a) ∧ (1 : K) ∈ rowLabels (xcols - 1) x at hx
  change _ ↔ (∀ a ∈ rowLabels (xcols - 1) y, 1 ≤ a) ∧ (1 : K) ∈ rowLabels (xcols - 1) y at hy
  rw [← hx, ← hy]
  simp only [rbindDatasets]
  by_cases h1 : xcols > 2
  · by_cases h2 : xcols = ycols
    · by_cases h3 : rMinIsOne (rColumn (xcols - 1) x) = true
      · by_cases h4 : rMinIsOne (rColumn (xcols - 1) y) = true
        · rw [if_neg (not_not.2 h1), if_neg (not_not.2 h2), if_neg (not_not.2 h3), if_neg (not_not.2 h4)]
          exact ⟨fun _ => ⟨by omega, h2, h3, h4⟩, fun _ => ⟨_, rfl⟩⟩
        · rw [if_neg (not_not.2 h1), if_neg (not_not.2 h2), if_neg (not_not.2 h3), if_pos h4]
          exact ⟨fun ⟨_, h⟩ => (Option.some_ne_none _ h.symm).elim, fun h => absurd h.2.2.2 h4⟩
      · rw [if_neg (not_not.2 h1), if_neg (not_not.2 h2), if_pos h3]
        exact ⟨fun ⟨_, h⟩ => (Option.some_ne_none _ h.symm).elim, fun h => absurd h.2.2.1 h3⟩
    · rw [if_neg (not_not.2 h1), if_pos h2]
      exact ⟨fun ⟨_, h⟩ => (Option.some_ne_none _ h.symm).elim, fun h => absurd h.2.1 h2⟩
  · rw [if_pos h1]
    exact ⟨fun ⟨_, h⟩ => (Option.some_ne_none _ h.symm).elim, fun h => absurd h.1 (by omega)⟩

/-- The labels of the table. -/
theorem rbind_labels {nobj : ℕ} {x y : List (List K)} (hy : ∀ r ∈ y, r.length = nobj + 1) (m : K) :
    rowLabels nobj (x ++ y.map (fun row => row.set nobj (row.getD nobj 0 + m))) = rowLabels nobj x ++ (rowLabels nobj y).map (fun a => a + m) := by
  unfold rowLabels
  rw [List.map_append, List.map_map, List.map_map]
  congr 1
  apply List.map_congr_left
  intro r hr
  have := hy r hr
  simp [List.getElem?_set_self (show nobj < r.length by omega), List.getD_eq_getElem?_getD]

theorem rbind_point {nobj : ℕ} {x y : List (List K)} (m : K) :
    (∀ i < x.length, rowPoint (x ++ y.map (fun row => row.set nobj (row.getD nobj 0 + m))) i = rowPoint x i) ∧
    ∀ i, ∀ d < nobj, rowPoint (x ++ y.map (fun row => row.set nobj (row.getD nobj 0 + m))) (x.length + i) d = rowPoint y i d := by
  constructor
  · intro i hi
    funext d
    unfold rowPoint
    rw [List.getD_append _ _ _ _ hi]
  · intro i d hd
    unfold rowPoint
    rw [List.getD_append_right _ _ _ _ (by omega), Nat.add_sub_cancel_left]
    simp only [List.getD_eq_getElem?_getD, List.getElem?_map]
    cases y[i]? with
    | none => simp
    | some r => simp [List.getElem?_set_ne (show nobj ≠ d by omega)]

/-- **C77**: `rbind_datasets(x, y)` has the rows of `x` unchanged, followed by the points of `y`; two rows are in the same set exactly if both are of `x` or both of `y` and they were in the same set
there.  So no two sets are merged and none is split: the number of sets is the sum, every vector is attained by as many sets as it is of `x` and of `y` together, and the
best points attained by `k` sets are those of the two data sets together. -/
theorem C77_rbind {nobj ycols : ℕ} {x y out : List (List K)} (hx : ∀ r ∈ x, r.length = nobj + 1) (hy : ∀ r ∈ y, r.length = nobj + 1)
    (h : rbindDatasets (nobj + 1) x ycols y = some out) :
    (∀ r ∈ out, r.length = nobj + 1) ∧ out.length = x.length + y.length ∧ (∀ i (hi : i < x.length), out[i]? = some x[i]) ∧
    (∀ i (hi : i < y.length), (out[x.length + i]?).map (fun r => r.take nobj) = some (y[i].take nobj)) ∧
    (∀ i j, i < out.length → j < out.length → ((rowLabels nobj out)[i]? = (rowLabels nobj out)[j]? ↔
      (i < x.length ∧ j < x.length ∧ (rowLabels nobj x)[i]? = (rowLabels nobj x)[j]?) ∨
      (x.length ≤ i ∧ x.length ≤ j ∧ (rowLabels nobj y)[i - x.length]? = (rowLabels nobj y)[j - x.length]?))) ∧
    (rowLabels nobj out).toFinset.card = (rowLabels nobj x).toFinset.card + (rowLabels nobj y).toFinset.card ∧
    (∀ maximise z, labelCount maximise (rowPoint out) (rowLabels nobj out) nobj z =
      pairCount maximise (rowPoint x) (rowLabels nobj x) (rowPoint y) (rowLabels nobj y) nobj z) ∧
    ∀ maximise k z, BestForLabels maximise (rowPoint out) (rowLabels nobj out) nobj k z ↔
      BestForPair maximise (rowPoint x) (rowLabels nobj x) (rowPoint y) (rowLabels nobj y) nobj k z := by
  have hacc := (C77_accepted (nobj + 1) ycols x y).1 ⟨out, h⟩
  obtain ⟨-, -, ⟨-, -⟩, hy1, -⟩ := hacc
  rw [Nat.add_sub_cancel] at hy1
  set m := rMax (rColumn nobj x) with hm
  have hout : out = x ++ y.map (fun row => row.set nobj (row.getD nobj 0 + m)) := by
    simp only [rbindDatasets] at h
    split_ifs at h
    rw [Option.some.injEq] at h
    rw [← h]; rfl
  have hlx : ∀ a ∈ rowLabels nobj x, a ≤ m := fun a ha => le_rMax ha
  have hly : ∀ a ∈ rowLabels nobj y, m < a + m := fun a ha => by have := hy1 a ha; linarith
  have hlab := rbind_labels (x := x) hy m
  have hpt := rbind_point (nobj := nobj) (x := x) (y := y) m
  rw [← hout] at hlab hpt
  have hlenx : (rowLabels nobj x).length = x.length := by simp [rowLabels]
  have hleny : (rowLabels nobj y).length = y.length := by simp [rowLabels]
  have hlen : out.length = x.length + y.length := by rw [hout]; simp
  have hget1 : ∀ i, i < x.length → (rowLabels nobj out)[i]? = (rowLabels nobj x)[i]? := by
    intro i hi
    rw [hlab, List.getElem?_append_left (by omega)]
  have hget2 : ∀ i, x.length ≤ i → (rowLabels nobj out)[i]? = ((rowLabels nobj y)[i - x.length]?).map (fun a => a + m) := by
    intro i hi
    rw [hlab, List.getElem?_append_right (by omega), hlenx, List.getElem?_map]
  have hcard : ∀ (P Q R : K → Prop) [DecidablePred P] [DecidablePred Q] [DecidablePred R], (∀ a ∈ rowLabels nobj x, P a ↔ Q a) → (∀ a ∈ rowLabels nobj y, P (a + m) ↔ R a) →
      ((rowLabels nobj out).toFinset.filter P).card = ((rowLabels nobj x).toFinset.filter Q).card + ((rowLabels nobj y).toFinset.filter R).card := by
    intro P Q R _ _ _ hP hR
    have e2 : (((rowLabels nobj y).toFinset.filter R).map ⟨fun a => a + m, add_left_injective m⟩).card = ((rowLabels nobj y).toFinset.filter R).card := Finset.card_map _
    rw [← e2, ← Finset.card_union_of_disjoint]
    · congr 1
      ext a
      rw [Finset.mem_filter, Finset.mem_union, Finset.mem_filter, Finset.mem_map, List.mem_toFinset, List.mem_toFinset, hlab, List.mem_append, List.mem_map]
      constructor
      · rintro ⟨h1 | ⟨b, hb, rfl⟩, h2⟩
        · exact Or.inl ⟨h1, (hP a h1).1 h2⟩
        · exact Or.inr ⟨b, Finset.mem_filter.2 ⟨List.mem_toFinset.2 hb, (hR b hb).1 h2⟩, rfl⟩
      · rintro (⟨h1, h2⟩ | ⟨b, hb, rfl⟩)
        · exact ⟨Or.inl h1, (hP a h1).2 h2⟩
        · rw [Finset.mem_filter, List.mem_toFinset] at hb
          exact ⟨Or.inr ⟨b, hb.1, rfl⟩, (hR b hb.1).2 hb.2⟩
    · rw [Finset.disjoint_left]
      intro a ha hb
      rw [Finset.mem_filter, List.mem_toFinset] at ha
      obtain ⟨b, hb', rfl⟩ := Finset.mem_map.1 hb
      clear hb
      have hb := hb'
      rw [Finset.mem_filter, List.mem_toFinset] at hb
      have := hlx _ ha.1
      have := hly _ hb.1
      simp only [Function.Embedding.coeFn_mk] at *
      linarith
  have hcount : ∀ maximise z, labelCount maximise (rowPoint out) (rowLabels nobj out) nobj z =
      pairCount maximise (rowPoint x) (rowLabels nobj x) (rowPoint y) (rowLabels nobj y) nobj z := by
    intro maximise z
    unfold labelCount pairCount labelCount
    refine @hcard _ _ _ (_) (_) (_) ?_ ?_
    · intro a ha
      constructor
      · rintro ⟨k, hk, hd⟩
        rcases Nat.lt_or_ge k x.length with hkx | hkx
        · refine ⟨k, by rw [← hget1 k hkx]; exact hk, fun d h => ?_⟩
          rw [← hpt.1 k hkx]; exact hd d h
        · rw [hget2 k hkx, Option.map_eq_some_iff] at hk
          obtain ⟨b, hb, rfl⟩ := hk
          have := hlx _ ha
          have := hly b (List.mem_of_getElem? hb)
          linarith
      · rintro ⟨k, hk, hd⟩
        have hkx : k < x.length := by
          have := (List.getElem?_eq_some_iff.1 hk).1
          omega
        refine ⟨k, by rw [hget1 k hkx]; exact hk, fun d h => ?_⟩
        rw [hpt.1 k hkx]; exact hd d h
    · intro a ha
      constructor
      · rintro ⟨k, hk, hd⟩
        rcases Nat.lt_or_ge k x.length with hkx | hkx
        · rw [hget1 k hkx] at hk
          have := hlx _ (List.mem_of_getElem? hk)
          have := hly a ha
          linarith
        · rw [hget2 k hkx, Option.map_eq_some_iff] at hk
          obtain ⟨b, hb, hba⟩ := hk
          obtain rfl := add_right_cancel hba
          refine ⟨k - x.length, hb, fun d h => ?_⟩
          rw [← hpt.2 _ d h, show x.length + (k - x.length) = k by omega]; exact hd d h
      · rintro ⟨k, hk, hd⟩
        refine ⟨x.length + k, by rw [hget2 _ (by omega), Nat.add_sub_cancel_left, hk]; rfl, fun d h => ?_⟩
        rw [hpt.2 k d h]; exact hd d h
  refine ⟨?_, hlen, ?_, ?_, ?_, ?_, hcount, ?_⟩
  · intro r hr
    rw [hout, List.mem_append, List.mem_map] at hr
    rcases hr with hr | ⟨r', hr, rfl⟩
    · exact hx r hr
    · rw [List.length_set]; exact hy r' hr
  · intro i hi
    rw [hout, List.getElem?_append_left hi, List.getElem?_eq_getElem hi]
  · intro i hi
    rw [hout, List.getElem?_append_right (by omega), Nat.add_sub_cancel_left, List.getElem?_map, List.getElem?_eq_getElem hi]
    simp [List.take_set_of_le]
  · intro i j hi hj
    have hsome : ∀ i, x.length ≤ i → i < out.length → ∃ b ∈ rowLabels nobj y, (rowLabels nobj y)[i - x.length]? = some b := by
      intro i h1 h2
      have h3 : i - x.length < (rowLabels nobj y).length := by omega
      exact ⟨_, List.getElem_mem h3, List.getElem?_eq_getElem h3⟩
    have hsomex : ∀ i, i < x.length → ∃ b ∈ rowLabels nobj x, (rowLabels nobj x)[i]? = some b := by
      intro i h1
      have h3 : i < (rowLabels nobj x).length := by omega
      exact ⟨_, List.getElem_mem h3, List.getElem?_eq_getElem h3⟩
    rcases Nat.lt_or_ge i x.length with hix | hix <;> rcases Nat.lt_or_ge j x.length with hjx | hjx
    · rw [hget1 i hix, hget1 j hjx]
      constructor
      · exact fun h => Or.inl ⟨hix, hjx, h⟩
      · rintro (h | h)
        · exact h.2.2
        · omega
    · rw [hget1 i hix, hget2 j hjx]
      obtain ⟨a, ha, ea⟩ := hsomex i hix
      obtain ⟨b, hb, eb⟩ := hsome j hjx hj
      rw [ea, eb]
      simp only [Option.map_some, Option.some.injEq]
      constructor
      · intro h; have := hlx a ha; have := hly b hb; linarith
      · rintro (h | h) <;> omega
    · rw [hget2 i hix, hget1 j hjx]
      obtain ⟨a, ha, ea⟩ := hsomex j hjx
      obtain ⟨b, hb, eb⟩ := hsome i hix hi
      rw [ea, eb]
      simp only [Option.map_some, Option.some.injEq]
      constructor
      · intro h; have := hlx a ha; have := hly b hb; linarith
      · rintro (h | h) <;> omega
    · rw [hget2 i hix, hget2 j hjx]
      obtain ⟨a, ha, ea⟩ := hsome i hix hi
      obtain ⟨b, hb, eb⟩ := hsome j hjx hj
      rw [ea, eb]
      simp only [Option.map_some, Option.some.injEq, add_left_inj]
      constructor
      · exact fun h => Or.inr ⟨hix, hjx, h⟩
      · rintro (h | h)
        · omega
        · exact h.2.2
  · have := hcard (fun _ => True) (fun _ => True) (fun _ => True) (by simp) (by simp)
    simpa using this
  · intro maximise k z
    unfold BestForLabels BestForPair
    simp only [hcount]

end rbind

/-- Two data sets with set numbers 1, 2 and 1: the set of `y` becomes set 3. -/
example : rbindDatasets 3 [[1, 5, 1], [5, 1, 2]] 3 [[3, 3, 1]] = some ([[1, 5, 1], [5, 1, 2], [3, 3, 3]] : List (List ℚ)) := by decide +kernel

/-- Set numbers that do not start at 1 are an error. -/
example : rbindDatasets 3 [[1, 5, 1], [5, 1, 2]] 3 ([[3, 3, 2]] : List (List ℚ)) = none := by decide +kernel

/-! ## C78 -/

section write
variable {V : Type*} {L : Type*} [LinearOrder L]

/-- A text whose lines are those of sets, each followed by separators, is read as these sets. -/
theorem read_setLines {fmt : V → List Char} {scan : NumScan V} {rd : V → V} (hs : ScanOk scan) (hf : FmtOk fmt scan rd) {n : ℕ} (hn : 0 < n)
    {pre : List (List Char)} {sets : List (List (List V) × List (List Char))} (hpre : ∀ l ∈ pre, SepLine l)
    (hseps : ∀ p ∈ sets, p.2 ≠ [] ∧ ∀ l ∈ p.2, SepLine l) (hrows : ∀ p ∈ sets, ∀ r ∈ p.1, r.length = n) (hnp : ∀ p ∈ sets, p.1 ≠ []) (hne : sets ≠ [])
    {text : List Char} (htext : textLines text = setLines (vectorFprintf fmt) pre sets) (hclean : CleanText text) {fuel : ℕ} (hfuel : text.length + 2 < fuel) :
    readData scan fuel 0 [] [] text = some ⟨0, n, cumFrom 0 ((sets.map Prod.fst).map List.length), (sets.map Prod.fst).flatten.flatten.map rd⟩ := by
  have hr' : ∀ p ∈ sets, ∀ r ∈ p.1, r ≠ [] := by
    intro p hp r hr h0
    have := hrows p hp r hr
    rw [h0] at this; simp at this; omega
  have hks := setLines_kinds hf hpre (fun p hp => (hseps p hp).2) hr'
  rw [← htext] at hks
  have hmem : ∀ k ∈ setKinds pre.length (sets.map (fun p => (p.1.map (List.map rd), p.2.length))), k = .sep ∨ ∃ p ∈ sets, ∃ r ∈ p.1, k = .row (r.map rd) := by
    intro k hk
    rw [setKinds, List.mem_append, List.mem_flatten] at hk
    rcases hk with hk | ⟨l, hl, hk⟩
    · exact Or.inl (List.eq_of_mem_replicate hk)
    · simp only [List.map_map, List.mem_map, Function.comp] at hl
      obtain ⟨p, hp, rfl⟩ := hl
      rcases List.mem_append.1 hk with hk | hk
      · obtain ⟨r, hr, rfl⟩ := List.mem_map.1 hk
        exact Or.inr ⟨p, hp, r, hr, rfl⟩
      · exact Or.inl (List.eq_of_mem_replicate hk)
  have := C32_accept hs hclean hfuel hks (n := n) (by
    intro k hk
    rcases hmem k hk with h | ⟨p, hp, r, hr, h⟩
    · exact Or.inl h
    · exact Or.inr ⟨_, h, by rw [List.length_map]; exact hrows p hp r hr⟩) (by
    obtain ⟨p, hp⟩ := List.exists_mem_of_ne_nil _ hne
    obtain ⟨r, hr⟩ := List.exists_mem_of_ne_nil _ (hnp p hp)
    refine ⟨r.map rd, ?_⟩
    rw [setKinds]
    refine List.mem_append_right _ (List.mem_flatten.2 ⟨_, List.mem_map.2 ⟨_, List.mem_map.2 ⟨p, hp, rfl⟩, rfl⟩, List.mem_append_left _ ?_⟩)
    exact List.mem_map.2 ⟨r.map rd, List.mem_map.2 ⟨r, hr, rfl⟩, rfl⟩)
  have hso := setsOf_setKinds pre.length (sets.map (fun p => (p.1.map (List.map rd), p.2.length))) (by
    intro p hp
    obtain ⟨q, hq, rfl⟩ := List.mem_map.1 hp
    exact fun h0 => (hseps q hq).1 (List.length_eq_zero_iff.1 h0)) 0
  rw [List.replicate_zero, List.append_nil, List.map_map] at hso
  rw [this, hso, List.filter_eq_self.2 (by
    intro s hs
    obtain ⟨p, hp, rfl⟩ := List.mem_map.1 hs
    simpa using hnp p hp)]
  congr 2
  · simp [Function.comp_def]
  · rw [List.map_flatten, List.map_flatten, List.map_map]
    rfl

/-- The numbers of the sets of the rows, from the cumulative sizes. -/
theorem numbers_of_runs (lens : List ℕ) : ∀ (b j i set : ℕ), b ≤ i → (∀ r < set, (cumFrom b lens).getD r 0 ≤ i) → i < (cumFrom b lens).getD set 0 →
    ((lens.mapIdx (fun r m => List.replicate m (j + r + 1))).flatten)[i - b]? = some (j + set + 1) := by
  induction lens with
  | nil => intro b j i set _ _ h; simp [cumFrom] at h
  | cons m lens ih =>
    intro b j i set hb h1 h2
    rw [List.mapIdx_cons, List.flatten_cons]
    cases set with
    | zero =>
      simp only [cumFrom, List.getD_cons_zero] at h2
      rw [List.getElem?_append_left (by simp; omega)]
      simp [List.getElem?_replicate]; omega
    | succ set =>
      have h0 := h1 0 (by omega)
      simp only [cumFrom, List.getD_cons_zero, List.getD_cons_succ] at h0 h2
      rw [List.getElem?_append_right (by simp; omega)]
      have := ih (b + m) (j + 1) i set h0 (fun r hr => by have := h1 (r + 1) (by omega); simpa [cumFrom] using this) h2
      have e : (fun r m => List.replicate m (j + (r + 1) + 1)) = fun r m => List.replicate m (j + 1 + r + 1) := by
        funext r m; congr 1; omega
      rw [e, List.length_replicate, show i - b - m = i - (b + m) by omega, this]
      congr 1; omega

theorem cumFrom_last (lens : List ℕ) : ∀ b, lens ≠ [] → (cumFrom b lens).getLastD 0 = b + lens.sum := by
  induction lens with
  | nil => intro b h; exact absurd rfl h
  | cons m lens ih =>
    intro b _
    cases lens with
    | nil => simp [cumFrom]
    | cons k lens =>
      have := ih (b + m) (by simp)
      rw [cumFrom, List.getLastD_cons]
      rw [cumFrom] at this ⊢
      simp only [List.getLastD_cons] at this ⊢
      rw [this]; simp [Nat.add_assoc]

theorem numbers_eq {lens : List ℕ} (hne : lens ≠ []) {l : List ℕ} (hl : l.length = (cumFrom 0 lens).getLastD 0)
    (h : ∀ i (hi : i < l.length), ∃ set, InRun (fun r => (cumFrom 0 lens).getD r 0) set i ∧ l[i] = set + 1) :
    l = (lens.mapIdx (fun r m => List.replicate m (r + 1))).flatten := by
  have hlen : ((lens.mapIdx (fun r m => List.replicate m (r + 1))).flatten).length = lens.sum := by
    rw [List.length_flatten]
    congr 1
    apply List.ext_getElem
    · simp
    · intro i h1 h2; simp
  have hlast := cumFrom_last lens 0 hne
  apply List.ext_getElem?
  intro i
  rcases Nat.lt_or_ge i l.length with hi | hi
  · obtain ⟨set, g1, g2⟩ := h i hi
    have := numbers_of_runs lens 0 0 i set (Nat.zero_le _) g1.1 g1.2
    simp only [Nat.zero_add, Nat.sub_zero] at this
    rw [this, List.getElem?_eq_getElem hi, g2]
  · rw [List.getElem?_eq_none hi, List.getElem?_eq_none (by omega)]

/-- The sets of the file and the lines after each of them. -/
def rSetLines : List (List (List V)) → List (List (List V) × List (List Char))
  | [] => []
  | s :: ss => (s, [[]]) :: rSetLines ss

theorem rSetLines_eq (sets : List (List (List V))) : rSetLines sets = sets.map (fun s => (s, [[]])) := by
  induction sets with
  | nil => rfl
  | cons s ss ih => rw [rSetLines, ih, List.map_cons]

theorem rWriteTable_unlines (fmt : V → List Char) (rows : List (List V)) : rWriteTable fmt rows = unlinesC (rows.map (vectorFprintf fmt)) := by
  simp [rWriteTable, unlinesC, Function.comp_def]

/-- The lines of what is written: every set is followed by an empty line (the last one is what is after the last newline). -/
theorem rWrite_lines (fmt : V → List Char) (ss : List (List (List V))) : ∀ s : List (List V), ∃ ls : List (List Char),
    rWriteTable fmt s ++ (ss.map (fun xi => '\n' :: rWriteTable fmt xi)).flatten = unlinesC ls ∧
      ls ++ [[]] = setLines (vectorFprintf fmt) [] ((s :: ss).map (fun s => (s, [[]]))) := by
  induction ss with
  | nil =>
    intro s
    exact ⟨s.map (vectorFprintf fmt), by simp [rWriteTable_unlines], by simp [setLines]⟩
  | cons t ss ih =>
    intro s
    obtain ⟨ls, h1, h2⟩ := ih t
    refine ⟨s.map (vectorFprintf fmt) ++ [[]] ++ ls, ?_, ?_⟩
    · rw [unlines_append, unlines_append, ← h1, rWriteTable_unlines]
      simp [unlinesC]
    · rw [List.append_assoc, h2]
      simp [setLines]

/-- The header is one comment line. -/
theorem rHeader_line (names : List (List Char)) : rHeader names = unlinesC [['#', ' '] ++ List.intercalate ['\t'] names ++ [' ']] := by
  simp [rHeader, unlinesC]

theorem mem_intercalate {c : Char} (names : List (List Char)) (h : c ∈ List.intercalate ['\t'] names) : c = '\t' ∨ ∃ n ∈ names, c ∈ n := by
  induction names with
  | nil => simp [List.intercalate] at h
  | cons a names ih =>
    cases names with
    | nil => exact Or.inr ⟨a, by simp, by simpa [List.intercalate] using h⟩
    | cons b names =>
      simp only [List.intercalate, List.intersperse_cons_cons, List.flatten_cons, List.mem_append, List.mem_singleton] at h ih
      rcases h with h | h | h
      · exact Or.inr ⟨a, by simp, h⟩
      · exact Or.inl h
      · rcases ih h with h | ⟨n, hn, hc⟩
        · exact Or.inl h
        · exact Or.inr ⟨n, by simp at hn ⊢; exact Or.inr hn, hc⟩

/-- What the names of the columns may be: any text without a newline, a vertical tab or a form feed. -/
def NamesOk (names : Option (List (List Char))) : Prop := ∀ ns ∈ names, ∀ n ∈ ns, ∀ c ∈ n, c ≠ '\n' ∧ c ≠ '\x0b' ∧ c ≠ '\x0c'

/-- **C78**: reading what `write_datasets` writes gives the sets in the order of their labels, numbered from 1, the points of each set in their order, and every value as
it is after writing it with the digits of the format. -/
theorem C78_round_trip {fmt : V → List Char} {scan : NumScan V} {rd : V → V} (hs : ScanOk scan) (hf : FmtOk fmt scan rd) {n : ℕ} (hn : 0 < n)
    {names : Option (List (List Char))} (hnames : NamesOk names) {rows : List (List V × L)} (hne : rows ≠ []) (hrows : ∀ r ∈ rows, r.1.length = n) :
    ∃ (text : List Char) (us : List L), rWriteDatasets fmt names rows = some text ∧ us.Pairwise (fun a b => a < b) ∧ (∀ u, u ∈ us ↔ ∃ r ∈ rows, r.2 = u) ∧
      ∀ fuel, text.length + 2 < fuel → readDatasetsR scan fuel text = some (.ok (n, (us.map (pointsOf rows)).flatten.flatten.map rd,
        (us.mapIdx (fun j u => List.replicate (pointsOf rows u).length (j + 1))).flatten)) := by
  set us := npUnique (rows.map Prod.snd) with hus
  have hmem : ∀ u, u ∈ us ↔ ∃ r ∈ rows, r.2 = u := by
    intro u
    rw [hus, npUnique, List.mem_insertionSort, List.mem_dedup, List.mem_map]
  have hsplit : rSplitRows rows = us.map (pointsOf rows) := rfl
  obtain ⟨r0, hr0⟩ := List.exists_mem_of_ne_nil _ hne
  have husne : us ≠ [] := List.ne_nil_of_mem ((hmem r0.2).2 ⟨r0, hr0, rfl⟩)
  have hpts : ∀ p ∈ us.map (pointsOf rows), p ≠ [] ∧ ∀ r ∈ p, r.length = n := by
    intro p hp
    obtain ⟨u, hu, rfl⟩ := List.mem_map.1 hp
    constructor
    · obtain ⟨r, hr, rfl⟩ := (hmem u).1 hu
      exact List.ne_nil_of_mem (List.mem_map.2 ⟨r, List.mem_filter.2 ⟨hr, by simp⟩, rfl⟩)
    · intro r hr
      obtain ⟨q, hq, rfl⟩ := List.mem_map.1 hr
      exact hrows q (List.mem_filter.1 hq).1
  obtain ⟨s, ss, hss⟩ : ∃ s ss, us.map (pointsOf rows) = s :: ss := by
    cases h : us.map (pointsOf rows) with
    | nil => exact absurd (List.map_eq_nil_iff.1 h) husne
    | cons s ss => exact ⟨s, ss, rfl⟩
  obtain ⟨ls, e1, e2⟩ := rWrite_lines fmt ss s
  -- the header
  obtain ⟨pre, hpre1, hpre2⟩ : ∃ pre : List (List Char), (names.map rHeader).getD [] = unlinesC pre ∧ ∀ l ∈ pre, SepLine l := by
    cases hN : names with
    | none => exact ⟨[], rfl, by simp⟩
    | some ns =>
      refine ⟨_, rHeader_line ns, ?_⟩
      intro l hl
      rw [List.mem_singleton] at hl
      subst hl
      refine ⟨Or.inl ⟨_, rfl⟩, ?_⟩
      intro c hc
      simp only [List.mem_append, List.mem_cons, List.not_mem_nil, or_false] at hc
      rcases hc with ((rfl | rfl) | hc) | rfl
      · decide
      · decide
      · rcases mem_intercalate ns hc with rfl | ⟨m, hm, hc⟩
        · decide
        · exact hnames ns (by rw [hN]; rfl) m hm c hc
      · decide
  have hsets : ∀ p ∈ (us.map (pointsOf rows)).map (fun s => (s, ([[]] : List (List Char)))), p.2 ≠ [] ∧ ∀ l ∈ p.2, SepLine l := by
    intro p hp
    obtain ⟨q, hq, rfl⟩ := List.mem_map.1 hp
    simp [SepLine]
  have hlines : pre ++ ls ++ [[]] = setLines (vectorFprintf fmt) pre ((us.map (pointsOf rows)).map (fun s => (s, [[]]))) := by
    rw [List.append_assoc, e2, hss]
    simp [setLines]
  have hch := setLines_chars hf (sets := (us.map (pointsOf rows)).map (fun s => (s, [[]]))) hpre2 (fun p hp => (hsets p hp).2)
  rw [← hlines] at hch
  have hch' : ∀ l ∈ pre ++ ls, ∀ c ∈ l, c ≠ '\n' ∧ c ≠ '\x0b' ∧ c ≠ '\x0c' := fun l hl => hch l (List.mem_append_left _ hl)
  refine ⟨unlinesC (pre ++ ls), us, ?_, npUnique_strict _, hmem, ?_⟩
  · unfold rWriteDatasets
    rw [hsplit, hss]
    dsimp only
    rw [unlines_append, ← e1, ← hpre1, List.append_assoc]
    cases names <;> rfl
  · intro fuel hfuel
    have hread := read_setLines hs hf hn (text := unlinesC (pre ++ ls)) hpre2 hsets (by
        intro p hp
        obtain ⟨q, hq, rfl⟩ := List.mem_map.1 hp
        exact (hpts q hq).2) (by
        intro p hp
        obtain ⟨q, hq, rfl⟩ := List.mem_map.1 hp
        exact (hpts q hq).1) (by rw [hss]; simp) (by rw [textLines_unlines _ (fun l hl hc => (hch' l hl _ hc).1 rfl), hlines]) (cleanText_unlines hch') hfuel
    have hfst : ((us.map (pointsOf rows)).map (fun s => (s, ([[]] : List (List Char))))).map Prod.fst = us.map (pointsOf rows) := by simp [Function.comp_def]
    rw [hfst] at hread
    obtain ⟨l, g1, g2, g3⟩ := C33_R_read_datasets hs _ hfuel hread rfl
    rw [g1]
    congr 4
    rw [numbers_eq (by rw [hss]; simp) g2 g3]
    congr 1
    rw [List.map_map]
    apply List.ext_getElem
    · simp
    · intro i h1 h2; simp

/-- The rows of a data set whose labels are in increasing order, one set after the other. -/
theorem concat_sets : ∀ (us : List L) (rows : List (List V × L)), us.Pairwise (fun a b => a < b) → rows.Pairwise (fun a b => a.2 ≤ b.2) → (∀ r ∈ rows, r.2 ∈ us) →
    (us.map (fun u => rows.filter (fun r => decide (r.2 = u)))).flatten = rows := by
  intro us
  induction us with
  | nil =>
    intro rows _ _ h
    cases rows with
    | nil => rfl
    | cons r rows => exact absurd (h r (by simp)) (by simp)
  | cons u us ih =>
    intro rows hu hr hm
    rw [List.pairwise_cons] at hu
    rw [List.map_cons, List.flatten_cons]
    have hsplit : ∀ rows : List (List V × L), rows.Pairwise (fun a b => a.2 ≤ b.2) → (∀ r ∈ rows, r.2 ∈ u :: us) →
        rows.filter (fun r => decide (r.2 = u)) ++ rows.filter (fun r => decide (r.2 ≠ u)) = rows := by
      intro rows
      induction rows with
      | nil => intro _ _; rfl
      | cons r rows ih2 =>
        intro hr hm
        rw [List.pairwise_cons] at hr
        by_cases h : r.2 = u
        · rw [List.filter_cons_of_pos (by simp [h]), List.filter_cons_of_neg (by simp [h]), List.cons_append, ih2 hr.2 (fun q hq => hm q (by simp [hq]))]
        · have hr2 : u < r.2 := by
            rcases List.mem_cons.1 (hm r (by simp)) with h' | h'
            · exact absurd h' h
            · exact hu.1 _ h'
          have hall : ∀ q ∈ r :: rows, q.2 ≠ u := by
            intro q hq
            rcases List.mem_cons.1 hq with rfl | hq
            · exact h
            · exact (lt_of_lt_of_le hr2 (hr.1 q hq)).ne'
          rw [List.filter_eq_nil_iff.2 (by intro q hq; simpa using hall q hq), List.filter_eq_self.2 (by intro q hq; simpa using hall q hq), List.nil_append]
    have := ih (rows.filter (fun r => decide (r.2 ≠ u))) hu.2 (hr.filter _) (by
      intro r hr
      have := List.mem_filter.1 hr
      rcases List.mem_cons.1 (hm r this.1) with h | h
      · simp [h] at this
      · exact h)
    have hf : us.map (fun v => (rows.filter (fun r => decide (r.2 ≠ u))).filter (fun r => decide (r.2 = v))) = us.map (fun v => rows.filter (fun r => decide (r.2 = v))) := by
      apply List.map_congr_left
      intro v hv
      rw [List.filter_filter]
      apply List.filter_congr
      intro r _
      have : u < v := hu.1 v hv
      by_cases h : r.2 = v
      · simp [h, this.ne']
      · simp [h]
    rw [hf] at this
    rw [this, hsplit rows hr hm]

/-- **C78 (identity)**: if the rows are in the order of their sets and the sets are numbered 1, 2, ..., as `read_datasets` numbers them, reading what was written gives the same rows and the same
set numbers; only the values are rounded to the digits of the format. -/
theorem C78_identity {fmt : V → List Char} {scan : NumScan V} {rd : V → V} (hs : ScanOk scan) (hf : FmtOk fmt scan rd) {n : ℕ} (hn : 0 < n)
    {names : Option (List (List Char))} (hnames : NamesOk names) {rows : List (List V × ℕ)} (hne : rows ≠ []) (hrows : ∀ r ∈ rows, r.1.length = n)
    (hsorted : rows.Pairwise (fun a b => a.2 ≤ b.2)) {k : ℕ} (hk : ∀ u, (∃ r ∈ rows, r.2 = u) ↔ 1 ≤ u ∧ u ≤ k) :
    ∃ text, rWriteDatasets fmt names rows = some text ∧
      ∀ fuel, text.length + 2 < fuel → readDatasetsR scan fuel text = some (.ok (n, (rows.map Prod.fst).flatten.map rd, rows.map Prod.snd)) := by
  obtain ⟨text, us, h1, h2, h3, h4⟩ := C78_round_trip hs hf hn hnames hne hrows
  refine ⟨text, h1, fun fuel hfuel => ?_⟩
  rw [h4 fuel hfuel]
  have hus : us = (List.range k).map (fun j => j + 1) := by
    apply List.Perm.eq_of_pairwise (le := fun a b => a < b) (fun a b _ _ h h' => absurd h (lt_asymm h')) h2
    · rw [List.pairwise_map]
      exact List.pairwise_lt_range.imp (fun h => by omega)
    · refine (List.perm_ext_iff_of_nodup (h2.imp ne_of_lt) (List.nodup_range.map (fun a b h => by simpa using h))).2 ?_
      intro u
      rw [h3, hk, List.mem_map]
      constructor
      · rintro ⟨g1, g2⟩
        exact ⟨u - 1, List.mem_range.2 (by omega), by omega⟩
      · rintro ⟨j, hj, rfl⟩
        have := List.mem_range.1 hj
        omega
  have hcat := concat_sets us rows h2 hsorted (fun r hr => (h3 _).2 ⟨r, hr, rfl⟩)
  congr 4
  · rw [← hcat]
    congr 2
    rw [hcat]
    conv_rhs => rw [← hcat]
    rw [List.map_flatten, List.map_map]
    rfl
  · have hcat2 : rows.map Prod.snd = (us.map (fun u => (rows.filter (fun r => decide (r.2 = u))).map Prod.snd)).flatten := by
      conv_lhs => rw [← hcat]
      rw [List.map_flatten, List.map_map]
      rfl
    rw [hcat2]
    congr 1
    apply List.ext_getElem
    · simp
    · intro i g1 g2
      simp only [List.getElem_mapIdx, List.getElem_map]
      have hi : us[i]'(by simpa using g1) = i + 1 := by simp [hus]
      rw [hi]
      symm
      rw [List.eq_replicate_iff]
      refine ⟨by simp [pointsOf], ?_⟩
      intro b hb
      obtain ⟨r, hr, rfl⟩ := List.mem_map.1 hb
      simpa using (List.mem_filter.1 hr).2

/-- **C78 (no rows)**: an empty data set is an error. -/
theorem C78_empty (fmt : V → List Char) (names : Option (List (List Char))) : rWriteDatasets fmt names ([] : List (List V × L)) = none := rfl

end write

/-- Two sets with labels 7 and 3, and names of the columns: the set with the smaller label is first in the file. -/
example : rWriteDatasets intText (some ["a".toList, "b".toList]) [([1, 2], (7 : ℕ)), ([3, -4], 3), ([5, 6], 7)] = some "# a\tb \n3 -4\n\n1 2\n5 6\n".toList := by decide +kernel

/-- Reading it gives the sets 1 and 2. -/
example : readDatasetsR scanInt 100 "# a\tb \n3 -4\n\n1 2\n5 6\n".toList = some (.ok (2, [3, -4, 1, 2, 5, 6], [1, 2, 2])) := by decide +kernel

end Moo
