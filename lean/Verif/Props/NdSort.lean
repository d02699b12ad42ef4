import Verif.Lemmas.NdSort
import Verif.Spec.IndMain
import Verif.Props.IndMain

/-!
# The program `ndsort` (C70)

The claim: `ndsort -r` writes the number of the front of every point, for the directions given with `-o`; without `-r` it writes the rank of every point that is not in the first front, and 2 minus the
hypervolume contribution of every point of the first front, in scaled objectives.  It is false for directions other than minimisation, which are ignored.
-/

set_option autoImplicit false
set_option linter.unusedSectionVars false

namespace Moo

open MeasureTheory

section
variable {env : NsEnv ℝ}

/-- **C70 (`ndsort -r`)**: for every readable input (the sets of a file are taken together) the fronts are written, in the order of the points.  What is missing: the directions given with `-o` are
ignored, the fronts are always those for minimisation (see `C70_directions_ignored` and `C70_false_directions`). -/
theorem C70_rank_partial (hs : ScanOk env.scan) (hsort : ∀ pp m, SortedFront pp m (env.sortFn pp m)) (n : ℕ) (text : List Char) (sets : List (List (List ℝ))) (h : TextSets env.scan text n sets)
    (args : List NsArg) (hargs : NsArgsOk n args) (hr : NsArg.rank ∈ args) (stdin : List Char) (files : List (List Char)) (hin : hvInputs stdin files = [text]) :
    ∃ ranks, nsMain env args stdin files = .exit 0 (ranks.map .rank) ∧ FrontsOf n (fun _ => false) sets.flatten ranks := by
  obtain ⟨points, rank, -, h2, -, h4⟩ := nsMain_eq hs hsort h
  refine ⟨(List.range sets.flatten.length).map rank, ?_, by simp, ?_⟩
  · rw [h4 args stdin files hargs hin, if_pos hr, List.map_map]
    rfl
  · intro i hi
    rw [List.getD_eq_getElem?_getD, List.getElem?_map, List.getElem?_range hi]
    exact h2 i hi

/-- **C70 (`ndsort`)**: for every readable input with at least two objectives, dominated points get their rank and the points of the first front get 2 minus their contribution to the hypervolume of the
first front, scaled to the range from 0 to 0.9, with reference point (1, ..., 1).  What is missing: the directions of `-o`, as in `C70_rank_partial`. -/
theorem C70_order_partial (hs : ScanOk env.scan) (hsort : ∀ pp m, SortedFront pp m (env.sortFn pp m)) (hlib : HvLibOk env.lib) (n : ℕ) (hn : 2 ≤ n) (text : List Char) (sets : List (List (List ℝ)))
    (h : TextSets env.scan text n sets) (args : List NsArg) (hargs : NsArgsOk n args) (hr : NsArg.rank ∉ args) (stdin : List Char) (files : List (List Char)) (hin : hvInputs stdin files = [text]) :
    ∃ orders x, nsMain env args stdin files = .exit 0 (orders.map .order) ∧ IsScaledFront n sets.flatten x ∧ OrdersOf n env.tol sets.flatten x orders := by
  obtain ⟨points, rank, h1, h2, h3, h4⟩ := nsMain_eq hs hsort h
  have hfirst : (firstFront n sets.flatten).Nonempty := by
    obtain ⟨j, hj, hnd, -⟩ := exists_nondominated_weakDom n sets.flatten.length (fun _ => false) (rowsTable sets.flatten) 0 h3
    exact ⟨j, hj, hnd⟩
  obtain ⟨order, x, e, hx, ho⟩ := nsOrder_eq hlib hn h1 (fun _ => 0) h2 hfirst
  refine ⟨_, x, ?_, hx, ho⟩
  rw [h4 args stdin files hargs hin, if_neg hr, e, List.map_map]
  rfl

/-- **C70 (defect)**: the directions are ignored: with any other accepted options the output is the same, if both have `-r` or neither has. -/
theorem C70_directions_ignored (hs : ScanOk env.scan) (hsort : ∀ pp m, SortedFront pp m (env.sortFn pp m)) (n : ℕ) (text : List Char) (sets : List (List (List ℝ))) (h : TextSets env.scan text n sets)
    (args args' : List NsArg) (hargs : NsArgsOk n args) (hargs' : NsArgsOk n args') (hr : NsArg.rank ∈ args ↔ NsArg.rank ∈ args') (stdin : List Char) (files : List (List Char))
    (hin : hvInputs stdin files = [text]) : nsMain env args stdin files = nsMain env args' stdin files := by
  obtain ⟨points, rank, -, -, -, h4⟩ := nsMain_eq hs hsort h
  rw [h4 args stdin files hargs hin, h4 args' stdin files hargs' hin]
  simp only [hr]

/-! ### The values -/

/-- A point of the first front, scaled. -/
theorem IsScaledFront.range {n : ℕ} {s : List (List ℝ)} {x : ℕ → ℕ → ℝ} (h : IsScaledFront n s x) {i : ℕ} (hi : i ∈ firstFront n s) {k : ℕ} (hk : k < n) : 0 ≤ x i k ∧ x i k ≤ 9 / 10 := by
  obtain ⟨m, M, h1, h2, h3⟩ := h k hk
  rw [h3 i hi]
  have g1 := h1.2 ⟨i, hi, rfl⟩
  have g2 := h2.2 ⟨i, hi, rfl⟩
  simp only at g1 g2
  split_ifs with hmM
  · norm_num
  · have hpos : 0 < M - m := lt_of_le_of_ne (by linarith) (fun he => hmM (by linarith))
    have := div_nonneg (sub_nonneg.2 g1) hpos.le
    have := (div_le_one hpos).2 (by linarith : rowsTable s i k - m ≤ M - m)
    constructor <;> linarith

/-- Scaling keeps the order. -/
theorem IsScaledFront.le_iff {n : ℕ} {s : List (List ℝ)} {x : ℕ → ℕ → ℝ} (h : IsScaledFront n s x) {i j : ℕ} (hi : i ∈ firstFront n s) (hj : j ∈ firstFront n s) {k : ℕ} (hk : k < n) :
    x i k ≤ x j k ↔ rowsTable s i k ≤ rowsTable s j k := by
  obtain ⟨m, M, h1, h2, h3⟩ := h k hk
  rw [h3 i hi, h3 j hj]
  have g1 := h1.2 ⟨i, hi, rfl⟩
  have g2 := h2.2 ⟨i, hi, rfl⟩
  have g3 := h1.2 ⟨j, hj, rfl⟩
  have g4 := h2.2 ⟨j, hj, rfl⟩
  simp only at g1 g2 g3 g4
  split_ifs with hmM
  · exact ⟨fun _ => by linarith, fun _ => le_rfl⟩
  · have hpos : 0 < M - m := lt_of_le_of_ne (by linarith) (fun he => hmM (by linarith))
    rw [mul_le_mul_iff_right₀ (by norm_num : (0 : ℝ) < 9 / 10), div_le_div_iff_of_pos_right hpos, sub_le_sub_iff_right]

theorem unitRegion_subset {n : ℕ} {s : List (List ℝ)} {x : ℕ → ℕ → ℝ} (h : IsScaledFront n s x) {S : Set ℕ} (hS : S ⊆ firstFront n s) : unitRegion n x S ⊆ Set.Icc 0 1 := by
  rintro y ⟨⟨i, hi, h1⟩, h2⟩
  exact ⟨fun k => ((h.range (hS hi) k.2).1).trans (h1 k), h2⟩

theorem vol_unit_le {n : ℕ} {A B : Set (Fin n → ℝ)} (hAB : A ⊆ B) (hB : B ⊆ Set.Icc 0 1) : vol A ≤ vol B := by
  unfold vol
  refine ENNReal.toReal_mono (ne_top_of_le_ne_top ?_ (measure_mono hB)) (measure_mono hAB)
  rw [Real.volume_Icc_pi]
  exact ENNReal.prod_ne_top (fun _ _ => ENNReal.ofReal_ne_top)

/-- **C70**: contributions are between 0 and 1. -/
theorem C70_contribution_range {n : ℕ} {s : List (List ℝ)} {x : ℕ → ℕ → ℝ} (h : IsScaledFront n s x) (i : ℕ) : 0 ≤ frontContribution n s x i ∧ frontContribution n s x i ≤ 1 := by
  unfold frontContribution
  have h1 : vol (unitRegion n x (firstFront n s \ {i})) ≤ vol (unitRegion n x (firstFront n s)) := by
    refine vol_unit_le ?_ (unitRegion_subset h (fun _ h => h))
    rintro y ⟨⟨j, hj, h1⟩, h2⟩
    exact ⟨⟨j, hj.1, h1⟩, h2⟩
  have h2 : vol (unitRegion n x (firstFront n s)) ≤ 1 := by
    refine (vol_unit_le (unitRegion_subset h (fun _ h => h)) (fun _ h => h)).trans ?_
    unfold vol
    rw [Real.volume_Icc_pi]
    simp
  have h3 : 0 ≤ vol (unitRegion n x (firstFront n s \ {i})) := ENNReal.toReal_nonneg
  constructor <;> linarith

/-- **C70**: the numbers written are at most 2, and at least 1, exactly for the points of the first front that have them; all other points have a larger rank. -/
theorem C70_order_range {n : ℕ} {tol : ℝ} {s : List (List ℝ)} {x : ℕ → ℕ → ℝ} {orders : List ℝ} (h : IsScaledFront n s x) (ho : OrdersOf n tol s x orders) :
    (∀ i ∈ firstFront n s, 1 ≤ orders.getD i 0 ∧ orders.getD i 0 ≤ 2) ∧
    ∀ i < s.length, i ∉ firstFront n s → 2 ≤ orders.getD i 0 := by
  obtain ⟨h1, h2, h3⟩ := ho
  constructor
  · intro i hi
    rw [h3 i hi]
    obtain ⟨c1, c2⟩ := C70_contribution_range h i
    split_ifs <;> constructor <;> linarith
  · intro i hi hn
    obtain ⟨rank, -, hrank⟩ := C08_general_peels (rowsTable s) n s.length (s.length + 1) (by omega)
    have hf := hrank i hi
    have hr1 : rank i ≠ 1 := fun he => hn ((inFront_one_iff hi).1 (he ▸ hf))
    rw [h2 i hi (rank i) hf hr1]
    have := hf.1
    exact_mod_cast (by omega : 2 ≤ rank i)

/-- **C70**: sorting by the numbers written never puts a point before a point that dominates it: the dominating point has a smaller number, or both have the number 2. -/
theorem C70_order_respects_dominance {n : ℕ} {tol : ℝ} {s : List (List ℝ)} {x : ℕ → ℕ → ℝ} {orders : List ℝ} (h : IsScaledFront n s x) (ho : OrdersOf n tol s x orders)
    (i : ℕ) (hi : i < s.length) (j : ℕ) (hj : j < s.length) (hd : Dom n (fun _ => false) (rowsTable s i) (rowsTable s j)) :
    orders.getD i 0 < orders.getD j 0 ∨ i ∈ firstFront n s ∧ orders.getD i 0 = 2 ∧ orders.getD j 0 = 2 := by
  obtain ⟨sortFn, hsort⟩ := sortedFront_exists (α := ℝ)
  obtain ⟨rank, e, hrank⟩ := C08_pareto_rank_peels sortFn (fun _ => 0) (rowsTable s) n s.length (s.length + 1) (by omega) (fun _ => by omega) (fun pp => hsort pp _)
  obtain ⟨rank', e', hdom, -⟩ := C10_rank_respects_dominance sortFn (fun _ => 0) (rowsTable s) n s.length (s.length + 1) (by omega) (fun _ => by omega) (fun pp => hsort pp _)
  have hrr : rank' = rank := by rw [e] at e'; cases e'; rfl
  subst hrr
  have hlt := hdom i hi j hj hd
  have hi1 := (hrank i hi).1
  have hoj : orders.getD j 0 = rank' j := ho.2.1 j hj _ (hrank j hj) (by omega)
  by_cases h1 : rank' i = 1
  · have hif : i ∈ firstFront n s := (inFront_one_iff hi).1 (h1 ▸ hrank i hi)
    have hle := ((C70_order_range h ho).1 i hif).2
    have h2 : (2 : ℝ) ≤ rank' j := by exact_mod_cast (by omega : 2 ≤ rank' j)
    rcases hle.lt_or_eq with hl | he
    · left; rw [hoj]; linarith
    · rcases h2.lt_or_eq with hl | he2
      · left; rw [hoj]; linarith
      · right; exact ⟨hif, he, by rw [hoj]; exact he2.symm⟩
  · left
    rw [ho.2.1 i hi _ (hrank i hi) h1, hoj]
    exact_mod_cast hlt

/-- **C70 (defect)**: repeated points of the first front get the number 2, as if they were in the second front. -/
theorem C70_repeated_points {n : ℕ} {tol : ℝ} {s : List (List ℝ)} {x : ℕ → ℕ → ℝ} {orders : List ℝ} (h : IsScaledFront n s x) (ho : OrdersOf n tol s x orders)
    (i : ℕ) (hi : i ∈ firstFront n s) (j : ℕ) (hj : j < s.length) (hne : j ≠ i) (hsame : SameVec n (rowsTable s i) (rowsTable s j)) : orders.getD i 0 = 2 := by
  have hjf : j ∈ firstFront n s := by
    refine ⟨hj, fun r hr hd => hi.2 r hr ?_⟩
    exact (dom_congr (fun _ _ => rfl) (fun _ _ => rfl) (fun k hk => (hsame k hk).symm)).1 hd
  have hreg : unitRegion n x (firstFront n s) = unitRegion n x (firstFront n s \ {i}) := by
    ext y
    refine and_congr_left fun _ => ?_
    constructor
    · rintro ⟨r, hr, h1⟩
      by_cases hri : r = i
      · subst hri
        exact ⟨j, ⟨hjf, hne⟩, fun k => ((h.le_iff hjf hr k.2).2 (hsame k k.2).ge).trans (h1 k)⟩
      · exact ⟨r, ⟨hr, hri⟩, h1⟩
    · rintro ⟨r, hr, h1⟩
      exact ⟨r, hr.1, h1⟩
  have hc : frontContribution n s x i = 0 := by unfold frontContribution; rw [hreg, sub_self]
  rw [ho.2.2 i hi, hc]
  split_ifs <;> norm_num

/-- **C70**: every other point of the first front has a contribution; if it is not below the tolerance, its number is less than 2. -/
theorem C70_contribution_pos {n : ℕ} (hn : 1 ≤ n) {s : List (List ℝ)} {x : ℕ → ℕ → ℝ} (h : IsScaledFront n s x) (i : ℕ) (hi : i ∈ firstFront n s)
    (huniq : ∀ j < s.length, j ≠ i → ¬ SameVec n (rowsTable s i) (rowsTable s j)) : 0 < frontContribution n s x i := by
  classical
  -- the points outside of the first front are moved out of the box
  set x' : ℕ → ℕ → ℝ := fun r => if r ∈ firstFront n s then x r else fun _ => 2 with hx'
  have hin : ∀ r ∈ firstFront n s, x' r = x r := fun r hr => by rw [hx']; exact if_pos hr
  have hout : ∀ r, r ∉ firstFront n s → ∀ k, x' r k = 2 := fun r hr k => by rw [hx']; simp only [if_neg hr]
  have hA : unitRegion n x (firstFront n s) = dominatedRegion n s.length x' (fun _ => 1) := by
    ext y
    refine and_congr_left fun hy => ?_
    constructor
    · rintro ⟨r, hr, h1⟩
      exact ⟨r, hr.1, fun k => by rw [hin r hr]; exact h1 k⟩
    · rintro ⟨r, hr, h1⟩
      by_cases hrf : r ∈ firstFront n s
      · exact ⟨r, hrf, fun k => by rw [← hin r hrf]; exact h1 k⟩
      · have g1 := h1 ⟨0, hn⟩
        have g2 := hy ⟨0, hn⟩
        rw [hout r hrf] at g1
        linarith
  have hB : unitRegion n x (firstFront n s \ {i}) = dominatedRegionWithout n s.length x' (fun _ => 1) i := by
    ext y
    refine and_congr_left fun hy => ?_
    constructor
    · rintro ⟨r, ⟨hr, hri⟩, h1⟩
      exact ⟨r, hr.1, hri, fun k => by rw [hin r hr]; exact h1 k⟩
    · rintro ⟨r, hr, hri, h1⟩
      by_cases hrf : r ∈ firstFront n s
      · exact ⟨r, ⟨hrf, hri⟩, fun k => by rw [← hin r hrf]; exact h1 k⟩
      · have g1 := h1 ⟨0, hn⟩
        have g2 := hy ⟨0, hn⟩
        rw [hout r hrf] at g1
        linarith
  unfold frontContribution
  rw [hA, hB, vol_dominatedRegion, vol_dominatedRegionWithout]
  by_contra hcon
  have hle : HV n x' (i :: (List.range s.length).filter (fun r => decide (r ≠ i))) (fun _ => 1) ≤ HV n x' ((List.range s.length).filter (fun r => decide (r ≠ i))) (fun _ => 1) := by
    have : HV n x' (i :: (List.range s.length).filter (fun r => decide (r ≠ i))) (fun _ => 1) = HV n x' (List.range s.length) (fun _ => 1) := by
      apply HV_congr_mem
      intro p
      simp only [List.mem_cons, List.mem_filter, List.mem_range, decide_eq_true_eq]
      constructor
      · rintro (rfl | h)
        · exact hi.1
        · exact h.1
      · intro hp
        by_cases hpi : p = i
        · exact Or.inl hpi
        · exact Or.inr ⟨hp, hpi⟩
    rw [this]
    linarith
  obtain ⟨q, hq, hle⟩ := exists_dom_of_HV_le i (fun k hk => by rw [hin i hi]; linarith [(h.range hi hk).2]) hle
  simp only [List.mem_filter, List.mem_range, decide_eq_true_eq] at hq
  have hqf : q ∈ firstFront n s := by
    by_contra hqf
    have := hle 0 hn
    rw [hout q hqf, hin i hi] at this
    linarith [(h.range hi hn).2]
  have hw : ∀ k < n, rowsTable s q k ≤ rowsTable s i k := by
    intro k hk
    have := hle k hk
    rw [hin q hqf, hin i hi] at this
    exact (h.le_iff hqf hi hk).1 this
  apply huniq q hq.1 hq.2
  intro k hk
  refine le_antisymm ?_ (hw k hk)
  by_contra hlt
  exact hi.2 q hq.1 ⟨fun k hk => by simpa [AtLeastAsGood] using hw k hk, k, hk, by simpa [StrictlyBetter] using hlt⟩

/-! ### Failures -/

/-- **C70**: an input that is not a text of data sets, or does not have as many columns as there are directions, is a failure and nothing is written. -/
theorem C70_unreadable (hs : ScanOk env.scan) (text : List Char) (args : List NsArg) (h1 : NsArg.keepUevs ∉ args)
    (h2 : ∀ str, NsArg.obj str ∈ args → (∀ c ∈ str, directionOf c ≠ none) ∧ ∃ c ∈ str, directionOf c ≠ some 0)
    (h : Unreadable env.scan text (((args.filterMap NsArg.obj?).getLast?.map List.length).getD 0)) (stdin : List Char) (files : List (List Char)) (hin : hvInputs stdin files = [text]) :
    nsMain env args stdin files = .exit 1 [] := by
  obtain ⟨mm, eo⟩ := nsOptions_ok env.junk args ⟨false, 0, none⟩ h1 h2
  unfold nsMain
  rw [eo]
  unfold hvInputs at hin
  cases files with
  | nil =>
    rw [if_pos rfl, List.cons.injEq] at hin
    dsimp only
    unfold nsFile
    rw [hin.1, readFile_err hs h]
  | cons f fs =>
    rw [if_neg (by simp), List.cons.injEq] at hin
    obtain ⟨rfl, rfl⟩ := hin
    dsimp only
    unfold nsFile
    rw [readFile_err hs h]

/-- **C70**: more than one file is a failure. -/
theorem C70_two_files (args : List NsArg) (h1 : NsArg.keepUevs ∉ args) (h2 : ∀ str, NsArg.obj str ∈ args → (∀ c ∈ str, directionOf c ≠ none) ∧ ∃ c ∈ str, directionOf c ≠ some 0)
    (stdin f g : List Char) (fs : List (List Char)) : nsMain env args stdin (f :: g :: fs) = .exit 1 [] := by
  obtain ⟨mm, eo⟩ := nsOptions_ok env.junk args ⟨false, 0, none⟩ h1 h2
  unfold nsMain
  rw [eo]

/-- **C70**: `-k`, or directions with a wrong character, is a failure, whatever options follow. -/
theorem C70_bad_option (good : List NsArg) (bad : NsArg) (rest : List NsArg) (h1 : NsArg.keepUevs ∉ good)
    (h2 : ∀ str, NsArg.obj str ∈ good → (∀ c ∈ str, directionOf c ≠ none) ∧ ∃ c ∈ str, directionOf c ≠ some 0)
    (hbad : bad = .keepUevs ∨ ∃ str, bad = .obj str ∧ ∃ c ∈ str, directionOf c = none) (stdin : List Char) (files : List (List Char)) :
    nsMain env (good ++ bad :: rest) stdin files = .exit 1 [] := by
  have key : ∀ (good : List NsArg) (st : NsSt), NsArg.keepUevs ∉ good → (∀ str, NsArg.obj str ∈ good → (∀ c ∈ str, directionOf c ≠ none) ∧ ∃ c ∈ str, directionOf c ≠ some 0) →
      nsOptions env.junk st (good ++ bad :: rest) = .exit 1 := by
    intro good
    induction good with
    | nil =>
      intro st _ _
      rcases hbad with rfl | ⟨str, rfl, hc⟩
      · rfl
      · rw [List.nil_append, nsOptions, (C44_null env.junk str st.dim).2 hc]
    | cons a good ih =>
      intro st h1 h2
      have h1' : NsArg.keepUevs ∉ good := fun h => h1 (by simp [h])
      have h2' := fun str h => h2 str (List.mem_cons_of_mem _ h)
      rw [List.cons_append]
      cases a with
      | keepUevs => simp at h1
      | rank => rw [nsOptions]; exact ih _ h1' h2'
      | obj str =>
        obtain ⟨g1, g2⟩ := h2 str (by simp)
        obtain ⟨minmax, e1, -⟩ := C44_directions env.junk str st.dim g1 g2
        rw [nsOptions, e1]
        exact ih _ h1' h2'
  unfold nsMain
  rw [key good _ h1 h2]

/-- **C70 (defect)**: with one objective and without `-r` the hypervolume of one-dimensional points is computed, which is undefined behaviour. -/
theorem C70_one_objective_undefined (hs : ScanOk env.scan) (hsort : ∀ pp m, SortedFront pp m (env.sortFn pp m)) (text : List Char) (sets : List (List (List ℝ))) (h : TextSets env.scan text 1 sets)
    (args : List NsArg) (hargs : NsArgsOk 1 args) (hr : NsArg.rank ∉ args) (stdin : List Char) (files : List (List Char)) (hin : hvInputs stdin files = [text]) :
    nsMain env args stdin files = .undefined := by
  obtain ⟨points, rank, h1, h2, h3, h4⟩ := nsMain_eq hs hsort h
  rw [h4 args stdin files hargs hin, if_neg hr]
  have hsize : (nsCollect points 1 rank 1 (List.range sets.flatten.length) (⟨fun _ _ => 0, 0, fun _ => none, fun _ => none⟩ : NsFront ℝ)).size ≠ 0 := by
    rw [(nsCollect_spec points 1 rank 1 _ _).1, Nat.zero_add]
    obtain ⟨j, hj, hnd, -⟩ := exists_nondominated_weakDom 1 sets.flatten.length (fun _ => false) (rowsTable sets.flatten) 0 h3
    exact Nat.pos_iff_ne_zero.1 (List.length_pos_of_mem ((mem_filter_first h2).2 ⟨hj, hnd⟩))
  have : nsOrder env points 1 sets.flatten.length (fun _ => 0) rank = none := by
    unfold nsOrder
    dsimp only
    split_ifs with g1 g2
    · rfl
    · rfl
    · exact absurd ⟨hsize, by omega⟩ g2
  rw [this]
  rfl

/-! ### Examples and counterexamples -/

/-- **C70 is false for maximisation**: of the points (1, 1) and (2, 2) the first is reported to be the better one although both objectives are to be maximised. -/
theorem C70_false_directions (hsort : ∀ pp m, SortedFront pp m (env.sortFn pp m)) (hscan : env.scan = scanReal) :
    ∃ ranks, nsMain env [.rank, .obj "++".toList] [] ["1 1\n2 2\n".toList] = .exit 0 (ranks.map .rank) ∧ IsDirections "++".toList 2 (fun _ => true) ∧
      ¬ FrontsOf 2 (fun _ => true) [[1, 1], [2, 2]] ranks := by
  have h1 : TextSets scanReal "1 1\n2 2\n".toList 2 _ := (checkText_sound (sets := [[[1, 1], [2, 2]]]) (by decide +kernel)).scanMap _
  rw [← hscan] at h1
  have hok : NsArgsOk 2 [.rank, .obj "++".toList] := by
    refine ⟨by simp, ?_, ?_⟩
    · intro str h
      simp only [List.mem_cons, reduceCtorEq, NsArg.obj.injEq, List.not_mem_nil, or_false, false_or] at h
      subst h
      exact ⟨by decide, by decide⟩
    · intro str h
      have : some "++".toList = some str := h
      cases this
      rfl
  obtain ⟨ranks, e, hl, hf⟩ := C70_rank_partial (hscan ▸ scanReal_ok) hsort 2 _ _ h1 _ hok (by simp) [] ["1 1\n2 2\n".toList] rfl
  refine ⟨ranks, e, ⟨rfl, by intro k hk; interval_cases k <;> rfl⟩, ?_⟩
  rintro ⟨-, hg⟩
  have f0 := hf 0 (by simp)
  have g1 := hg 1 (by simp)
  have g0 := hg 0 (by simp)
  simp only [List.map_cons, List.map_nil, List.flatten_cons, List.flatten_nil, List.append_nil, Int.cast_one, Int.cast_ofNat] at f0
  -- minimising, the first point is in the first front
  have hm : InFront 2 2 (fun _ => false) (rowsTable [[(1 : ℝ), 1], [2, 2]]) 1 0 := by
    refine ⟨le_rfl, by simp [Remaining], ?_⟩
    intro j hj hd
    simp only [Nat.sub_self, Remaining] at hj
    obtain ⟨-, d, hd, hlt⟩ := hd
    simp only [StrictlyBetter, Bool.false_eq_true, if_false] at hlt
    interval_cases j <;> interval_cases d <;> norm_num [rowsTable] at hlt
  have e0 : ranks.getD 0 0 = 1 := inFront_unique f0 hm
  rw [e0] at g0
  -- maximising, it is not
  refine g0.2.2 1 (by simp [Remaining]) ⟨?_, 0, by omega, ?_⟩
  · intro k hk
    interval_cases k <;> norm_num [AtLeastAsGood, rowsTable]
  · norm_num [StrictlyBetter, rowsTable]

/-- The hypotheses can be met: three points in the first front and one dominated point. -/
example : ∃ env : NsEnv ℝ, ∃ orders x, nsMain env [.obj "--".toList] [] ["0 2\n1 1\n\n2 0\n3 3\n".toList] = .exit 0 (orders.map .order) ∧
    IsScaledFront 2 [[0, 2], [1, 1], [2, 0], [3, 3]] x ∧ OrdersOf 2 env.tol [[0, 2], [1, 1], [2, 0], [3, 3]] x orders := by
  obtain ⟨lib, hlib⟩ := exists_hvLib
  obtain ⟨sortFn, hsort⟩ := sortedFront_exists (α := ℝ)
  refine ⟨⟨scanReal, fun _ => 0, sortFn, fun _ => 0, lib, 1 / 1000000⟩, ?_⟩
  have h1 : TextSets scanReal "0 2\n1 1\n\n2 0\n3 3\n".toList 2 _ := (checkText_sound (sets := [[[0, 2], [1, 1]], [[2, 0], [3, 3]]]) (by decide +kernel)).scanMap _
  have := C70_order_partial (env := ⟨scanReal, fun _ => 0, sortFn, fun _ => 0, lib, 1 / 1000000⟩) scanReal_ok hsort hlib 2 le_rfl _ _ h1 [.obj "--".toList]
    ⟨by simp, by
      intro str h
      simp only [List.mem_cons, NsArg.obj.injEq, List.not_mem_nil, or_false] at h
      subst h
      exact ⟨by decide, by decide⟩, by
      intro str h
      have : some "--".toList = some str := h
      cases this
      rfl⟩ (by simp) [] ["0 2\n1 1\n\n2 0\n3 3\n".toList] rfl
  simpa using this

/-- An environment for computations, two objectives. -/
def nsRatEnv : NsEnv ℚ :=
  ⟨scanRat, fun _ => 0, fun pp m => (List.range m).insertionSort fun a b => point2dFrontCmp (pp a) (pp b) ≤ 0, fun _ => 7,
    fun pp _ n => ⟨(List.range n).insertionSort fun a b => compareXAscYAsc pp a b ≤ 0, fun _ => [], 0, ⟨fun _ _ => 0, fun _ _ => 0, fun _ => 0, fun _ _ => 0, fun _ _ => 0, fun _ => 0, AvlHeap.empty⟩⟩, 1 / 1000000⟩

/-- What the program writes. -/
def nsShow (r : ProgOut (NsLine ℚ)) : Option (ℕ × List ℚ) := r.toOption.map fun p => (p.1, p.2.map fun l => match l with | .rank r => (r : ℚ) | .order v => v)

/-- The contributions of the scaled points (0, 0.9), (0.45, 0.45) and (0.9, 0) are 0.045, 0.2025 and 0.045. -/
example : nsShow (nsMain nsRatEnv [] "0 2\n3 3\n1 1\n\n2 0\n4 4\n".toList []) = some (0, [1955 / 1000, 2, 17975 / 10000, 1955 / 1000, 3]) := by decide +kernel

/-- The ranks, with directions that are not obeyed. -/
example : nsShow (nsMain nsRatEnv [.rank, .obj "++".toList] "0 2\n3 3\n1 1\n\n2 0\n4 4\n".toList []) = some (0, [1, 2, 1, 1, 3]) := by decide +kernel

/-- A repeated point of the first front has the number of the second front. -/
example : nsShow (nsMain nsRatEnv [] "1 2\n1 2\n2 1\n3 3\n".toList []) = some (0, [2, 2, 191 / 100, 2]) := by decide +kernel

end

end Moo
