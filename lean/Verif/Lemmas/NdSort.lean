import Verif.Model.NdSort
import Verif.Lemmas.Cli
import Verif.Props.ParetoRank
import Verif.Props.HvWrappers
import Verif.Props.HvMain
import Verif.Props.Options
import Verif.Lemmas.NdMain

/-!
# Lemmas about the program `ndsort`
-/

set_option autoImplicit false
set_option linter.unusedSectionVars false

namespace Moo

section
variable {K : Type*} [LinearOrder K]

theorem nsCollect_spec (points : ℕ → ℕ → K) (dim : ℕ) (rank : ℕ → ℕ) (i : ℕ) : ∀ (ks : List ℕ) (f : NsFront K),
    (nsCollect points dim rank i ks f).size = f.size + (ks.filter fun k => decide (rank k = i)).length ∧
    (∀ j < f.size, (nsCollect points dim rank i ks f).data j = f.data j) ∧
    (∀ j (hj : j < (ks.filter fun k => decide (rank k = i)).length), (nsCollect points dim rank i ks f).data (f.size + j) = points (ks.filter fun k => decide (rank k = i))[j]) ∧
    ∀ d < dim, (nsCollect points dim rank i ks f).lbound d = (ks.filter fun k => decide (rank k = i)).foldl (fun b k => nsLower b (points k d)) (f.lbound d) ∧
      (nsCollect points dim rank i ks f).ubound d = (ks.filter fun k => decide (rank k = i)).foldl (fun b k => nsUpper b (points k d)) (f.ubound d) := by
  intro ks
  induction ks with
  | nil => intro f; simp [nsCollect]
  | cons k ks ih =>
    intro f
    rw [nsCollect]
    by_cases h : rank k = i
    · rw [if_neg (by simpa using h)]
      obtain ⟨h1, h2, h3, h4⟩ := ih ⟨upd f.data f.size (points k), f.size + 1, fun d => if d < dim then nsLower (f.lbound d) (points k d) else f.lbound d,
          fun d => if d < dim then nsUpper (f.ubound d) (points k d) else f.ubound d⟩
      simp only at h1 h2 h3 h4
      have hf : (k :: ks).filter (fun k => decide (rank k = i)) = k :: ks.filter (fun k => decide (rank k = i)) := by simp [h]
      rw [hf]
      refine ⟨by rw [h1, List.length_cons]; omega, ?_, ?_, ?_⟩
      · intro j hj
        rw [h2 j (by omega)]
        exact upd_ne _ _ (by omega)
      · intro j hj
        cases j with
        | zero =>
          rw [show f.size + 0 = f.size from rfl, h2 f.size (by omega)]
          simp
        | succ j =>
          have := h3 j (by simpa using hj)
          rw [show f.size + (j + 1) = f.size + 1 + j by omega, this]
          simp
      · intro d hd
        obtain ⟨g1, g2⟩ := h4 d hd
        rw [g1, g2]
        simp [hd]
    · rw [if_pos (by simpa using h)]
      have hf : (k :: ks).filter (fun k => decide (rank k = i)) = ks.filter (fun k => decide (rank k = i)) := by simp [h]
      rw [hf]
      exact ih f

theorem foldl_nsLower (v : ℕ → K) : ∀ (L : List ℕ) (b : Option K), (L ≠ [] ∨ b ≠ none) →
    ∃ m, L.foldl (fun b k => nsLower b (v k)) b = some m ∧ IsLeast ({x | b = some x} ∪ {x | ∃ k ∈ L, v k = x}) m := by
  intro L
  induction L with
  | nil =>
    intro b h
    cases b with
    | none => simp at h
    | some b => exact ⟨b, rfl, by simp [IsLeast, lowerBounds]⟩
  | cons k L ih =>
    intro b _
    rw [List.foldl_cons]
    have hne : nsLower b (v k) ≠ none := by unfold nsLower; split; · simp
                                            split_ifs <;> simp
    obtain ⟨m, h1, h2, h3⟩ := ih (nsLower b (v k)) (Or.inr hne)
    refine ⟨m, h1, ?_, ?_⟩
    · rcases h2 with h2 | ⟨j, hj, h2⟩
      · simp only [Set.mem_ofPred_eq] at h2
        unfold nsLower at h2
        cases b with
        | none => simp only [Option.some.injEq] at h2; exact Or.inr ⟨k, by simp, h2⟩
        | some b =>
          simp only at h2
          split_ifs at h2 <;> simp only [Option.some.injEq] at h2
          · exact Or.inr ⟨k, by simp, h2⟩
          · exact Or.inl (by simp [h2])
      · exact Or.inr ⟨j, by simp [hj], h2⟩
    · have hle : ∃ l, nsLower b (v k) = some l ∧ l ≤ v k ∧ ∀ x, b = some x → l ≤ x := by
        cases b with
        | none => exact ⟨v k, rfl, le_rfl, by simp⟩
        | some b =>
          by_cases hlt : b > v k
          · exact ⟨v k, by simp [nsLower, hlt], le_rfl, by rintro x ⟨⟩; exact hlt.le⟩
          · exact ⟨b, by simp [nsLower, hlt], not_lt.1 hlt, by rintro x ⟨⟩; exact le_rfl⟩
      obtain ⟨l, e1, e2, e3⟩ := hle
      have hml : m ≤ l := h3 (Or.inl e1)
      rintro x (hx | ⟨j, hj, rfl⟩)
      · exact hml.trans (e3 x hx)
      · rcases List.mem_cons.1 hj with rfl | hj
        · exact hml.trans e2
        · exact h3 (Or.inr ⟨j, hj, rfl⟩)

theorem foldl_nsUpper (v : ℕ → K) : ∀ (L : List ℕ) (b : Option K), (L ≠ [] ∨ b ≠ none) →
    ∃ m, L.foldl (fun b k => nsUpper b (v k)) b = some m ∧ IsGreatest ({x | b = some x} ∪ {x | ∃ k ∈ L, v k = x}) m := by
  intro L
  induction L with
  | nil =>
    intro b h
    cases b with
    | none => simp at h
    | some b => exact ⟨b, rfl, by simp [IsGreatest, upperBounds]⟩
  | cons k L ih =>
    intro b _
    rw [List.foldl_cons]
    have hne : nsUpper b (v k) ≠ none := by unfold nsUpper; split; · simp
                                            split_ifs <;> simp
    obtain ⟨m, h1, h2, h3⟩ := ih (nsUpper b (v k)) (Or.inr hne)
    refine ⟨m, h1, ?_, ?_⟩
    · rcases h2 with h2 | ⟨j, hj, h2⟩
      · simp only [Set.mem_ofPred_eq] at h2
        unfold nsUpper at h2
        cases b with
        | none => simp only [Option.some.injEq] at h2; exact Or.inr ⟨k, by simp, h2⟩
        | some b =>
          simp only at h2
          split_ifs at h2 <;> simp only [Option.some.injEq] at h2
          · exact Or.inr ⟨k, by simp, h2⟩
          · exact Or.inl (by simp [h2])
      · exact Or.inr ⟨j, by simp [hj], h2⟩
    · have hle : ∃ l, nsUpper b (v k) = some l ∧ v k ≤ l ∧ ∀ x, b = some x → x ≤ l := by
        cases b with
        | none => exact ⟨v k, rfl, le_rfl, by simp⟩
        | some b =>
          by_cases hlt : b < v k
          · exact ⟨v k, by simp [nsUpper, hlt], le_rfl, by rintro x ⟨⟩; exact hlt.le⟩
          · exact ⟨b, by simp [nsUpper, hlt], not_lt.1 hlt, by rintro x ⟨⟩; exact le_rfl⟩
      obtain ⟨l, e1, e2, e3⟩ := hle
      have hml : l ≤ m := h3 (Or.inl e1)
      rintro x (hx | ⟨j, hj, rfl⟩)
      · exact (e3 x hx).trans hml
      · rcases List.mem_cons.1 hj with rfl | hj
        · exact e2.trans hml
        · exact h3 (Or.inr ⟨j, hj, rfl⟩)

end

section
variable {K : Type*} [Field K] [LinearOrder K]

theorem nsAdd_ne (rank : ℕ → ℕ) (i : ℕ) (hvc : ℕ → K) (k' : ℕ) : ∀ (ks : List ℕ) (j : ℕ) (order : ℕ → K), (k' ∉ ks ∨ rank k' ≠ i) →
    nsAdd rank i hvc ks j order k' = order k' := by
  intro ks
  induction ks with
  | nil => intro j order _; rfl
  | cons k ks ih =>
    intro j order h
    have h' : k' ∉ ks ∨ rank k' ≠ i := h.imp (fun h hm => h (by simp [hm])) id
    rw [nsAdd]
    split_ifs with hk
    · exact ih j order h'
    · rw [ih _ _ h']
      apply upd_ne
      rintro rfl
      rcases h with h | h
      · simp at h
      · exact h (by simpa using hk)

theorem nsAdd_eq (rank : ℕ → ℕ) (i : ℕ) (hvc : ℕ → K) : ∀ (ks : List ℕ) (j : ℕ) (order : ℕ → K), ks.Nodup →
    ∀ p (hp : p < (ks.filter fun k => decide (rank k = i)).length),
      nsAdd rank i hvc ks j order (ks.filter fun k => decide (rank k = i))[p] = order (ks.filter fun k => decide (rank k = i))[p] + (1 - hvc (j + p)) := by
  intro ks
  induction ks with
  | nil => intro j order _ p hp; simp at hp
  | cons k ks ih =>
    intro j order hnd p hp
    obtain ⟨hk, hnd⟩ := List.nodup_cons.1 hnd
    rw [nsAdd]
    by_cases h : rank k = i
    · have hf : (k :: ks).filter (fun k => decide (rank k = i)) = k :: ks.filter (fun k => decide (rank k = i)) := by simp [h]
      rw [if_neg (by simpa using h)]
      simp only [hf] at hp ⊢
      cases p with
      | zero =>
        simp only [List.getElem_cons_zero, Nat.add_zero]
        rw [nsAdd_ne _ _ _ _ _ _ _ (Or.inl hk), upd_same]
      | succ p =>
        simp only [List.getElem_cons_succ]
        have hp' : p < (ks.filter fun k => decide (rank k = i)).length := by simpa using hp
        rw [ih (j + 1) _ hnd p hp', upd_ne]
        · rw [show j + 1 + p = j + (p + 1) by omega]
        · intro he
          exact hk (he ▸ List.mem_of_mem_filter (List.getElem_mem hp'))
    · have hf : (k :: ks).filter (fun k => decide (rank k = i)) = ks.filter (fun k => decide (rank k = i)) := by simp [h]
      rw [if_pos (by simpa using h)]
      simp only [hf] at hp ⊢
      exact ih j order hnd p hp

end

/-- The points of rank 1 are those of the first front. -/
theorem inFront_one_iff {n : ℕ} {s : List (List ℝ)} {i : ℕ} (_hi : i < s.length) : InFront n s.length (fun _ => false) (rowsTable s) 1 i ↔ i ∈ firstFront n s := by
  unfold InFront firstFront
  simp only [Nat.sub_self, Remaining, le_refl, true_and, Set.mem_ofPred_eq]
  exact ⟨fun h => ⟨h.1, fun j hj => h.2 j hj⟩, fun h => ⟨h.1, fun j hj => h.2 j hj⟩⟩

/-- The numbers of the points of the first front. -/
theorem mem_filter_first {n : ℕ} {s : List (List ℝ)} {rank : ℕ → ℕ} (hrank : ∀ i < s.length, InFront n s.length (fun _ => false) (rowsTable s) (rank i) i) {i : ℕ} :
    i ∈ (List.range s.length).filter (fun k => decide (rank k = 1)) ↔ i ∈ firstFront n s := by
  rw [List.mem_filter, List.mem_range]
  constructor
  · rintro ⟨h1, h2⟩
    have := hrank i h1
    rw [of_decide_eq_true h2] at this
    exact (inFront_one_iff h1).1 this
  · intro h
    exact ⟨h.1, decide_eq_true (inFront_unique (hrank i h.1) ((inFront_one_iff h.1).2 h))⟩

/-- The array `order`. -/
theorem nsOrder_eq {env : NsEnv ℝ} (hlib : HvLibOk env.lib) {n : ℕ} (hn : 2 ≤ n) {s : List (List ℝ)} {points : ℕ → ℕ → ℝ}
    (hpoints : ∀ i < s.length, ∀ k < n, points i k = rowsTable s i k) (minmax : ℕ → ℤ) {rank : ℕ → ℕ}
    (hrank : ∀ i < s.length, InFront n s.length (fun _ => false) (rowsTable s) (rank i) i) (hfirst : (firstFront n s).Nonempty) :
    ∃ order x, nsOrder env points n s.length minmax rank = some order ∧ IsScaledFront n s x ∧ OrdersOf n env.tol s x ((List.range s.length).map order) := by
  set L := (List.range s.length).filter (fun k => decide (rank k = 1)) with hL
  have hLm : ∀ i, i ∈ L ↔ i ∈ firstFront n s := fun i => mem_filter_first hrank
  have hLne : L ≠ [] := by
    obtain ⟨i, hi⟩ := hfirst
    exact List.ne_nil_of_mem ((hLm i).2 hi)
  obtain ⟨c1, -, c3, c4⟩ := nsCollect_spec points n rank 1 (List.range s.length) (⟨fun _ _ => 0, 0, fun _ => none, fun _ => none⟩ : NsFront ℝ)
  rw [← hL] at c1 c3 c4
  set f := nsCollect points n rank 1 (List.range s.length) (⟨fun _ _ => 0, 0, fun _ => none, fun _ => none⟩ : NsFront ℝ) with hf
  simp only [Nat.zero_add] at c1 c3
  -- the bounds
  have himg : ∀ k < n, ({x | (none : Option ℝ) = some x} ∪ {x | ∃ i ∈ L, points i k = x}) = (fun i => rowsTable s i k) '' firstFront n s := by
    intro k hk
    ext v
    simp only [reduceCtorEq, Set.ofPred_false, Set.empty_union, Set.mem_ofPred_eq, Set.mem_image]
    constructor
    · rintro ⟨i, hi, rfl⟩
      have := (hLm i).1 hi
      exact ⟨i, this, (hpoints i this.1 k hk).symm⟩
    · rintro ⟨i, hi, rfl⟩
      exact ⟨i, (hLm i).2 hi, hpoints i hi.1 k hk⟩
  have hb : ∀ k < n, ∃ m M, f.lbound k = some m ∧ f.ubound k = some M ∧ IsLeast ((fun i => rowsTable s i k) '' firstFront n s) m ∧
      IsGreatest ((fun i => rowsTable s i k) '' firstFront n s) M := by
    intro k hk
    obtain ⟨m, e1, e2⟩ := foldl_nsLower (fun i => points i k) L none (Or.inl hLne)
    obtain ⟨M, g1, g2⟩ := foldl_nsUpper (fun i => points i k) L none (Or.inl hLne)
    rw [himg k hk] at e2 g2
    exact ⟨m, M, (c4 k hk).1.trans e1, (c4 k hk).2.trans g1, e2, g2⟩
  set x : ℕ → ℕ → ℝ := fun i k => if (f.lbound k).getD 0 = (f.ubound k).getD 0 then 0 else 9 / 10 * ((rowsTable s i k - (f.lbound k).getD 0) / ((f.ubound k).getD 0 - (f.lbound k).getD 0)) with hx
  have hscaled : IsScaledFront n s x := by
    intro k hk
    obtain ⟨m, M, e1, e2, e3, e4⟩ := hb k hk
    refine ⟨m, M, e3, e4, fun i _ => ?_⟩
    simp only [hx, e1, e2, Option.getD_some]
  set data := normalise f.data n f.size minmax 0 0 (9 / 10) (fun d => (f.lbound d).getD 0) (fun d => (f.ubound d).getD 0) with hdata
  have hdx : ∀ j (hj : j < L.length), ∀ k < n, data j k = x L[j] k := by
    intro j hj k hk
    have hm := (hLm L[j]).1 (List.getElem_mem hj)
    rw [hdata]
    unfold normalise
    rw [if_pos ⟨by omega, hk⟩, if_neg (by simp [flipObjective]), c3 j hj, hpoints _ hm.1 k hk]
    simp only [hx, normDiff]
    obtain ⟨m, M, e1, e2, e3, e4⟩ := hb k hk
    simp only [e1, e2, Option.getD_some, sub_zero, zero_add]
    by_cases hmM : m = M
    · have h1 := e3.2 ⟨_, hm, rfl⟩
      have h2 := e4.2 ⟨_, hm, rfl⟩
      simp only at h1 h2
      rw [if_pos hmM, if_pos (by rw [hmM]; ring), show rowsTable s L[j] k = m by linarith]
      ring
    · rw [if_neg hmM, if_neg (fun h => hmM (by linarith))]
      ring
  have hreg : dominatedRegion n L.length data (fun _ => 1) = unitRegion n x (firstFront n s) := by
    ext y
    refine and_congr_left fun _ => ?_
    constructor
    · rintro ⟨j, hj, h⟩
      exact ⟨L[j], (hLm _).1 (List.getElem_mem hj), fun k => by rw [← hdx j hj k k.2]; exact h k⟩
    · rintro ⟨i, hi, h⟩
      obtain ⟨j, hj, rfl⟩ := List.getElem_of_mem ((hLm i).2 hi)
      exact ⟨j, hj, fun k => by rw [hdx j hj k k.2]; exact h k⟩
  have hnd : L.Nodup := List.nodup_range.filter _
  have hregw : ∀ j (hj : j < L.length), dominatedRegionWithout n L.length data (fun _ => 1) j = unitRegion n x (firstFront n s \ {L[j]}) := by
    intro j hj
    ext y
    refine and_congr_left fun _ => ?_
    constructor
    · rintro ⟨r, hr, hrj, h⟩
      refine ⟨L[r], ⟨(hLm _).1 (List.getElem_mem hr), ?_⟩, fun k => by rw [← hdx r hr k k.2]; exact h k⟩
      intro he
      exact hrj ((List.Nodup.getElem_inj_iff hnd).1 he)
    · rintro ⟨i, ⟨hi, hij⟩, h⟩
      obtain ⟨r, hr, rfl⟩ := List.getElem_of_mem ((hLm i).2 hi)
      refine ⟨r, hr, ?_, fun k => by rw [hdx r hr k k.2]; exact h k⟩
      rintro rfl
      exact hij rfl
  have hsz : f.size = L.length := c1
  refine ⟨nsAdd rank 1 (hvContribution data n f.size (fun _ => 1) env.tol (env.lib data n f.size) (fun i => env.lib (replaceRow data (fun _ => 1) i) n f.size))
      (List.range s.length) 0 (fun k => (rank k : ℝ)), x, ?_, hscaled, ?_, ?_, ?_⟩
  · unfold nsOrder
    rw [← hf]
    dsimp only
    rw [if_neg, ← hdata, if_neg (by omega)]
    rw [Bool.not_eq_true, List.any_eq_false]
    intro k hk
    obtain ⟨m, M, e1, e2, -⟩ := hb k (List.mem_range.1 hk)
    simp [e1, e2]
  · simp
  · intro i hi r hr h1
    have hri : rank i = r := inFront_unique (hrank i hi) hr
    rw [List.getD_eq_getElem?_getD, List.getElem?_map, List.getElem?_range hi]
    simp only [Option.map_some, Option.getD_some]
    rw [nsAdd_ne _ _ _ _ _ _ _ (Or.inr (by omega)), hri]
  · intro i hi
    obtain ⟨j, hj, rfl⟩ := List.getElem_of_mem ((hLm i).2 hi)
    rw [List.getD_eq_getElem?_getD, List.getElem?_map, List.getElem?_range hi.1]
    simp only [Option.map_some, Option.getD_some]
    have hadd := nsAdd_eq rank 1 (hvContribution data n f.size (fun _ => 1) env.tol (env.lib data n f.size) (fun i => env.lib (replaceRow data (fun _ => 1) i) n f.size))
      (List.range s.length) 0 (fun k => (rank k : ℝ)) List.nodup_range j hj
    have hc := (C16_contribution_is_exclusive_volume_partial n f.size hn data (fun _ => 1) env.tol (env.lib data n f.size) (fun i => env.lib (replaceRow data (fun _ => 1) i) n f.size)
      (hlib data n f.size).1 (fun i _ => (hlib _ n f.size).1) (Or.inr ⟨hlib.ties data n f.size, fun i _ => hlib.ties _ n f.size⟩) j (by omega)).1
    rw [Nat.zero_add, hc, hsz, hreg, hregw j hj] at hadd
    rw [hsz]
    refine hadd.trans ?_
    have hr1 : rank L[j] = 1 := of_decide_eq_true (List.mem_filter.1 (List.getElem_mem hj)).2
    have hr1' : rank ((List.range s.length).filter (fun k => decide (rank k = 1)))[j] = 1 := hr1
    rw [hr1']
    unfold frontContribution
    push_cast
    ring

theorem remaining_congr {n size : ℕ} {mx : ℕ → Bool} {p q : ℕ → ℕ → ℝ} (h : ∀ i < size, ∀ k < n, p i k = q i k) : ∀ r i, Remaining n size mx p r i → Remaining n size mx q r i := by
  have hlt : ∀ r i, Remaining n size mx p r i → i < size := by
    intro r
    induction r with
    | zero => intro i hi; exact hi
    | succ r ih => intro i hi; exact ih i hi.1
  intro r
  induction r with
  | zero => intro i hi; exact hi
  | succ r ih =>
    rintro i ⟨h1, j, h2, h3⟩
    exact ⟨ih i h1, j, ih j h2, (dom_congr (fun _ _ => rfl) (h j (hlt r j h2)) (h i (hlt r i h1))).1 h3⟩

theorem remaining_lt {n size : ℕ} {mx : ℕ → Bool} {p : ℕ → ℕ → ℝ} : ∀ r i, Remaining n size mx p r i → i < size := by
  intro r
  induction r with
  | zero => intro i hi; exact hi
  | succ r ih => intro i hi; exact ih i hi.1

theorem inFront_congr {n size : ℕ} {mx : ℕ → Bool} {p q : ℕ → ℕ → ℝ} (h : ∀ i < size, ∀ k < n, p i k = q i k) {r i : ℕ} (hi : InFront n size mx p r i) : InFront n size mx q r i := by
  obtain ⟨h1, h2, h3⟩ := hi
  refine ⟨h1, remaining_congr h _ _ h2, fun j hj hd => ?_⟩
  have h' : ∀ i < size, ∀ k < n, q i k = p i k := fun i hi k hk => (h i hi k hk).symm
  exact h3 j (remaining_congr h' _ _ hj) ((dom_congr (fun _ _ => rfl) (h' j (remaining_lt _ _ hj)) (h' i (remaining_lt _ _ h2))).1 hd)

/-- The options are accepted, for `n` objectives: `-k` is not given, and the arguments of `-o` are directions, with one for every objective in the last of them. -/
def NsArgsOk (n : ℕ) (args : List NsArg) : Prop :=
  NsArg.keepUevs ∉ args ∧ (∀ str, NsArg.obj str ∈ args → (∀ c ∈ str, directionOf c ≠ none) ∧ ∃ c ∈ str, directionOf c ≠ some 0) ∧
    ∀ str, (args.filterMap NsArg.obj?).getLast? = some str → str.length = n

theorem nsOptions_ok (junk : ℕ → ℤ) : ∀ (args : List NsArg) (st : NsSt), NsArg.keepUevs ∉ args →
    (∀ str, NsArg.obj str ∈ args → (∀ c ∈ str, directionOf c ≠ none) ∧ ∃ c ∈ str, directionOf c ≠ some 0) →
    ∃ mm, nsOptions junk st args = .ok ⟨st.onlyRank || decide (NsArg.rank ∈ args), ((args.filterMap NsArg.obj?).getLast?.map List.length).getD st.dim, mm⟩ := by
  intro args
  induction args with
  | nil => intro st _ _; exact ⟨st.minmax, by simp [nsOptions]⟩
  | cons a args ih =>
    intro st h1 h2
    have h1' : NsArg.keepUevs ∉ args := fun h => h1 (by simp [h])
    have h2' := fun str h => h2 str (List.mem_cons_of_mem _ h)
    cases a with
    | keepUevs => simp at h1
    | rank =>
      rw [nsOptions]
      obtain ⟨mm, e⟩ := ih { st with onlyRank := true } h1' h2'
      exact ⟨mm, by rw [e]; simp [NsArg.obj?]⟩
    | obj str =>
      rw [nsOptions]
      obtain ⟨g1, g2⟩ := h2 str (by simp)
      obtain ⟨minmax, e1, -⟩ := C44_directions junk str st.dim g1 g2
      rw [e1]
      obtain ⟨mm, e⟩ := ih { st with dim := str.length, minmax := some minmax } h1' h2'
      refine ⟨mm, ?_⟩
      dsimp only
      rw [e]
      have hr : decide (NsArg.rank ∈ NsArg.obj str :: args) = decide (NsArg.rank ∈ args) := by simp
      have hf : (NsArg.obj str :: args).filterMap NsArg.obj? = str :: args.filterMap NsArg.obj? := by simp [NsArg.obj?]
      rw [hr, hf]
      cases hl : args.filterMap NsArg.obj? with
      | nil => simp
      | cons b l => rw [List.getLast?_cons_cons, List.getLast?_eq_getLast_of_ne_nil (List.cons_ne_nil b l)]; simp

/-- With the same points, `minmax` has no effect. -/
theorem nsOrder_minmax {K : Type*} [Field K] [LinearOrder K] (env : NsEnv K) (points : ℕ → ℕ → K) (dim size : ℕ) (m m' : ℕ → ℤ) (rank : ℕ → ℕ) :
    nsOrder env points dim size m rank = nsOrder env points dim size m' rank := by
  have hn : ∀ (p : ℕ → ℕ → K) (size : ℕ) (l u : ℕ → K), normalise p dim size m 0 0 (9 / 10) l u = normalise p dim size m' 0 0 (9 / 10) l u := by
    intro p size l u
    funext k d
    simp [normalise, flipObjective]
  unfold nsOrder
  simp only [hn]

/-- What the program does with a readable input. -/
theorem nsMain_eq {env : NsEnv ℝ} (hs : ScanOk env.scan) (hsort : ∀ pp m, SortedFront pp m (env.sortFn pp m)) {n : ℕ} {text : List Char} {sets : List (List (List ℝ))}
    (h : TextSets env.scan text n sets) :
    ∃ (points : ℕ → ℕ → ℝ) (rank : ℕ → ℕ), (∀ i < sets.flatten.length, ∀ k < n, points i k = rowsTable sets.flatten i k) ∧
      (∀ i < sets.flatten.length, InFront n sets.flatten.length (fun _ => false) (rowsTable sets.flatten) (rank i) i) ∧ 0 < sets.flatten.length ∧
      ∀ (args : List NsArg) (stdin : List Char) (files : List (List Char)), NsArgsOk n args → hvInputs stdin files = [text] →
        nsMain env args stdin files = if NsArg.rank ∈ args then .exit 0 ((List.range sets.flatten.length).map fun k => .rank (rank k))
          else (nsOrder env points n sets.flatten.length (fun _ => 0) rank).elim .undefined fun order => .exit 0 ((List.range sets.flatten.length).map fun k => .order (order k)) := by
  obtain ⟨hn0, hne, hne', hlen⟩ := h.shape
  have hpos : 0 < sets.flatten.length := flatten_pos h
  set points := blockTable (fun j => sets.flatten.flatten.getD j 0) n 0 with hpts
  have hpoints : ∀ i < sets.flatten.length, ∀ k < n, points i k = rowsTable sets.flatten i k := (holdsSets_flatten hlen).union.block
  obtain ⟨rank, e, hrank⟩ := C08_pareto_rank_peels env.sortFn env.garbage points n sets.flatten.length (sets.flatten.length + 1) (by omega) (fun _ => hpos) (fun pp => hsort pp _)
  refine ⟨points, rank, hpoints, fun i hi => inFront_congr hpoints (hrank i hi), hpos, ?_⟩
  intro args stdin files ⟨h1, h2, h3⟩ hin
  have hcum : (cumFrom 0 (sets.map List.length)).getLastD 0 = sets.flatten.length := by
    rw [getLastD_cumFrom _ _ (by simpa using hne), Nat.zero_add, List.length_flatten]
  have hfile : ∀ (onlyRank : Bool) (dim : ℕ) (mm : Option (ℕ → ℤ)), (dim = 0 ∨ dim = n) → nsFile env ⟨onlyRank, dim, mm⟩ text =
      if onlyRank = true then .exit 0 ((List.range sets.flatten.length).map fun k => .rank (rank k))
          else (nsOrder env points n sets.flatten.length (fun _ => 0) rank).elim .undefined fun order => .exit 0 ((List.range sets.flatten.length).map fun k => .order (order k)) := by
    intro onlyRank dim mm hdim
    unfold nsFile
    rw [readFile_ok hs h hdim]
    dsimp only
    rw [hcum, ← hpts, e]
    dsimp only
    rw [nsOrder_minmax env points n _ _ (fun _ => 0) rank]
    cases nsOrder env points n sets.flatten.length (fun _ => 0) rank <;> rfl
  obtain ⟨mm, eo⟩ := nsOptions_ok env.junk args ⟨false, 0, none⟩ h1 h2
  have hdim : ((args.filterMap NsArg.obj?).getLast?.map List.length).getD 0 = 0 ∨ ((args.filterMap NsArg.obj?).getLast?.map List.length).getD 0 = n := by
    cases hl : (args.filterMap NsArg.obj?).getLast? with
    | none => exact Or.inl rfl
    | some str => exact Or.inr (by simpa using h3 str hl)
  unfold nsMain
  rw [eo]
  have hf := hfile (false || decide (NsArg.rank ∈ args)) _ mm hdim
  unfold hvInputs at hin
  cases files with
  | nil =>
    rw [if_pos rfl, List.cons.injEq] at hin
    dsimp only
    rw [hin.1, hf]
    simp only [Bool.false_or, decide_eq_true_eq]
  | cons f fs =>
    rw [if_neg (by simp), List.cons.injEq] at hin
    obtain ⟨rfl, rfl⟩ := hin
    dsimp only
    rw [hf]
    simp only [Bool.false_or, decide_eq_true_eq]

end Moo
