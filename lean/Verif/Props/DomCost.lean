import Verif.Lemmas.DomCost
import Verif.Props.ParetoRank
import Verif.Props.Nondominated

/-!
# C98: running time of dominance filtering, nondominated sorting and the epsilon indicators

`Runs m a B` says that the run `m` ends with the result `a` after at most `B` steps, where a step is one iteration of a loop (Verif/Model/DomCost.lean); the one call of
`qsort`, for two objectives, on `n` items, is not counted, so `O(n)` and `O(n log n)` steps below mean `O(n log n)` with a sort of that complexity.  The results are those of the models without
a count, about which C01-C10 and C17-C20 speak.
-/

set_option autoImplicit false
set_option linter.unusedSectionVars false

namespace Moo

section
variable {α : Type} [LinearOrder α] [Neg α]

/-- **C98, `is_nondominated`, two objectives**: `O(n)` steps besides the sort. -/
theorem C98_is_nondominated_2d (sortFn : (ℕ → ℕ → α) → ℕ → List ℕ) (garbage : ℕ → Bool) (data : ℕ → ℕ → α) (n : ℕ) (maximise : ℕ → Bool) (keepWeakly : Bool)
    (hsort : ∀ pp, SortedPP2d pp n (sortFn pp n)) :
    Runs (isNondominatedT sortFn garbage data 2 n maximise keepWeakly) (isNondominated sortFn garbage data 2 n maximise keepWeakly) (9 * n + 6) := by
  unfold isNondominatedT isNondominated
  refine ((nondomInitT_runs n).bind' (B2 := 8 * n + 6)) ?_ (by omega)
  refine ((minmaxFromBoolT_runs 2 maximise).bind' (B2 := 8 * n + 4)) ?_ (by omega)
  have key : Runs (findNondominatedSetT_ sortFn garbage data 2 n (minmaxFromBool maximise) AGREE_NONE nondomInit false keepWeakly)
      (findNondominatedSet_ sortFn garbage data 2 n (minmaxFromBool maximise) AGREE_NONE nondomInit false keepWeakly) (8 * n + 4) := by
    unfold findNondominatedSetT_ findNondominatedSet_
    by_cases h2 : n < 2
    · rw [if_pos h2, if_pos h2]; exact (Runs.ret _).mono (by omega)
    rw [if_neg h2, if_neg h2, if_pos rfl, if_pos rfl]
    have hf : Runs (forceAgreeMinimizeT data 2 n (minmaxFromBool maximise) AGREE_NONE) (forceAgreeMinimize data 2 (minmaxFromBool maximise) AGREE_NONE) (4 * n + 4) := by
      unfold forceAgreeMinimizeT
      refine Runs.ticksB (B := 4 * n + 2) ?_ (by omega)
      split_ifs
      · exact (Runs.ret _).mono (by omega)
      · exact Runs.ticksB (B := 2 * (n + 1)) (Runs.ticksB (Runs.ret _) (by omega)) (by omega)
    refine hf.bind' (B2 := 4 * n) ?_ (by omega)
    cases forceAgreeMinimize data 2 (minmaxFromBool maximise) AGREE_NONE with
    | none => exact (Runs.ret _).mono (by omega)
    | some pp =>
      simp only [Bool.false_eq_true, if_false]
      have := findNondominatedSet2dT_runs pp keepWeakly garbage nondomInit (sortFn pp n)
      rw [show (sortFn pp n).length = n by have := (hsort pp).1.length_eq; simpa using this] at this
      exact this.bind' (Runs.ret _) (by omega)
  refine key.bind' (B2 := 0) ?_ (by omega)
  cases findNondominatedSet_ sortFn garbage data 2 n (minmaxFromBool maximise) AGREE_NONE nondomInit false keepWeakly with
  | done r nd => exact Runs.ret _
  | assertFail => exact Runs.ret _

/-- **C98, `is_nondominated`, any other number `d` of objectives**: `O(d n²)` steps. -/
theorem C98_is_nondominated (sortFn : (ℕ → ℕ → α) → ℕ → List ℕ) (garbage : ℕ → Bool) (data : ℕ → ℕ → α) (d n : ℕ) (hd : d ≠ 2) (maximise : ℕ → Bool) (keepWeakly : Bool) :
    Runs (isNondominatedT sortFn garbage data d n maximise keepWeakly) (isNondominated sortFn garbage data d n maximise keepWeakly)
      (n * n * (d + 1) + 3 * n + d) := by
  unfold isNondominatedT isNondominated
  refine ((nondomInitT_runs n).bind' (B2 := n * n * (d + 1) + 2 * n + d)) ?_ (by omega)
  refine ((minmaxFromBoolT_runs d maximise).bind' (B2 := n * n * (d + 1) + 2 * n)) ?_ (by omega)
  have key : Runs (findNondominatedSetT_ sortFn garbage data d n (minmaxFromBool maximise) AGREE_NONE nondomInit false keepWeakly)
      (findNondominatedSet_ sortFn garbage data d n (minmaxFromBool maximise) AGREE_NONE nondomInit false keepWeakly) (n * n * (d + 1) + 2 * n) := by
    unfold findNondominatedSetT_ findNondominatedSet_
    by_cases h2 : n < 2
    · rw [if_pos h2, if_pos h2]; exact (Runs.ret _).mono (by omega)
    rw [if_neg h2, if_neg h2, if_neg hd, if_neg hd]
    have ho := ndOuterT_runs data d n (minmaxFromBool maximise) AGREE_NONE false keepWeakly (List.range (n - 1)) nondomInit
    rw [List.length_range] at ho
    have hle : (n - 1) * ((n - 1) * (d + 1) + 1) ≤ n * n * (d + 1) + n := by
      have h1 : (n - 1) * ((n - 1) * (d + 1) + 1) ≤ n * (n * (d + 1) + 1) :=
        Nat.mul_le_mul (by omega) (Nat.add_le_add_right (Nat.mul_le_mul_right _ (by omega)) _)
      calc _ ≤ _ := h1
        _ = _ := by ring
    refine (ho.mono hle).bind' (B2 := n) ?_ (by omega)
    cases ndOuter data d n (minmaxFromBool maximise) AGREE_NONE false keepWeakly (List.range (n - 1)) nondomInit with
    | assertFail => exact (Runs.ret _).mono (by omega)
    | ret r nd' => exact (Runs.ret _).mono (by omega)
    | cont nd' =>
      simp only [Bool.false_eq_true, if_false]
      exact (countFlagsT_runs nd' n).bind' (Runs.ret _) (by omega)
  refine key.bind' (B2 := 0) ?_ (by omega)
  cases findNondominatedSet_ sortFn garbage data d n (minmaxFromBool maximise) AGREE_NONE nondomInit false keepWeakly with
  | done r nd => exact Runs.ret _
  | assertFail => exact Runs.ret _

end

section
variable {α : Type} [LinearOrder α]

/-- **C98, `pareto_rank`, two objectives**: `O(n log n)` steps, the logarithm being to base 2 and rounded down. -/
theorem C98_pareto_rank_2d (sortFn : (ℕ → ℕ → α) → ℕ → List ℕ) (garbage : ℕ → ℕ) (fuel : ℕ) (pts : ℕ → ℕ → α) (n : ℕ) (hn : 0 < n)
    (hsort : ∀ pp, SortedFront pp n (sortFn pp n)) :
    Runs (paretoRankT sortFn garbage fuel pts 2 n) (paretoRank sortFn garbage fuel pts 2 n) (n * (Nat.log 2 n + 4)) := by
  unfold paretoRankT paretoRank
  rw [if_pos rfl, if_pos rfl]
  obtain ⟨rank, e, -⟩ := paretoRank2d_spec garbage pts n _ (hsort pts) hn
  rw [e]
  unfold paretoRank2d at e
  rw [if_neg (by omega)] at e
  unfold paretoRank2dT
  rw [if_neg (by omega)]
  simp only at e ⊢
  cases hl : rk2dLoop (fun k => pts ((sortFn pts n).getD k 0)) (List.range' 1 (n - 1)) ⟨0, fun _ => 0, fun _ => 0⟩ with
  | none => rw [hl] at e; cases e
  | some s =>
    rw [hl] at e
    simp only at e
    cases e
    have hr := rk2dLoopT_runs _ (Nat.log 2 n + 1) _ _ _ (by
      have := lt_two_pow_log n
      simp only [List.length_range', Nat.zero_add]; omega) hl
    rw [List.length_range'] at hr
    have hst := rk2dStoreT_runs s.f (sortFn pts n) 0 garbage
    rw [show (sortFn pts n).length = n by have := (hsort pts).1.length_eq; simpa using this] at hst
    have hle : (n - 1) * (Nat.log 2 n + 1 + 1) ≤ n * (Nat.log 2 n + 2) := Nat.mul_le_mul (by omega) (by omega)
    have he : n * (Nat.log 2 n + 4) = n * (Nat.log 2 n + 2) + 2 * n := by ring
    exact Runs.ticksB (B := n * (Nat.log 2 n + 2) + n) ((hr.mono hle).bind (hst.bind' (Runs.ret _) (by omega))) (by omega)

/-- **C98, `pareto_rank`, any other number `d` of objectives**: `O(d n³)` steps.  `fuel` is the bound the model needs for the loop over the levels; any number larger than `n`
will do, and the number of steps does not depend on it. -/
theorem C98_pareto_rank (sortFn : (ℕ → ℕ → α) → ℕ → List ℕ) (garbage : ℕ → ℕ) (fuel : ℕ) (pts : ℕ → ℕ → α) (d n : ℕ) (hd : d ≠ 2) (hf : n < fuel) :
    Runs (paretoRankT sortFn garbage fuel pts d n) (paretoRank sortFn garbage fuel pts d n) ((n + 1) * (n * (n * (2 * d + 1) + 1) + 2)) := by
  unfold paretoRankT paretoRank
  rw [if_neg hd, if_neg hd]
  obtain ⟨rank, e, h1⟩ := C08_general_peels pts d n (n + 1) (by omega)
  have hfe : paretoRankGeneral fuel pts d n = .done rank := by
    have key : ∀ (f0 fuel level : ℕ) (r0 : ℕ → ℕ), f0 ≤ fuel → rkLevels pts d n f0 level r0 = .done rank → rkLevels pts d n fuel level r0 = .done rank := by
      intro f0
      induction f0 with
      | zero => intro _ _ _ _ h; cases h
      | succ f0 ih =>
        intro fuel level r0 hle h
        obtain ⟨fuel, rfl⟩ : ∃ m, fuel = m + 1 := ⟨fuel - 1, by omega⟩
        rw [rkLevels] at h ⊢
        cases hr : rkPass pts d n level (List.range n) r0 true with
        | none => rw [hr] at h; cases h
        | some q =>
          obtain ⟨r1, nn⟩ := q
          rw [hr] at h
          cases nn with
          | true => exact h
          | false => exact ih fuel (level + 1) r1 (by omega) h
    exact key (n + 1) fuel 2 _ (by omega) e
  rw [hfe]
  have := rkLevelsT_runs pts d n (n + 1) fuel 2 _ (by omega) e
  exact Runs.ticksB this (by
    rw [show (n + 1) * (n * (n * (2 * d + 1) + 1) + 2) = (n + 1) * (n * (n * (2 * d + 1) + 1) + 1) + (n + 1) by ring]; omega)

end

section
variable {K : Type} [Field K] [LinearOrder K] [IsStrictOrderedRing K]

/-- **C98, `epsilon_additive`**: `O(d |A| |R|)` steps. -/
theorem C98_epsilon_additive (data ref : ℕ → ℕ → K) (d a r : ℕ) (maximise : ℕ → Bool) :
    Runs (epsilonAdditiveT data d a ref r maximise) (epsilonAdditive data d a ref r maximise) (r * (a * (d + 1) + 1) + d) := by
  have := forT_runs (g := fun m b => epsAddMinT d (minmaxFromBool maximise) data a (ref b) >>= fun x => Tm.ret (cMax m x))
    (f := fun m b => cMax m (epsAddMin d (minmaxFromBool maximise) data a (ref b))) (B := a * (d + 1))
    (fun m b => (epsAddMinT_runs d (minmaxFromBool maximise) data a (ref b)).bind' (Runs.ret _) (by omega)) (List.range r) ⊥
  rw [List.length_range] at this
  exact (minmaxFromBoolT_runs d maximise).bind' this (by omega)

/-- **C98, `epsilon_mult`**: `O(d |A| |R|)` steps, also when it ends with an error. -/
theorem C98_epsilon_mult (data ref : ℕ → ℕ → K) (d a r : ℕ) (maximise : ℕ → Bool) :
    Runs (epsilonMultT data d a ref r maximise) (epsilonMult data d a ref r maximise) (r * (a * (d + 1) + 1) + d) := by
  have := epsMultOuterT_runs d (minmaxFromBool maximise) data a ref (List.range r) (fin 0)
  rw [List.length_range] at this
  exact (minmaxFromBoolT_runs d maximise).bind' this (by omega)

end

/-! ### The hypotheses can be met -/

/-- For all sets of 1000 points with two objectives there is an order for `qsort` to leave, and with it sorting into fronts takes at most 13000 steps and filtering at most 9006. -/
example (pts : ℕ → ℕ → ℤ) (maximise : ℕ → Bool) : ∃ sortFn : (ℕ → ℕ → ℤ) → ℕ → List ℕ, (∀ pp m, SortedFront pp m (sortFn pp m)) ∧
    Runs (paretoRankT sortFn (fun _ => 0) 1001 pts 2 1000) (paretoRank sortFn (fun _ => 0) 1001 pts 2 1000) 13000 ∧
    Runs (isNondominatedT sortFn (fun _ => false) pts 2 1000 maximise true) (isNondominated sortFn (fun _ => false) pts 2 1000 maximise true) 9006 := by
  obtain ⟨sortFn, h⟩ := sortedPP2d_exists (β := ℤ)
  refine ⟨sortFn, h, (C98_pareto_rank_2d sortFn _ _ pts 1000 (by omega) (fun pp => h pp 1000)).mono ?_, C98_is_nondominated_2d sortFn _ pts 1000 maximise true (fun pp => h pp 1000)⟩
  rw [show Nat.log 2 1000 = 9 from (Nat.log_eq_iff (by omega)).2 ⟨by norm_num, by norm_num⟩]

/-- Complete runs. Eight points in six fronts: 29 steps, six of them in the binary searches for the last two points. -/
example : (paretoRankT (fun _ _ => [0, 1, 2, 3, 4, 5, 6, 7]) (fun _ => 0) 9 (tab [[0, 0], [1, 1], [2, 2], [3, 3], [4, 4], [5, 5], [6, 4], [7, 0]]) 2 8).map
      (fun q => match q.1 with | .done r => some ((List.range 8).map r, q.2) | _ => none) = some (some ([1, 2, 3, 4, 5, 6, 6, 2], 29)) := by decide +kernel

example : (isNondominatedT (fun _ _ => [1, 3, 0, 2]) (fun _ => false) (tab [[1, 2], [0, 3], [2, 2], [0, 3]]) 2 4 (fun _ => false) false).map
      (fun q => (q.1.map fun nd => (List.range 4).map nd, q.2)) = some (some [true, true, false, false], 24) := by decide +kernel

example : (epsilonAdditiveT (fun i k => (tab [[1, 2], [0, 3], [2, 2]] i k : ℚ)) 2 3 (fun i k => (tab [[1, 1], [0, 2]] i k : ℚ)) 2 (fun _ => false) : Tm (Ext ℚ)).map id =
    some (fin 1, 22) := by decide +kernel

end Moo
