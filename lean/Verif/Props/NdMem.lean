import Verif.Lemmas.NdMemLink
import Verif.Props.ParetoRank

set_option autoImplicit false
set_option linter.unusedSectionVars false

/-!
# Memory safety of dominance filtering and nondominated sorting, for arbitrary doubles

`flatPts x dim size` is the block of `dim * size` doubles in row-major order that the caller passes; `cells f n` is a block of `n` cells all of which
hold a value.  The comparisons `c` are arbitrary, so the theorems hold whatever the doubles are, NaN included.  The only thing assumed of
`qsort` is that it permutes its array.  A run that reads or writes outside of a block, reads a cell that was not written, fails an
assertion or does not end within the stated number of passes is an `.error`.
-/

namespace Moo

section
variable {F : Type}

/-- **C103.** `is_nondominated` accesses memory correctly, fails no assertion and sets every flag, whatever the doubles are. -/
theorem C103_is_nondominated_safe (c : FCmp F) (neg : F → F) (sortFn : Blk F → List ℕ → List ℕ) (x : ℕ → ℕ → F) (dim size : ℕ)
    (mx : ℕ → Bool) (keepWeakly : Bool) (hs : ∀ b, (sortFn b (List.range size)).Perm (List.range size)) :
    ∃ nd, isNondominatedM c neg sortFn (flatPts x dim size) dim size (cells mx dim) keepWeakly = .ok (cells nd size) :=
  ⟨_, isNondominatedM_ok c neg sortFn x dim size mx keepWeakly (fun _ => false) hs⟩

/-- **C103.** So does `find_dominated_point`, and what it returns is -1 or the number of a row.  (With two objectives none may be ignored, see
`C103_false_ignored`.) -/
theorem C103_find_dominated_safe (c : FCmp F) (neg : F → F) (sortFn : Blk F → List ℕ → List ℕ) (x : ℕ → ℕ → F) (dim size : ℕ)
    (minmax : ℕ → ℤ) (hmm : dim = 2 → ∀ d < 2, minmax d ≠ 0) (hs : ∀ b, (sortFn b (List.range size)).Perm (List.range size)) :
    ∃ r : ℤ, findDominatedPointM c neg sortFn (flatPts x dim size) dim size (cells minmax dim) = .ok r ∧
      (2 ≤ size → r = -1 ∨ ∃ i < size, r = i) :=
  findDominatedPointM_ok c neg sortFn x dim size minmax hmm hs

/-- **C103.** `pareto_rank` compiled without assertions accesses memory correctly, ends after at most `size + 1` passes and sets every rank to at
least 1, whatever the doubles are.  With two objectives the set must not be empty, see `C103_false_empty`. -/
theorem C103_pareto_rank_safe (c : FCmp F) (sortFn : Blk F → List ℕ → List ℕ) (x : ℕ → ℕ → F) (dim size fuel : ℕ) (hf : size < fuel)
    (h0 : dim = 2 → 0 < size) (hs : ∀ b, (sortFn b (List.range size)).Perm (List.range size)) :
    ∃ rank, paretoRankM c sortFn false fuel (flatPts x dim size) dim size = .ok (cells rank size) ∧ ∀ i < size, 1 ≤ rank i := by
  unfold paretoRankM
  by_cases hd : dim = 2
  · subst hd
    rw [if_pos rfl]
    have h := paretoRank2dM_ok c sortFn false x size (h0 rfl) (fun _ => 1) (hs _)
    cases e : rank2dR c (sortFn (flatPts x 2 size) (List.range size)) false (fun _ => 1) x size with
    | none => rw [e] at h; simp at h
    | some rank =>
      rw [e] at h
      refine ⟨rank, h, fun i _ => ?_⟩
      unfold rank2dR at e
      rw [Option.map_eq_some_iff] at e
      obtain ⟨s, -, rfl⟩ := e
      have : ∀ (l : List ℕ) (k : ℕ) (r : ℕ → ℕ), (∀ i, 1 ≤ r i) → ∀ i, 1 ≤ rk2dStore s.f k l r i := by
        intro l
        induction l with
        | nil => intro k r h; exact h
        | cons a l ih =>
          intro k r h
          unfold rk2dStore
          apply ih
          intro i
          rw [upd_apply]
          split_ifs
          · omega
          · exact h i
      exact this _ _ _ (fun _ => le_rfl) i
  · rw [if_neg hd]
    obtain ⟨rank, -, h1, h⟩ := paretoRankGeneralM_ok c x dim size fuel hf
    exact ⟨rank, h, h1⟩

/-- **C103.** Compiled with assertions, the only other outcome is a failed assertion, and only with two objectives. -/
theorem C103_pareto_rank_asserts (c : FCmp F) (sortFn : Blk F → List ℕ → List ℕ) (x : ℕ → ℕ → F) (dim size fuel : ℕ) (hf : size < fuel)
    (h0 : dim = 2 → 0 < size) (hs : ∀ b, (sortFn b (List.range size)).Perm (List.range size)) :
    (∃ rank, paretoRankM c sortFn true fuel (flatPts x dim size) dim size = .ok (cells rank size)) ∨
    (dim = 2 ∧ paretoRankM c sortFn true fuel (flatPts x dim size) dim size = .error .assertion) := by
  unfold paretoRankM
  by_cases hd : dim = 2
  · subst hd
    rw [if_pos rfl]
    have h := paretoRank2dM_ok c sortFn true x size (h0 rfl) (fun _ => 1) (hs _)
    cases e : rank2dR c (sortFn (flatPts x 2 size) (List.range size)) true (fun _ => 1) x size with
    | none => rw [e] at h; exact Or.inr ⟨rfl, h.2⟩
    | some rank => rw [e] at h; exact Or.inl ⟨rank, h⟩
  · rw [if_neg hd]
    obtain ⟨rank, -, -, h⟩ := paretoRankGeneralM_ok c x dim size fuel hf
    exact Or.inl ⟨rank, h⟩

end

section
variable {α : Type} [LinearOrder α]

/-- **C103, without NaN.** The flags computed in memory are exactly those of `C01` and `C02`. -/
theorem C103_same_filter [Neg α] (sortFn : Blk α → List ℕ → List ℕ) (garbage : ℕ → Bool) (x : ℕ → ℕ → α) (dim size : ℕ) (mx : ℕ → Bool) (kw : Bool)
    (hs : ∀ b, (sortFn b (List.range size)).Perm (List.range size)) :
    ∃ nd, isNondominated (fun pp n => sortFn (flatPts pp 2 n) (List.range n)) garbage x dim size mx kw = some nd ∧
      isNondominatedM (ordCmp α) Neg.neg sortFn (flatPts x dim size) dim size (cells mx dim) kw = .ok (cells nd size) :=
  ⟨_, isNondominated_flagsR sortFn garbage x dim size mx kw, isNondominatedM_ok (ordCmp α) Neg.neg sortFn x dim size mx kw garbage hs⟩

/-- **C103, without NaN.** No assertion of `pareto_rank` fails and the ranks computed in memory are the fronts of `C08`, whether assertions are
compiled in or not. -/
theorem C103_same_rank (sortFn : Blk α → List ℕ → List ℕ) (x : ℕ → ℕ → α) (dim size fuel : ℕ) (hf : size < fuel) (h0 : dim = 2 → 0 < size)
    (asserts : Bool) (hs : ∀ pp : ℕ → ℕ → α, SortedFront pp size (sortFn (flatPts pp 2 size) (List.range size))) :
    ∃ rank, paretoRankM (ordCmp α) sortFn asserts fuel (flatPts x dim size) dim size = .ok (cells rank size) ∧
      ∀ i < size, InFront dim size (fun _ => false) x (rank i) i := by
  obtain ⟨rank, e, h⟩ := C08_pareto_rank_peels (fun pp n => sortFn (flatPts pp 2 n) (List.range n)) (fun _ => 0) x dim size fuel hf h0 hs
  refine ⟨rank, ?_, h⟩
  unfold paretoRank at e
  unfold paretoRankM
  by_cases hd : dim = 2
  · subst hd
    rw [if_pos rfl] at e ⊢
    simp only at e
    rw [paretoRank2d_eq_R _ _ (h0 rfl)] at e
    cases er : rank2dR (ordCmp α) (sortFn (flatPts x 2 size) (List.range size)) true (fun _ => 0) x size with
    | none => rw [er] at e; simp at e
    | some r =>
      rw [er] at e
      simp only [RankOut.done.injEq] at e
      subst e
      have h := paretoRank2dM_ok (ordCmp α) sortFn asserts x size (h0 rfl) (fun _ => 0) (hs x).1
      rw [rank2dR_asserts asserts er] at h
      exact h
  · rw [if_neg hd] at e ⊢
    obtain ⟨r, er, -, hM⟩ := paretoRankGeneralM_ok (ordCmp α) x dim size fuel hf
    unfold paretoRankGeneral at e
    rw [rkLevels_eq_R (R := rkLe (ordCmp α) dim x) (fun j _ k _ _ => rkDominates_row dim x j k) fuel 1 (fun _ => 1) (fun _ _ => le_rfl), er] at e
    simp only [RankOut.done.injEq] at e
    rw [hM, e]

end

/-! ## Where it does not hold -/

/-- With two objectives and no points, `pareto_rank` writes outside of its empty blocks. -/
theorem C103_false_empty (F : Type) (c : FCmp F) (sortFn : Blk F → List ℕ → List ℕ) (asserts : Bool) (fuel : ℕ) (x : ℕ → ℕ → F) :
    paretoRankM c sortFn asserts fuel (flatPts x 2 0) 2 0 = .error .outOfBounds := rfl

/-- Three points with two objectives, the first with a NaN: an assertion of `pareto_rank` fails.  The first objectives differ, so that `qsort` has only
one possible result. -/
theorem C103_false_nan_assertion :
    paretoRankM (ieeeCmp ℤ) (fun _ l => l) true 4 [some (some 0), some none, some (some 1), some (some 5), some (some 2), some (some 3)] 2 3 =
      .error .assertion := by
  rfl

/-- Two points and two objectives, one of them maximised and the other ignored: an assertion of `find_dominated_point` fails. -/
theorem C103_false_ignored :
    findDominatedPointM (ordCmp ℤ) Neg.neg (fun _ l => l) (flatPts (fun i _ => (i : ℤ)) 2 2) 2 2 [some 1, some 0] = .error .assertion := by
  rfl

/-! ## Concrete runs -/

/-- four points with two objectives, one value a NaN -/
example : isNondominatedM (ieeeCmp ℤ) (Option.map Neg.neg) (fun _ _ => [1, 0, 3, 2])
    [some (some 1), some (some 1), some (some 0), some (some 2), some (some 2), some none, some (some 1), some (some 1)] 2 4
    [some false, some false] true = .ok [some true, some true, some true, some true] := rfl

/-- four points with three objectives: the last row dominates the first -/
example : isNondominatedM (ordCmp ℤ) Neg.neg (fun _ l => l)
    [some 1, some 1, some 1, some 0, some 2, some 2, some 2, some 0, some 5, some 1, some 1, some 0] 3 4
    [some false, some false, some false] false = .ok [some false, some true, some true, some true] := rfl

/-- ranks of the same points; of points with two objectives, with assertions -/
example : paretoRankM (ordCmp ℤ) (fun _ l => l) true 5
    [some 1, some 1, some 1, some 0, some 2, some 2, some 2, some 0, some 5, some 1, some 1, some 0] 3 4 = .ok [some 2, some 1, some 1, some 1] := rfl
example : paretoRankM (ordCmp ℤ) (fun _ _ => [1, 0, 3, 2, 4]) true 6
    [some 1, some 1, some 0, some 2, some 2, some 2, some 1, some 1, some 2, some 3] 2 5 = .ok [some 1, some 1, some 2, some 1, some 3] := rfl

/-- a block that is one cell too short is noticed -/
example : isNondominatedM (ordCmp ℤ) Neg.neg (fun _ l => l) [some 1, some 1, some 1, some 0, some 2] 3 2
    [some false, some false, some false] false = .error .outOfBounds := rfl

/-- so is a cell without a value -/
example : isNondominatedM (ordCmp ℤ) Neg.neg (fun _ l => l) [some 1, some 1, some 1, some 0, some 2, none] 3 2
    [some false, some false, some false] false = .error .uninitialised := rfl

end Moo
