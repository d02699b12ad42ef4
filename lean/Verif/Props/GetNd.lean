import Verif.Lemmas.GetNd
import Verif.Props.NdNan

set_option autoImplicit false
set_option linter.unusedSectionVars false

/-!
# C116: `get_nondominated_set` for arbitrary doubles

`nKept nd size` is the number of rows whose flag in `nd` is true and `keptFlat x dim size nd` are these rows, one after the other (`Verif.Spec.GetNd`).  A row is
kept if `is_nondominated(keep_weakly = false)` flags it, which `C02` and `C104` describe.
-/

namespace Moo

section
variable {F : Type}

/-- Both functions see the same flags. -/
theorem getNd_flags (c : FCmp F) (neg : F → F) (sortFn : Blk F → List ℕ → List ℕ) (x : ℕ → ℕ → F) (dim size : ℕ) (mx : ℕ → Bool)
    (hs : ∀ b, (sortFn b (List.range size)).Perm (List.range size)) {nd : ℕ → Bool}
    (h : isNondominatedM c neg sortFn (flatPts x dim size) dim size (cells mx dim) false = .ok (cells nd size)) :
    ∀ i < size, flagsR c neg (sortFn (flatPts (agreeRows neg (minmaxFromBool mx) x) 2 size) (List.range size)) x dim size
      (minmaxFromBool mx) false (fun _ => false) i = nd i := by
  intro i hi
  rw [isNondominatedM_ok c neg sortFn x dim size mx false (fun _ => false) hs] at h
  have h' := Except.ok.inj h
  have := congrArg (fun b => ldBlk b i) h'
  simp only [ld_cells hi] at this
  exact Except.ok.inj this

/-- **C116, any number of objectives other than two (or fewer than two points).** `get_nondominated_set` makes no wrong access and returns the number of rows that
`is_nondominated` keeps, and a block that holds these rows in their order and nothing else. -/
theorem C116_rows (c : FCmp F) (neg : F → F) (sortFn : Blk F → List ℕ → List ℕ) (asserts : Bool) (x : ℕ → ℕ → F) (dim size : ℕ) (mx : ℕ → Bool)
    (hd : dim ≠ 2 ∨ size < 2) (hs : ∀ b, (sortFn b (List.range size)).Perm (List.range size)) :
    ∃ nd, isNondominatedM c neg sortFn (flatPts x dim size) dim size (cells mx dim) false = .ok (cells nd size) ∧
      getNdSetM c neg sortFn asserts (flatPts x dim size) dim size (cells (minmaxFromBool mx) dim) =
        .ok ((nKept nd size : ℤ), (keptFlat x dim size nd).map some) := by
  refine ⟨_, isNondominatedM_ok c neg sortFn x dim size mx false (fun _ => false) hs, ?_⟩
  obtain ⟨nd, rfl, e⟩ := getNdSetM_ok c neg sortFn asserts x dim size (minmaxFromBool mx) (fun _ d _ => minmaxFromBool_ne mx d) hs
  rw [e, if_neg (by omega)]

/-- **C116.** The same for objectives that may also be ignored (`minmax[d] == 0`): no wrong access, and the number returned is the number of rows in the block. -/
theorem C116_safe (c : FCmp F) (neg : F → F) (sortFn : Blk F → List ℕ → List ℕ) (asserts : Bool) (x : ℕ → ℕ → F) (dim size : ℕ) (minmax : ℕ → ℤ)
    (hd : dim ≠ 2) (hs : ∀ b, (sortFn b (List.range size)).Perm (List.range size)) :
    ∃ nd, findNdSetM c neg sortFn (flatPts x dim size) dim size (cells minmax dim) AGREE_NONE (cells (fun _ => true) size) false false =
        .ok ((nKept nd size : ℤ), cells nd size) ∧
      getNdSetM c neg sortFn asserts (flatPts x dim size) dim size (cells minmax dim) =
        .ok ((nKept nd size : ℤ), (keptFlat x dim size nd).map some) := by
  obtain ⟨nd, hnd, e⟩ := getNdSetM_ok c neg sortFn asserts x dim size minmax (fun h => absurd h hd) hs
  obtain ⟨nd', hnd', e'⟩ := findNdSetM_count c neg sortFn x dim size minmax (fun h => absurd h hd) false hs
  rw [← hnd] at hnd'
  subst hnd'
  refine ⟨nd', ?_, ?_⟩
  · rw [e', if_neg (by tauto)]
  · rw [e, if_neg (by tauto)]

/-- **C116, two objectives.** With two or more points the block is allocated for as many rows as are *dominated*.  So the run is correct only if exactly half of the
rows are kept.  If more are kept, the program writes behind the end of the block; if fewer are, the assertion fails or, without assertions, the caller is told a
number of rows that is too large and the rest of the block was never written. -/
theorem C116_two_objectives (c : FCmp F) (neg : F → F) (sortFn : Blk F → List ℕ → List ℕ) (asserts : Bool) (x : ℕ → ℕ → F) (size : ℕ) (mx : ℕ → Bool)
    (h2 : 2 ≤ size) (hs : ∀ b, (sortFn b (List.range size)).Perm (List.range size)) :
    ∃ nd, isNondominatedM c neg sortFn (flatPts x 2 size) 2 size (cells mx 2) false = .ok (cells nd size) ∧
      (size < 2 * nKept nd size →
        getNdSetM c neg sortFn asserts (flatPts x 2 size) 2 size (cells (minmaxFromBool mx) 2) = .error .outOfBounds) ∧
      (size = 2 * nKept nd size →
        getNdSetM c neg sortFn asserts (flatPts x 2 size) 2 size (cells (minmaxFromBool mx) 2) =
          .ok ((nKept nd size : ℤ), (keptFlat x 2 size nd).map some)) ∧
      (2 * nKept nd size < size → asserts = true →
        getNdSetM c neg sortFn asserts (flatPts x 2 size) 2 size (cells (minmaxFromBool mx) 2) = .error .assertion) ∧
      (2 * nKept nd size < size → asserts = false →
        getNdSetM c neg sortFn asserts (flatPts x 2 size) 2 size (cells (minmaxFromBool mx) 2) =
          .ok ((size : ℤ) - nKept nd size, (keptFlat x 2 size nd).map some ++ allocBlk (2 * (size - 2 * nKept nd size)))) := by
  refine ⟨_, isNondominatedM_ok c neg sortFn x 2 size mx false (fun _ => false) hs, ?_⟩
  obtain ⟨nd, rfl, e⟩ := getNdSetM_ok c neg sortFn asserts x 2 size (minmaxFromBool mx) (fun _ d _ => minmaxFromBool_ne mx d) hs
  rw [if_pos ⟨rfl, h2⟩] at e
  generalize flagsR c neg (sortFn (flatPts (agreeRows neg (minmaxFromBool mx) x) 2 size) (List.range size)) x 2 size
      (minmaxFromBool mx) false (fun _ => false) = nd at e ⊢
  rw [e]
  have hle := nKept_le nd size
  refine ⟨fun h => ?_, fun h => ?_, fun h ha => ?_, fun h ha => ?_⟩
  · rw [if_pos (by omega)]
  · rw [if_neg (by omega), if_neg (by rintro ⟨-, h'⟩; omega)]
    have : size - nKept nd size = nKept nd size := by omega
    simp [this, allocBlk]
  · rw [if_neg (by omega), if_pos ⟨ha, by omega⟩]
  · rw [if_neg (by omega), if_neg (by simp [ha])]
    rw [show size - nKept nd size - nKept nd size = size - 2 * nKept nd size by omega]
    congr 2
    omega

/-- **C116.** The number returned by `find_nondominated_set` and `find_weak_nondominated_set` is the number of flags left set, except with two objectives and two or
more points, where it is the number of flags cleared. -/
theorem C116_count (c : FCmp F) (neg : F → F) (sortFn : Blk F → List ℕ → List ℕ) (x : ℕ → ℕ → F) (dim size : ℕ) (minmax : ℕ → ℤ)
    (hmm : dim = 2 → ∀ d < 2, minmax d ≠ 0) (keepWeakly : Bool) (hs : ∀ b, (sortFn b (List.range size)).Perm (List.range size)) :
    ∃ nd, findNdSetM c neg sortFn (flatPts x dim size) dim size (cells minmax dim) AGREE_NONE (cells (fun _ => true) size) false keepWeakly =
      .ok (if dim = 2 ∧ 2 ≤ size then (size : ℤ) - nKept nd size else nKept nd size, cells nd size) := by
  obtain ⟨nd, -, e⟩ := findNdSetM_count c neg sortFn x dim size minmax hmm keepWeakly hs
  refine ⟨nd, ?_⟩
  rw [e]
  have := nKept_le nd size
  split_ifs
  · congr 2; omega
  · rfl

end

section
variable {α : Type} [LinearOrder α]

/-- **C116, NaN.** With any number of objectives other than two, the block holds all rows with a NaN and those rows without NaN that are neither dominated by nor
equal to a later one of the rows without NaN. -/
theorem C116_nan (neg : Option α → Option α) (sortFn : Blk (Option α) → List ℕ → List ℕ) (asserts : Bool) (data : ℕ → ℕ → Option α) (v : ℕ → ℕ → α)
    (dim n : ℕ) (mx : ℕ → Bool) (hdim : dim ≠ 2) (hv : ∀ i < n, ¬ HasNan dim (data i) → ∀ d < dim, data i d = some (v i d))
    (hs : ∀ b, (sortFn b (List.range n)).Perm (List.range n)) :
    ∃ nd, getNdSetM (ieeeCmp α) neg sortFn asserts (flatPts data dim n) dim n (cells (minmaxFromBool mx) dim) =
        .ok ((nKept nd n : ℤ), (keptFlat data dim n nd).map some) ∧
      (∀ i < n, HasNan dim (data i) → nd i = true) ∧
      ∀ i < n, ¬ HasNan dim (data i) → (nd i = true ↔
        (∀ j < n, ¬ HasNan dim (data j) → ¬ Dom dim mx (v j) (v i)) ∧
        ∀ j < n, i < j → ¬ HasNan dim (data j) → ¬ SameVec dim (v j) (v i)) := by
  obtain ⟨nd, e, h1, h2⟩ := C104_filter_ignores_nan neg sortFn data v dim n mx false hdim hv hs
  obtain ⟨nd', e', h'⟩ := C116_rows (ieeeCmp α) neg sortFn asserts data dim n mx (Or.inl hdim) hs
  have hf := getNd_flags (ieeeCmp α) neg sortFn data dim n mx hs e
  have hf' := getNd_flags (ieeeCmp α) neg sortFn data dim n mx hs e'
  have heq : ∀ i < n, nd' i = nd i := fun i hi => by rw [← hf i hi, ← hf' i hi]
  refine ⟨nd, ?_, h1, fun i hi hn => ?_⟩
  · rw [h', nKept_congr heq, keptFlat_congr heq]
  · simpa using h2 i hi hn

/-- **C116 is false with two objectives.** Two or more points that are different and mutually nondominated, that is, a set with nothing to be removed: the program
always writes behind the end of the block. -/
theorem C116_false_antichain [Neg α] (sortFn : Blk α → List ℕ → List ℕ) (asserts : Bool) (x : ℕ → ℕ → α) (size : ℕ) (mx : ℕ → Bool) (h2 : 2 ≤ size)
    (hneg : ∀ a b : α, -a ≤ -b ↔ b ≤ a)
    (hs : ∀ b, (sortFn b (List.range size)).Perm (List.range size))
    (hsort : ∀ pp : ℕ → ℕ → α, SortedPP2d pp size (sortFn (flatPts pp 2 size) (List.range size)))
    (hx : ∀ i < size, ∀ j < size, i ≠ j → ¬ WeakDom 2 mx (x i) (x j)) :
    getNdSetM (ordCmp α) Neg.neg sortFn asserts (flatPts x 2 size) 2 size (cells (minmaxFromBool mx) 2) = .error .outOfBounds := by
  obtain ⟨nd, e, h, -⟩ := C116_two_objectives (ordCmp α) Neg.neg sortFn asserts x size mx h2 hs
  obtain ⟨nd', e1, e2⟩ := C103_same_filter sortFn (fun _ => false) x 2 size mx false hs
  obtain ⟨nd'', e3, h3⟩ := C04_filter_sound_complete (fun pp n => sortFn (flatPts pp 2 n) (List.range n)) (fun _ => false) x 2 size mx false hneg
    hsort
  apply h
  have hall : nKept nd size = size := by
    have hf := getNd_flags (ordCmp α) Neg.neg sortFn x 2 size mx hs e
    have hf' := getNd_flags (ordCmp α) Neg.neg sortFn x 2 size mx hs e2
    rw [e1] at e3
    obtain rfl := Option.some.inj e3
    have : ∀ i < size, nd i = true := by
      intro i hi
      rw [← hf i hi, hf' i hi]
      obtain ⟨j, hj, hjn, hw⟩ := h3.2.1 i hi
      by_cases hij : j = i
      · rwa [← hij]
      · exact absurd hw (hx j hj i hi hij)
    rw [nKept_congr (nd' := fun _ => true) this]
    simp [nKept]
  omega

end

/-! ## Concrete runs -/

/-- three points with three objectives: the first is dominated, the last has a NaN -/
example : getNdSetM (ieeeCmp ℤ) (Option.map Neg.neg) (fun _ l => l) true
    [some (some 2), some (some 2), some (some 2), some (some 1), some (some 2), some (some 1), some (some 5), some none, some (some 5)] 3 3
    [some (-1), some (-1), some (-1)] =
      .ok (2, [some (some 1), some (some 2), some (some 1), some (some 5), some none, some (some 5)]) := rfl

/-- two points, one objective ignored: only one is kept, whatever the ignored value is -/
example : getNdSetM (ordCmp ℤ) Neg.neg (fun _ l => l) true [some 1, some 7, some 3, some 2, some 2, some 3] 3 2 [some (-1), some 0, some 1] =
    .ok (1, [some 1, some 7, some 3]) := rfl

/-- two objectives, half of the points are dominated -/
example : getNdSetM (ordCmp ℤ) Neg.neg (fun _ l => l) true [some 1, some 1, some 2, some 2] 2 2 [some (-1), some (-1)] = .ok (1, [some 1, some 1]) := rfl

/-- two objectives, three points, two of them dominated: an assertion fails, or the caller gets two rows of which one was never written -/
example : getNdSetM (ordCmp ℤ) Neg.neg (fun _ l => l) true [some 1, some 1, some 2, some 2, some 3, some 3] 2 3 [some (-1), some (-1)] = .error .assertion := rfl
example : getNdSetM (ordCmp ℤ) Neg.neg (fun _ l => l) false [some 1, some 1, some 2, some 2, some 3, some 3] 2 3 [some (-1), some (-1)] =
    .ok (2, [some 1, some 1, none, none]) := rfl

/-- the hypotheses of `C116_false_antichain` hold for two points -/
example : getNdSetM (ordCmp ℤ) Neg.neg (fun _ l => l) true [some 1, some 2, some 2, some 1] 2 2 [some (-1), some (-1)] = .error .outOfBounds := rfl
example : ∀ i < 2, ∀ j < 2, i ≠ j → ¬ WeakDom 2 (fun _ => false) (tab [[1, 2], [2, 1]] i) (tab [[1, 2], [2, 1]] j) := by
  unfold WeakDom AtLeastAsGood
  decide

end Moo
