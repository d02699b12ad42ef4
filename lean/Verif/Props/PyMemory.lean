import Verif.Model.PyMemory
import Verif.Props.Whv
import Mathlib.Tactic.Linarith

/-!
# C64: what the Python functions do to the arrays of their caller
-/

set_option autoImplicit false
set_option linter.unusedSectionVars false

namespace Moo

/-- All the memory in use before the call has the same contents after it. -/
def CallerUnchanged {K : Type*} (m m' : PyMem K) : Prop := ∀ b < m.next, m'.block b = m.block b

/-- The argument refers to memory in use. -/
def PyArg.Valid {K : Type*} (m : PyMem K) : PyArg K → Prop
  | .ndarray b _ => b < m.next
  | .view b _ => b < m.next
  | .other _ => True

/-- The argument shares the memory of an array without being an `ndarray` object. -/
def PyArg.IsView {K : Type*} : PyArg K → Prop
  | .view _ _ => True
  | _ => False

section
variable {K : Type*}

theorem alloc_unchanged (m : PyMem K) (rows : List (List K)) : CallerUnchanged m (m.alloc rows).1 := by
  intro b hb
  unfold PyMem.alloc
  exact upd_ne _ _ (by omega)

theorem CallerUnchanged.trans {m m' m'' : PyMem K} (h : CallerUnchanged m m') (hn : m.next ≤ m'.next) (h' : CallerUnchanged m' m'') : CallerUnchanged m m'' :=
  fun b hb => (h' b (by omega)).trans (h b hb)

theorem alloc_block (m : PyMem K) (rows : List (List K)) : (m.alloc rows).1.block (m.alloc rows).2 = rows := by
  unfold PyMem.alloc; exact upd_same _ _ _

theorem write_unchanged (m m' : PyMem K) (b : ℕ) (hb : m.next ≤ b) (rows : List (List K)) (h : CallerUnchanged m m') : CallerUnchanged m (m'.write b rows) := by
  intro c hc
  unfold PyMem.write
  simp only
  rw [upd_ne _ _ (by omega), h c hc]

theorem ascontiguous_spec (m : PyMem K) (a : NpArr) : CallerUnchanged m (ascontiguous m a).1 ∧ m.next ≤ (ascontiguous m a).1.next ∧
    (ascontiguous m a).1.block (ascontiguous m a).2 = m.block a.block ∧ ((ascontiguous m a).2 = a.block ∧ a.contiguous = true ∨ (ascontiguous m a).2 = m.next ∧ a.contiguous = false) := by
  unfold ascontiguous
  split
  · rename_i h
    exact ⟨fun _ _ => rfl, le_rfl, rfl, Or.inl ⟨rfl, h⟩⟩
  · rename_i h
    exact ⟨alloc_unchanged _ _, by simp [PyMem.alloc], alloc_block _ _, Or.inr ⟨rfl, by simpa using h⟩⟩

variable [Neg K]

/-- **C64.** The data that the C function gets are the caller's rows with the maximised objectives negated, whatever kind of object the argument is. -/
theorem C64_data_passed (m : PyMem K) (arg : PyArg K) (maximise : List Bool) :
    (passMirrored m arg maximise).2 = (arg.rows m).map (negateRow maximise) := by
  have hneg : maximise.any id = false → ∀ row : List K, negateRow maximise row = row := by
    intro h row
    unfold negateRow
    apply List.ext_getElem
    · simp
    · intro k hk hk'
      rw [List.getElem_mapIdx, if_neg]
      intro hc
      have : maximise.any id = true := by
        rw [List.any_eq_true]
        by_cases hk2 : k < maximise.length
        · refine ⟨maximise[k], List.getElem_mem _, ?_⟩
          simpa [List.getD_eq_getElem?_getD, hk2] using hc
        · simp [List.getD_eq_getElem?_getD, List.getElem?_eq_none (not_lt.1 hk2)] at hc
      simp [h] at this
  unfold passMirrored
  simp only
  rw [(ascontiguous_spec _ _).2.2.1]
  by_cases hm : maximise.any id = true
  · cases arg with
    | ndarray b c => simp [mirrorData, asarrayMaybeCopy, hm, PyMem.write, PyArg.rows, upd_same, alloc_block]
    | view b c => simp [mirrorData, asarrayMaybeCopy, hm, PyMem.write, PyArg.rows, upd_same]
    | other rows => simp [mirrorData, asarrayMaybeCopy, hm, PyMem.write, PyArg.rows, upd_same, alloc_block]
  · have hm' : maximise.any id = false := by simpa using hm
    have hid : ∀ rows : List (List K), rows.map (negateRow maximise) = rows := fun rows => by
      rw [List.map_congr_left (fun r _ => hneg hm' r), List.map_id']
    cases arg with
    | ndarray b c => simp [mirrorData, asarrayMaybeCopy, hm', PyArg.rows, hid]
    | view b c => simp [mirrorData, asarrayMaybeCopy, hm', PyArg.rows, hid]
    | other rows => simp [mirrorData, asarrayMaybeCopy, hm', PyArg.rows, hid, alloc_block]

/-- **C64 (partial), `hypervolume`, `Hypervolume`, `pareto_rank`, `whv_hype`.** The caller's arrays are not changed if the argument is an `ndarray`, a list or an array of another type, or if
nothing is maximised.  Missing: arguments that share memory without being an `ndarray`, for which it is false (`C64_view_changed`). -/
theorem C64_mirror_unchanged_partial (m : PyMem K) (arg : PyArg K) (maximise : List Bool)
    (h : ¬ arg.IsView ∨ maximise.any id = false) : CallerUnchanged m (passMirrored m arg maximise).1 := by
  unfold passMirrored
  simp only
  have hmm : CallerUnchanged m (mirrorData m arg maximise).1 ∧ m.next ≤ (mirrorData m arg maximise).1.next := by
    by_cases hm : maximise.any id = true
    · have hv : ¬ arg.IsView := h.resolve_right (by simp [hm])
      cases arg with
      | ndarray b c =>
        simp only [mirrorData, asarrayMaybeCopy, hm, if_true, Bool.false_eq_true, if_false]
        exact ⟨write_unchanged _ _ _ le_rfl _ (alloc_unchanged _ _), by simp [PyMem.write, PyMem.alloc]⟩
      | view b c => exact absurd trivial hv
      | other rows =>
        simp only [mirrorData, asarrayMaybeCopy, hm, if_true]
        exact ⟨write_unchanged _ _ _ le_rfl _ (alloc_unchanged _ _), by simp [PyMem.write, PyMem.alloc]⟩
    · have hm' : maximise.any id = false := by simpa using hm
      cases arg with
      | ndarray b c => simp only [mirrorData, asarrayMaybeCopy, hm', Bool.false_eq_true, if_false]; exact ⟨fun _ _ => rfl, le_rfl⟩
      | view b c => simp only [mirrorData, asarrayMaybeCopy, hm', Bool.false_eq_true, if_false]; exact ⟨fun _ _ => rfl, le_rfl⟩
      | other rows =>
        simp only [mirrorData, asarrayMaybeCopy, hm', Bool.false_eq_true, if_false]
        exact ⟨alloc_unchanged _ _, by simp [PyMem.alloc]⟩
  exact hmm.1.trans hmm.2 (ascontiguous_spec _ _).1

/-- **C64 is false for views** (defect 23): whenever something is maximised, the maximised objectives are negated in the caller's memory. -/
theorem C64_view_changed (m : PyMem K) (b : ℕ) (c : Bool) (hb : b < m.next) (maximise : List Bool) (hm : maximise.any id = true) :
    (passMirrored m (.view b c) maximise).1.block b = (m.block b).map (negateRow maximise) := by
  unfold passMirrored
  simp only
  have e : mirrorData m (.view b c) maximise = (m.write b ((m.block b).map (negateRow maximise)), ⟨b, c⟩) := by
    simp [mirrorData, asarrayMaybeCopy, hm]
  rw [e]
  simp only
  rw [(ascontiguous_spec (m.write b ((m.block b).map (negateRow maximise))) ⟨b, c⟩).1 b hb]
  simp [PyMem.write, upd_same]

/-- **C64, `normalise`** never changes the caller's arrays. -/
theorem C64_normalise_unchanged (f : List (List K) → List (List K)) (m : PyMem K) (arg : PyArg K) :
    CallerUnchanged m (pyNormaliseMem f m arg).1 ∧ (pyNormaliseMem f m arg).1.block (pyNormaliseMem f m arg).2 = f (arg.rows m) := by
  unfold pyNormaliseMem
  refine ⟨write_unchanged _ _ _ le_rfl _ (alloc_unchanged _ _), ?_⟩
  simp [PyMem.write, upd_same, alloc_block]

end

/-- **C64 is false**: two calls of `hypervolume` (or `pareto_rank`, ...) with the same `np.matrix` pass different data to C, the second time with the original signs of the objective
to be maximised. -/
theorem C64_false_view :
    let m : PyMem ℤ := ⟨1, fun _ => [[1, 5], [3, 7]]⟩
    let m1 := (passMirrored m (.view 0 true) [false, true]).1
    (passMirrored m (.view 0 true) [false, true]).2 = [[1, -5], [3, -7]] ∧ m1.block 0 = [[1, -5], [3, -7]] ∧
    (passMirrored m1 (.view 0 true) [false, true]).2 = [[1, 5], [3, 7]] := by
  decide

/-! ### `whv_rect` -/

section
variable {K : Type*} [Ring K] [LinearOrder K]

/-- **C64, R `whv_rect`** does not change its arguments, and its value is the one of the C function for them. -/
theorem C64_r_whv_rect_unchanged (sortX : (ℕ → ℕ → K) → ℕ → List ℕ) (sortR : List (WRect K) → List (WRect K)) (m : PyMem K) (x rectangles : ℕ) (hr : rectangles < m.next) (ref : ℕ → K) :
    CallerUnchanged m (rWhvRect sortX sortR m x rectangles ref).2 ∧
    (rWhvRect sortX sortR m x rectangles ref).1 =
      rectWeightedHv2d (tableOf (m.block x)) (m.block x).length ((m.block rectangles).map rectOfRow) ref (sortX (tableOf (m.block x)) (m.block x).length)
        (sortR (whvPreprocess ((m.block rectangles).map rectOfRow) ref)) := by
  have h1 : ∀ rows : List (List K), ((m.alloc (m.block x)).1.alloc rows).1.block (m.alloc (m.block x)).2 = m.block x := by
    intro rows
    rw [alloc_unchanged _ _ _ (by simp [PyMem.alloc]), alloc_block]
  unfold rWhvRect
  simp only [h1, alloc_block]
  rw [alloc_unchanged m _ rectangles hr]
  refine ⟨?_, rfl⟩
  refine write_unchanged _ _ _ (by simp [PyMem.alloc]) _ (write_unchanged _ _ _ (by simp [PyMem.alloc]) _ ?_)
  exact (alloc_unchanged _ _).trans (by simp [PyMem.alloc]) (alloc_unchanged _ _)

/-- **C64 (partial), Python `whv_rect`** does not change the caller's arrays if the points are given as a list (or as an array that is not contiguous or not of doubles) and the array of rectangles
is not contiguous.  Missing: contiguous arrays of doubles, for which it is false (`C64_false_whv_rect`). -/
theorem C64_py_whv_rect_unchanged_partial (sortX : (ℕ → ℕ → K) → ℕ → List ℕ) (sortR : List (WRect K) → List (WRect K)) (m : PyMem K) (x : PyArg K) (rectangles : NpArr) (ref : ℕ → K)
    (hx : ∀ b, x ≠ .ndarray b true ∧ x ≠ .view b true) (hr : rectangles.contiguous = false) :
    CallerUnchanged m (pyWhvRect sortX sortR m x rectangles ref).2 := by
  have ha : CallerUnchanged m (asarrayMaybeCopy m x).1 ∧ m.next ≤ (asarrayMaybeCopy m x).1.next ∧
      m.next ≤ (ascontiguous (asarrayMaybeCopy m x).1 (asarrayMaybeCopy m x).2.1).2 := by
    cases x with
    | ndarray b c =>
      have : c = false := by
        cases c
        · rfl
        · exact absurd rfl (hx b).1
      subst this
      exact ⟨fun _ _ => rfl, le_rfl, by simp [asarrayMaybeCopy, ascontiguous, PyMem.alloc]⟩
    | view b c =>
      have : c = false := by
        cases c
        · rfl
        · exact absurd rfl (hx b).2
      subst this
      exact ⟨fun _ _ => rfl, le_rfl, by simp [asarrayMaybeCopy, ascontiguous, PyMem.alloc]⟩
    | other rows => exact ⟨alloc_unchanged _ _, by simp [asarrayMaybeCopy, PyMem.alloc], by simp [asarrayMaybeCopy, ascontiguous, PyMem.alloc]⟩
  unfold pyWhvRect
  simp only
  obtain ⟨c1, c2, -, -⟩ := ascontiguous_spec (asarrayMaybeCopy m x).1 (asarrayMaybeCopy m x).2.1
  obtain ⟨d1, d2, -, d4⟩ := ascontiguous_spec (ascontiguous (asarrayMaybeCopy m x).1 (asarrayMaybeCopy m x).2.1).1 rectangles
  have d5 := d4.resolve_left (by simp [hr])
  refine write_unchanged _ _ _ (by rw [d5.1]; omega) _ (write_unchanged _ _ _ ha.2.2 _ ?_)
  exact (ha.1.trans ha.2.1 c1).trans (by omega) d1

/-- **C64.** Even so, the points are only reordered by the C function. -/
theorem C64_whv_data_perm (data rects : List (List K)) (ref : ℕ → K) (ps : List ℕ) (hps : ps.Perm (List.range data.length)) : (whvDataAfter data rects ref ps).Perm data := by
  unfold whvDataAfter
  split
  · exact List.Perm.refl _
  · split
    · exact List.Perm.refl _
    · refine (hps.map _).trans (List.Perm.of_eq ?_)
      apply List.ext_getElem
      · simp
      · intro i h1 h2
        simp [List.getD_eq_getElem?_getD, h2]

end

/-- Sorting functions for the examples: the only order of one element, and the order of two points. -/
def exSortX : (ℕ → ℕ → ℤ) → ℕ → List ℕ := fun pts n => (List.range n).insertionSort (fun a b => cmpDataYDesc pts a b ≤ 0)

/-- see `exSortX` -/
def exSortR : List (WRect ℤ) → List (WRect ℤ) := fun l => l.insertionSort (fun a b => cmpRectYDesc a b ≤ 0)

/-- **C64 is false of Python's `whv_rect`** (defect 24).  Block 0 holds the points `(1, 1)` and `(0, 2)`, block 1 the rectangle from `(0, 0)` to `(10, 10)` with weight 1.  A call with the reference point
`(3, 3)` swaps the points and clips the rectangle to `(3, 3)`.  A second call with the same arrays and the reference point `(10, 10)` returns 5, where the first call with it returns 89. -/
theorem C64_false_whv_rect :
    let m : PyMem ℤ := ⟨2, fun b => if b = 0 then [[1, 1], [0, 2]] else [[0, 0, 10, 10, 1]]⟩
    let m1 := (pyWhvRect exSortX exSortR m (.ndarray 0 true) ⟨1, true⟩ (fun _ => 3)).2
    (pyWhvRect exSortX exSortR m (.ndarray 0 true) ⟨1, true⟩ (fun _ => 3)).1 = some 5 ∧
    m1.block 0 = [[0, 2], [1, 1]] ∧ m1.block 1 = [[0, 0, 3, 3, 1]] ∧
    (pyWhvRect exSortX exSortR m1 (.ndarray 0 true) ⟨1, true⟩ (fun _ => 10)).1 = some 5 ∧
    (pyWhvRect exSortX exSortR m (.ndarray 0 true) ⟨1, true⟩ (fun _ => 10)).1 = some 89 := by
  decide +kernel

/-- **C64 is false of Python's `whv_rect`** (defect 24), even when nothing is to be clipped: the rows of the caller's `rectangles` are sorted. -/
theorem C64_false_whv_rect_order :
    let m : PyMem ℤ := ⟨2, fun b => if b = 0 then [[0, 0]] else [[0, 0, 3, 1, 1], [0, 1, 3, 2, 7]]⟩
    (pyWhvRect exSortX exSortR m (.ndarray 0 true) ⟨1, true⟩ (fun _ => 10)).2.block 1 = [[0, 1, 3, 2, 7], [0, 0, 3, 1, 1]] ∧
    (pyWhvRect exSortX exSortR m (.ndarray 0 true) ⟨1, true⟩ (fun _ => 10)).1 = some 24 := by
  decide +kernel

/-- The order used in the counterexample is one that `qsort` may produce. -/
example : Qsort (cmpDataYDesc (tableOf ([[1, 1], [0, 2]] : List (List ℤ)))) (List.range 2) (exSortX (tableOf [[1, 1], [0, 2]]) 2) := by
  refine ⟨by decide +kernel, by decide +kernel⟩

/-- Hypotheses of the partial theorems: an `ndarray` of doubles with a maximised objective; and a list of points with an array of rectangles that is not contiguous. -/
example : (¬ (PyArg.ndarray 0 true : PyArg ℤ).IsView ∨ [true].any id = false) ∧ ∀ b, (PyArg.other [[(1 : ℤ), 1]]) ≠ .ndarray b true ∧ (PyArg.other [[(1 : ℤ), 1]]) ≠ .view b true :=
  ⟨Or.inl (fun h => h), fun _ => ⟨by simp, by simp⟩⟩

end Moo
