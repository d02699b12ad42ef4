import Verif.Model.Mex
import Verif.Props.HvWrappers
import Mathlib.Data.List.GetD

/-!
# C100: the MATLAB and Octave interface
-/

set_option autoImplicit false
set_option linter.unusedSectionVars false

namespace Moo

section
variable {K : Type*} [CommRing K] [LinearOrder K]

/-- Row `i`, column `k` of a MATLAB matrix of `rows` rows, which is stored by columns. -/
def matlabEntry (buf : List K) (rows : ℕ) : ℕ → ℕ → K := fun i k => buf.getD (i + k * rows) 0

theorem mexRow_eq (buf : List K) (P i : ℕ) : ∀ js : List ℕ, (∀ j ∈ js, i + j * P < buf.length) →
    mexRow buf P i js = some (js.map (matlabEntry buf P i))
  | [], _ => rfl
  | j :: js, h => by
    have h1 := h j (by simp)
    unfold mexRow
    rw [mexRow_eq buf P i js fun j' hj => h j' (by simp [hj]), List.getElem?_eq_getElem h1]
    simp only [List.map_cons, matlabEntry]
    rw [List.getD_eq_getElem _ _ h1]

theorem matlab_index {P N i j : ℕ} (hi : i < P) (hj : j < N) : i + j * P < P * N := by
  calc i + j * P < P + j * P := by omega
    _ = (j + 1) * P := by ring
    _ ≤ N * P := Nat.mul_le_mul_right _ hj
    _ = P * N := Nat.mul_comm _ _

theorem mexData_eq (buf : List K) (N P : ℕ) (hb : buf.length = P * N) : ∀ is : List ℕ, (∀ i ∈ is, i < P) →
    mexData buf N P is = some (is.flatMap fun i => (List.range N).map (matlabEntry buf P i))
  | [], _ => rfl
  | i :: is, h => by
    unfold mexData
    rw [mexRow_eq buf P i _ fun j hj => by rw [hb]; exact matlab_index (h i (by simp)) (List.mem_range.1 hj),
      mexData_eq buf N P hb is fun i' hi => h i' (by simp [hi])]
    rfl

theorem flatRows_length (F : ℕ → ℕ → K) (N : ℕ) : ∀ P, ((List.range P).flatMap fun i => (List.range N).map (F i)).length = P * N
  | 0 => by simp
  | P + 1 => by rw [List.range_succ, List.flatMap_append, List.length_append, flatRows_length F N P]; simp; ring

theorem flatRows_getD (F : ℕ → ℕ → K) (N : ℕ) : ∀ P i k, i < P → k < N →
    ((List.range P).flatMap fun i => (List.range N).map (F i)).getD (i * N + k) 0 = F i k
  | 0, i, k, h, _ => absurd h (by omega)
  | P + 1, i, k, hi, hk => by
    rw [List.range_succ, List.flatMap_append]
    rcases Nat.lt_or_ge i P with h | h
    · rw [List.getD_append _ _ _ _ (by
        rw [flatRows_length]
        calc i * N + k < i * N + N := by omega
          _ = (i + 1) * N := by ring
          _ ≤ P * N := Nat.mul_le_mul_right _ h)]
      exact flatRows_getD F N P i k h hk
    · obtain rfl : i = P := by omega
      rw [List.getD_append_right _ _ _ _ (by rw [flatRows_length]; omega), flatRows_length, Nat.add_sub_cancel_left]
      simp [List.getD_eq_getElem?_getD, hk]

theorem dataMaximumInit_eq (data : List K) : ∀ ks : List ℕ, (∀ k ∈ ks, k < data.length) →
    dataMaximumInit data ks = some (ks.map fun k => data.getD k 0)
  | [], _ => rfl
  | k :: ks, h => by
    have h1 := h k (by simp)
    unfold dataMaximumInit
    rw [dataMaximumInit_eq data ks fun j hj => h j (by simp [hj]), List.getElem?_eq_getElem h1]
    simp only [List.map_cons]
    rw [List.getD_eq_getElem _ _ h1]

theorem dataMaximumRow_spec (data : List K) : ∀ (vs : List K) (k : ℕ), k + vs.length ≤ data.length →
    ∃ r, dataMaximumRow data vs k = some r ∧ r.length = vs.length ∧ ∀ n < vs.length, r.getD n 0 = max (vs.getD n 0) (data.getD (k + n) 0)
  | [], k, _ => ⟨[], rfl, rfl, fun n h => by simp at h⟩
  | v :: vs, k, h => by
    simp only [List.length_cons] at h
    obtain ⟨r, h1, h2, h3⟩ := dataMaximumRow_spec data vs (k + 1) (by omega)
    have hk : k < data.length := by omega
    refine ⟨(if v < data[k] then data[k] else v) :: r, ?_, by simp [h2], ?_⟩
    · unfold dataMaximumRow
      rw [List.getElem?_eq_getElem hk, h1]
    · intro n hn
      cases n with
      | zero =>
        simp only [List.getD_cons_zero, Nat.add_zero]
        rw [List.getD_eq_getElem _ _ hk]
        split
        · rename_i hlt; rw [max_eq_right hlt.le]
        · rename_i hlt; rw [max_eq_left (not_lt.1 hlt)]
      | succ n =>
        simp only [List.getD_cons_succ]
        rw [h3 n (by simpa using hn), Nat.add_right_comm]
        rfl

theorem dataMaximumLoop_spec (data : List K) (N : ℕ) : ∀ (m k : ℕ) (vec : List K), vec.length = N → k + m * N ≤ data.length →
    ∃ r, dataMaximumLoop data N m k vec = some r ∧ r.length = N ∧ ∀ n < N, vec.getD n 0 ≤ r.getD n 0 ∧
      (∀ j < m, data.getD (k + j * N + n) 0 ≤ r.getD n 0) ∧ (r.getD n 0 = vec.getD n 0 ∨ ∃ j < m, r.getD n 0 = data.getD (k + j * N + n) 0)
  | 0, k, vec, hv, _ => ⟨vec, rfl, hv, fun n _ => ⟨le_refl _, fun j hj => absurd hj (by omega), Or.inl rfl⟩⟩
  | m + 1, k, vec, hv, h => by
    rw [Nat.succ_mul] at h
    obtain ⟨r1, a1, a2, a3⟩ := dataMaximumRow_spec data vec k (by omega)
    obtain ⟨r, b1, b2, b3⟩ := dataMaximumLoop_spec data N m (k + N) r1 (a2.trans hv) (by omega)
    refine ⟨r, by unfold dataMaximumLoop; rw [a1]; exact b1, b2, fun n hn => ?_⟩
    obtain ⟨c1, c2, c3⟩ := b3 n hn
    have a3' := a3 n (by omega)
    rw [a3'] at c1 c3
    have hidx : ∀ j, k + N + j * N + n = k + (j + 1) * N + n := fun j => by ring
    refine ⟨(le_max_left _ _).trans c1, ?_, ?_⟩
    · intro j hj
      cases j with
      | zero => rw [Nat.zero_mul, Nat.add_zero]; exact (le_max_right _ _).trans c1
      | succ j => rw [← hidx]; exact c2 j (by omega)
    · rcases c3 with c3 | ⟨j, hj, c3⟩
      · rcases max_choice (vec.getD n 0) (data.getD (k + n) 0) with hm | hm
        · exact Or.inl (c3.trans hm)
        · exact Or.inr ⟨0, by omega, by rw [Nat.zero_mul, Nat.add_zero]; exact c3.trans hm⟩
      · exact Or.inr ⟨j + 1, by omega, by rw [← hidx]; exact c3⟩

/-- `data_maximum` gives the largest value of every column. -/
theorem dataMaximum_spec (F : ℕ → ℕ → K) (N P : ℕ) (hP : 0 < P) : ∃ r, dataMaximum ((List.range P).flatMap fun i => (List.range N).map (F i)) N P = some r ∧
    r.length = N ∧ ∀ k < N, (∀ i < P, F i k ≤ r.getD k 0) ∧ ∃ i < P, r.getD k 0 = F i k := by
  obtain ⟨P, rfl⟩ : ∃ Q, P = Q + 1 := ⟨P - 1, by omega⟩
  set data := (List.range (P + 1)).flatMap fun i => (List.range N).map (F i) with hdata
  have hlen : data.length = (P + 1) * N := flatRows_length F N (P + 1)
  rw [Nat.succ_mul] at hlen
  have hinit := dataMaximumInit_eq data (List.range N) fun k hk => by have := List.mem_range.1 hk; omega
  obtain ⟨r, b1, b2, b3⟩ := dataMaximumLoop_spec data N P N _ (by simp : ((List.range N).map fun k => data.getD k 0).length = N) (by omega)
  refine ⟨r, by unfold dataMaximum; rw [hinit]; exact b1, b2, fun k hk => ?_⟩
  obtain ⟨c1, c2, c3⟩ := b3 k hk
  have hv : ((List.range N).map fun k => data.getD k 0).getD k 0 = F 0 k := by
    have := flatRows_getD F N (P + 1) 0 k (by omega) hk
    rw [Nat.zero_mul, Nat.zero_add] at this
    rw [← this]
    simp [List.getD_eq_getElem?_getD, hk]
    rfl
  have hd : ∀ j < P, data.getD (N + j * N + k) 0 = F (j + 1) k := fun j hj => by
    rw [show N + j * N + k = (j + 1) * N + k by ring]
    exact flatRows_getD F N (P + 1) (j + 1) k (by omega) hk
  rw [hv] at c1 c3
  refine ⟨fun i hi => ?_, ?_⟩
  · cases i with
    | zero => exact c1
    | succ i => rw [← hd i (by omega)]; exact c2 i (by omega)
  · rcases c3 with c3 | ⟨j, hj, c3⟩
    · exact ⟨0, by omega, c3⟩
    · exact ⟨j + 1, by omega, c3.trans (hd j hj)⟩

end

/-! ### Values -/

/-- A MATLAB array of doubles. -/
def MxArg.matrix (rows cols : ℕ) (buf : List ℝ) : MxArg ℝ := MxArg.numeric rows cols (some buf)

theorem mexHv_eq {lib : HvLib ℝ} (h : HvLibOk lib) (buf : List ℝ) (P N : ℕ) (hN : 2 ≤ N) (ref : List ℝ) :
    mexHv ((List.range P).flatMap fun i => (List.range N).map (matlabEntry buf P i)) N P ref lib =
      MexOut.value (vol (dominatedRegion N P (matlabEntry buf P) (fun k => ref.getD k 0))) := by
  unfold mexHv
  rw [if_neg (by omega)]
  dsimp only
  rw [fpliHv_vol h _ N P hN, dominatedRegion_congr N P _ (matlabEntry buf P) _ (fun k => ref.getD k 0) (fun i hi k hk => flatRows_getD _ N P i k hi hk)
    (fun _ _ => rfl)]

/-- **C100.** Called with an `P × N` matrix of doubles (`N ≥ 2`) and a vector of `N` doubles, row or column, the MATLAB function returns the volume of the region
dominated by the rows of the matrix below the reference point; further arguments are ignored. -/
theorem C100_mex_hypervolume {lib : HvLib ℝ} (h : HvLibOk lib) (P N : ℕ) (hN : 2 ≤ N) (buf : List ℝ) (hb : buf.length = P * N) (r c : ℕ) (hrc : r * c = N)
    (ref : List ℝ) (more : List (MxArg ℝ)) :
    mexFunction (MxArg.matrix P N buf :: MxArg.matrix r c ref :: more) lib =
      MexOut.value (vol (dominatedRegion N P (fun i k => buf.getD (i + k * P) 0) (fun k => ref.getD k 0))) := by
  unfold mexFunction MxArg.matrix
  simp only [mexData_eq buf N P hb _ (fun i hi => List.mem_range.1 hi)]
  rw [if_neg (by omega)]
  exact mexHv_eq h buf P N hN ref

/-- **C100 (default).** Called with the matrix only, `P ≥ 1`, the reference point is the largest value of every column. -/
theorem C100_mex_default_reference {lib : HvLib ℝ} (h : HvLibOk lib) (P N : ℕ) (hP : 1 ≤ P) (hN : 2 ≤ N) (buf : List ℝ) (hb : buf.length = P * N) :
    ∃ ref : ℕ → ℝ, (∀ k < N, (∀ i < P, buf.getD (i + k * P) 0 ≤ ref k) ∧ ∃ i < P, ref k = buf.getD (i + k * P) 0) ∧
      mexFunction [MxArg.matrix P N buf] lib = MexOut.value (vol (dominatedRegion N P (fun i k => buf.getD (i + k * P) 0) ref)) := by
  obtain ⟨r, h1, h2, h3⟩ := dataMaximum_spec (matlabEntry buf P) N P hP
  refine ⟨fun k => r.getD k 0, h3, ?_⟩
  unfold mexFunction MxArg.matrix
  simp only [mexData_eq buf N P hb _ (fun i hi => List.mem_range.1 hi), h1]
  exact mexHv_eq h buf P N hN r

/-- **C100 (default, points on the boundary).** With the default reference point a point that is the worst of an objective contributes nothing; a single point has
the value 0. -/
theorem C100_mex_single_point {lib : HvLib ℝ} (h : HvLibOk lib) (N : ℕ) (hN : 2 ≤ N) (buf : List ℝ) (hb : buf.length = N) :
    mexFunction [MxArg.matrix 1 N buf] lib = MexOut.value 0 := by
  obtain ⟨ref, h1, h2⟩ := C100_mex_default_reference h 1 N (le_refl _) hN buf (by omega)
  rw [h2]
  congr 1
  have hsub : dominatedRegion N 1 (fun i k => buf.getD (i + k * 1) 0) ref ⊆ {fun k : Fin N => ref k} := by
    rintro y ⟨⟨i, hi, hy⟩, hr⟩
    obtain rfl : i = 0 := by omega
    rw [Set.mem_singleton_iff]
    funext k
    obtain ⟨-, j, hj, he⟩ := h1 k k.2
    obtain rfl : j = 0 := by omega
    exact le_antisymm (hr k) (he.le.trans (hy k))
  have : Nonempty (Fin N) := ⟨⟨0, by omega⟩⟩
  unfold vol
  rw [MeasureTheory.measure_mono_null hsub (MeasureTheory.measure_singleton _)]
  rfl

/-- **C100 (help).** Without arguments, or with a character array, the help text is printed. -/
theorem C100_mex_help (lib : HvLib ℝ) (more : List (MxArg ℝ)) : mexFunction [] lib = MexOut.help ∧ mexFunction (MxArg.char :: more) lib = MexOut.help := ⟨rfl, rfl⟩

/-- **C100 (errors).** An argument that is not numeric, or a reference point of another length, is reported as an error. -/
theorem C100_mex_errors (lib : HvLib ℝ) (P N : ℕ) (buf : List ℝ) (hb : buf.length = P * N) (r c : ℕ) (ref : Option (List ℝ)) (more : List (MxArg ℝ)) :
    mexFunction (MxArg.other :: more) lib = MexOut.error ∧
    mexFunction (MxArg.matrix P N buf :: MxArg.other :: more) lib = MexOut.error ∧
    mexFunction (MxArg.matrix P N buf :: MxArg.char :: more) lib = MexOut.error ∧
    (r * c ≠ N → mexFunction (MxArg.matrix P N buf :: MxArg.numeric r c ref :: more) lib = MexOut.error) := by
  refine ⟨rfl, ?_, ?_, fun hne => ?_⟩ <;> unfold mexFunction MxArg.matrix <;>
    simp only [mexData_eq buf N P hb _ (fun i hi => List.mem_range.1 hi)]
  rw [if_pos (fun he => hne he.symm)]

/-! ### What is not checked -/

/-- **C100 (false).** An empty matrix with at least one column and no reference point: `data_maximum` reads the first row, which does not exist. -/
theorem C100_mex_empty_undefined (lib : HvLib ℝ) (N : ℕ) (hN : 1 ≤ N) : mexFunction [MxArg.matrix 0 N []] lib = MexOut.undefined := by
  obtain ⟨N, rfl⟩ : ∃ M, N = M + 1 := ⟨N - 1, by omega⟩
  unfold mexFunction MxArg.matrix
  have h1 : mexData ([] : List ℝ) (N + 1) 0 (List.range 0) = some [] := rfl
  have h2 : dataMaximum ([] : List ℝ) (N + 1) 0 = none := by
    unfold dataMaximum
    rw [List.range_succ_eq_map]
    rfl
  simp only [h1, h2]

/-- **C100 (false).** One objective (a column vector) is accepted, with or without a reference point, but `fpli_hv` assumes at least two. -/
theorem C100_mex_one_objective_undefined (lib : HvLib ℝ) (P : ℕ) (hP : 1 ≤ P) (buf : List ℝ) (hb : buf.length = P) (r : ℝ) :
    mexFunction [MxArg.matrix P 1 buf] lib = MexOut.undefined ∧ mexFunction [MxArg.matrix P 1 buf, MxArg.matrix 1 1 [r]] lib = MexOut.undefined := by
  obtain ⟨v, h1, -⟩ := dataMaximum_spec (matlabEntry buf P) 1 P hP
  have hu : ∀ (data ref : List ℝ), mexHv data 1 P ref lib = MexOut.undefined := fun data ref => by
    unfold mexHv; rw [if_pos ⟨by omega, le_refl _⟩]
  constructor <;> unfold mexFunction MxArg.matrix <;>
    simp only [mexData_eq buf 1 P (by omega) _ (fun i hi => List.mem_range.1 hi), h1, hu]
  rfl

/-- **C100 (false).** A matrix of another numeric class (`single`, `int32`, ...) passes the check of the argument, and its memory is read as doubles. -/
theorem C100_mex_class_undefined (lib : HvLib ℝ) (P N : ℕ) (h : 1 ≤ P * N) (more : List (MxArg ℝ)) :
    mexFunction (MxArg.numeric P N none :: more) lib = MexOut.undefined := by
  unfold mexFunction
  dsimp only
  rw [if_neg (by omega)]

/-! ### The hypotheses are satisfiable -/

/-- The matrix `[1 5; 3 2]`, reference point `[6 7]`: the area is `5 * 2 + 3 * 3`. -/
example : ∃ lib : HvLib ℝ, HvLibOk lib ∧
    mexFunction [MxArg.matrix 2 2 [1, 3, 5, 2], MxArg.matrix 1 2 [6, 7]] lib =
      MexOut.value (vol (dominatedRegion 2 2 (fun i k => ([1, 3, 5, 2] : List ℝ).getD (i + k * 2) 0) (fun k => ([6, 7] : List ℝ).getD k 0))) := by
  obtain ⟨lib, h⟩ := exists_hvLib
  exact ⟨lib, h, C100_mex_hypervolume h 2 2 (le_refl _) _ rfl 1 2 rfl _ []⟩

end Moo
