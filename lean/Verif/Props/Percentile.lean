import Verif.Model.Percentile
import Verif.Lemmas.BitArray
import Mathlib.Tactic.Linarith
import Mathlib.Tactic.FieldSimp
import Mathlib.Tactic.Ring
import Mathlib.Tactic.NormNum
import Mathlib.Data.Rat.Floor

set_option autoImplicit false
set_option linter.unusedSectionVars false

/-! # Properties of percentiles / attainment levels and of EAF differences -/

namespace Moo

variable {K : Type*} [Field K] [LinearOrder K] [IsStrictOrderedRing K] [FloorRing K]

theorem percentile_level_raw (tol x : K) (h0 : 0 ≤ tol) (h1 : tol < 1) :
    (if x - (⌊x⌋ : K) ≤ tol then ⌊x⌋ else ⌈x⌉ : ℤ) = ⌈x - tol⌉ := by
  have hf := Int.floor_le x
  have hf2 := Int.lt_floor_add_one x
  split_ifs with h
  · symm; rw [Int.ceil_eq_iff]; constructor <;> linarith
  · push Not at h
    have : ⌈x⌉ = ⌊x⌋ + 1 := by
      rw [Int.ceil_eq_iff]; push_cast; constructor <;> linarith
    rw [this]; symm; rw [Int.ceil_eq_iff]; push_cast; constructor <;> linarith

/-- **C26 (least level).** For `0 ≤ p ≤ 100` and `n ≥ 1` runs, no assertion fails and `percentile2level` returns the least level in `1..n`
whose percentile `100·level/n` is at least `p`, up to the tolerance (`tol` levels). -/
theorem C26_percentile2level_least (tol p : K) (n : ℤ) (h0 : 0 ≤ tol) (h1 : tol < 1) (hn : 1 ≤ n)
    (hp0 : 0 ≤ p) (hp1 : p ≤ 100) :
    ∃ k, percentile2level tol p n = some k ∧ 1 ≤ k ∧ k ≤ n ∧
      p ≤ 100 * ((k : K) + tol) / (n : K) ∧ ∀ m : ℤ, 1 ≤ m → p ≤ 100 * ((m : K) + tol) / (n : K) → k ≤ m := by
  have hnpos : (0 : K) < (n : K) := by exact_mod_cast (by omega : (0 : ℤ) < n)
  have hx0 : (0 : K) ≤ (n : K) * p / 100 := by positivity
  have hxn : (n : K) * p / 100 ≤ (n : K) := by
    rw [div_le_iff₀ (by norm_num)]; exact mul_le_mul_of_nonneg_left hp1 hnpos.le
  have hle : ⌈(n : K) * p / 100 - tol⌉ ≤ n := by rw [Int.ceil_le]; linarith
  have hge : 0 ≤ ⌈(n : K) * p / 100 - tol⌉ := by
    have : (-1 : ℤ) < ⌈(n : K) * p / 100 - tol⌉ := by
      rw [Int.lt_ceil]; push_cast; linarith
    omega
  have hiff : ∀ m : ℤ, p ≤ 100 * ((m : K) + tol) / (n : K) ↔ ⌈(n : K) * p / 100 - tol⌉ ≤ m := by
    intro m
    rw [Int.ceil_le, le_div_iff₀ hnpos, sub_le_iff_le_add, div_le_iff₀ (by norm_num)]
    constructor <;> intro h <;> linarith
  unfold percentile2level
  dsimp only
  rw [percentile_level_raw tol _ h0 h1, if_pos ⟨hle, hge⟩]
  refine ⟨_, rfl, ?_⟩
  generalize hc : ⌈(n : K) * p / 100 - tol⌉ = c at hle hge hiff
  split_ifs with hlt
  · exact ⟨le_rfl, hn, (hiff 1).2 (by omega), fun m hm _ => hm⟩
  · exact ⟨by omega, hle, (hiff c).2 le_rfl, fun m _ hm => (hiff m).1 hm⟩

/-- **C26 (monotone).** -/
theorem C26_percentile2level_mono (tol p q : K) (n : ℤ) (h0 : 0 ≤ tol) (h1 : tol < 1) (hn : 1 ≤ n)
    (hp0 : 0 ≤ p) (hpq : p ≤ q) (hq1 : q ≤ 100) :
    ∃ k l, percentile2level tol p n = some k ∧ percentile2level tol q n = some l ∧ k ≤ l := by
  obtain ⟨k, hk, -, -, -, hk5⟩ := C26_percentile2level_least tol p n h0 h1 hn hp0 (hpq.trans hq1)
  obtain ⟨l, hl, hl2, -, hl4, -⟩ := C26_percentile2level_least tol q n h0 h1 hn (hp0.trans hpq) hq1
  exact ⟨k, l, hk, hl, hk5 l hl2 (hpq.trans hl4)⟩

/-- **C26 (round trip).** -/
theorem C26_percentile2level_level2percentile (tol : K) (k n : ℤ) (h0 : 0 ≤ tol) (h1 : tol < 1) (hk : 1 ≤ k) (hkn : k ≤ n) :
    percentile2level tol (level2percentile k n : K) n = some k := by
  have hnpos : (0 : K) < (n : K) := by exact_mod_cast (by omega : (0 : ℤ) < n)
  have hval : (n : K) * (level2percentile k n : K) / 100 = (k : K) := by
    unfold level2percentile
    split_ifs with h
    · subst h; field_simp
    · field_simp
  unfold percentile2level
  dsimp only
  rw [percentile_level_raw tol _ h0 h1, hval]
  have : ⌈(k : K) - tol⌉ = k := by rw [Int.ceil_eq_iff]; constructor <;> linarith
  rw [this, if_pos ⟨hkn, by omega⟩, if_neg (by omega)]

/-- **C26 (when it aborts).** An assertion fails exactly when the percentile is outside of what the levels `0..n` can express (up to the tolerance). -/
theorem C26_percentile2level_assert_iff (tol p : K) (n : ℤ) (h0 : 0 ≤ tol) (h1 : tol < 1) :
    percentile2level tol p n = none ↔ (n : K) + tol < (n : K) * p / 100 ∨ (n : K) * p / 100 ≤ tol - 1 := by
  unfold percentile2level
  dsimp only
  rw [percentile_level_raw tol _ h0 h1]
  have h2 : ⌈(n : K) * p / 100 - tol⌉ ≤ n ↔ ¬ ((n : K) + tol < (n : K) * p / 100) := by
    rw [Int.ceil_le, not_lt, sub_le_iff_le_add]
  have h3 : 0 ≤ ⌈(n : K) * p / 100 - tol⌉ ↔ ¬ ((n : K) * p / 100 ≤ tol - 1) := by
    have : 0 ≤ ⌈(n : K) * p / 100 - tol⌉ ↔ (-1 : ℤ) < ⌈(n : K) * p / 100 - tol⌉ := by omega
    rw [this, Int.lt_ceil, not_le]; push_cast
    constructor <;> intro h <;> linarith
  by_cases hc : ⌈(n : K) * p / 100 - tol⌉ ≤ n ∧ ⌈(n : K) * p / 100 - tol⌉ ≥ 0
  · rw [if_pos hc]
    have a := h2.1 hc.1
    have b := h3.1 hc.2
    exact iff_of_false (by simp) (by tauto)
  · rw [if_neg hc]
    refine iff_of_true rfl ?_
    by_contra hcon
    rw [not_or] at hcon
    exact hc ⟨h2.2 hcon.1, h3.2 hcon.2⟩

/-- **C26 (default levels).** Without percentiles, the levels are `1..nruns` and the percentiles written for them are those of `all_percentiles`;
converting these back gives the levels. -/
theorem C26_default_levels (tol : K) (nruns : ℕ) (h0 : 0 ≤ tol) (h1 : tol < 1) :
    levelsFromPercentiles tol none nruns nruns = some ((List.range nruns).map (fun k : ℕ => (k : ℤ) + 1)) ∧
    (allPercentiles nruns : List K) = (List.range nruns).map (fun k : ℕ => level2percentile ((k : ℤ) + 1) nruns) ∧
    levelsFromPercentiles tol (some (allPercentiles nruns)) nruns nruns =
      some ((List.range nruns).map (fun k : ℕ => (k : ℤ) + 1)) := by
  have hall : (allPercentiles nruns : List K) = (List.range nruns).map (fun k : ℕ => level2percentile ((k : ℤ) + 1) nruns) := by
    unfold allPercentiles
    apply List.map_congr_left
    intro k hk
    have hk' : k < nruns := List.mem_range.1 hk
    have hn : (nruns : K) ≠ 0 := by exact_mod_cast (by omega : nruns ≠ 0)
    unfold level2percentile
    split_ifs with h
    · have : (k : K) + 1 = (nruns : K) := by exact_mod_cast h
      rw [this]; field_simp
    · push_cast; field_simp
  refine ⟨by simp [levelsFromPercentiles], hall, ?_⟩
  have hm : ∀ l : List ℕ, (∀ k ∈ l, k < nruns) →
      List.mapM (fun p => percentile2level tol p (nruns : ℤ)) (l.map (fun k : ℕ => (level2percentile ((k : ℤ) + 1) nruns : K))) =
      some (l.map (fun k : ℕ => (k : ℤ) + 1)) := by
    intro l
    induction l with
    | nil => intro _; rfl
    | cons a t ih =>
      intro hl
      have ha := hl a (List.mem_cons_self ..)
      rw [List.map_cons, List.mapM_cons,
        C26_percentile2level_level2percentile tol _ _ h0 h1 (by omega) (by omega),
        ih (fun k hk => hl k (List.mem_cons_of_mem _ hk))]
      rfl
  unfold levelsFromPercentiles
  dsimp only
  rw [hall]
  exact hm _ (fun k hk => List.mem_range.1 hk)

/-- Non-vacuity: the tolerance of the code and a percentile that is rounded up. -/
example : percentile2level (1 / 67108864 : ℚ) 50 3 = some 2 := by
  obtain ⟨k, hk, h1, h2, h3, h4⟩ := C26_percentile2level_least (1 / 67108864 : ℚ) 50 3 (by norm_num) (by norm_num) (by norm_num)
    (by norm_num) (by norm_num)
  have h5 := h4 2 (by norm_num) (by norm_num)
  have h6 : k ≠ 1 := by rintro rfl; norm_num at h3
  rw [hk]; congr 1; omega

/-! ### EAF differences -/

/-- Specification: number of `r` in `lo..hi-1` with `att r`. -/
def countIn (att : ℕ → Bool) (lo hi : ℕ) : ℕ := ((List.range hi).filter (fun r => decide (lo ≤ r) && att r)).length

theorem countIn_shift (att : ℕ → Bool) (lo n : ℕ) :
    ((List.range n).filter (fun i => att (lo + i))).length = countIn att lo (lo + n) := by
  unfold countIn
  induction n with
  | zero =>
    symm
    rw [Nat.add_zero, List.range_zero, List.filter_nil, List.length_nil, List.length_eq_zero_iff, List.filter_eq_nil_iff]
    intro a ha
    have := List.mem_range.1 ha
    simp; omega
  | succ n ih =>
    rw [← Nat.add_assoc, List.range_succ, List.range_succ, List.filter_append, List.filter_append, List.length_append,
      List.length_append, ih]
    congr 1
    rcases Bool.eq_false_or_eq_true (att (lo + n)) with h | h <;> simp [h]

theorem countIn_le (att : ℕ → Bool) (lo hi : ℕ) : countIn att lo hi ≤ hi - lo := by
  by_cases h : lo ≤ hi
  · obtain ⟨n, rfl⟩ := Nat.exists_eq_add_of_le h
    rw [← countIn_shift]
    calc _ ≤ (List.range n).length := List.length_filter_le _ _
      _ = n := List.length_range
      _ ≤ _ := by omega
  · unfold countIn
    have : (List.range hi).filter (fun r => decide (lo ≤ r) && att r) = [] := by
      rw [List.filter_eq_nil_iff]; intro a ha
      have := List.mem_range.1 ha
      simp; omega
    rw [this]; simp

theorem attainedLeftRight_spec {rows nruns : ℕ} {m : List (BitVec 64)} {A : ℕ → ℕ → Bool} (h : BitRep rows nruns m A)
    {k division : ℕ} (hk : k < rows) (hd : division < nruns) :
    attainedLeftRight m (bitArrayOffset 0 k nruns) division nruns =
      some (countIn (A k) 0 division, countIn (A k) division nruns) := by
  unfold attainedLeftRight
  rw [if_pos hd, bitCount_rep h hk 0 division (by omega), bitCount_rep h hk division (nruns - division) (by omega),
    countIn_shift, countIn_shift]
  have : division + (nruns - division) = nruns := by omega
  rw [this, Nat.zero_add]

/-- **C27 (value).** For two sides of `s ≥ 1` sets each (runs `0..s-1` and `s..2s-1`), the value attached to a point is
`intervals · (fraction of left sets attaining it − fraction of right sets attaining it)`, both in the matrix of
points and in the rectangles. -/
theorem C27_eafdiff_value_equal_sides_partial (s rows intervals : ℕ) (hs : 1 ≤ s) (m : List (BitVec 64))
    (hm : m.length = rows * bitNwords (2 * s)) (i : ℕ) (hi : i < rows) (att : ℕ → Bool)
    (hatt : ∀ r < 2 * s, bitArrayGet m (bitArrayOffset 0 i (2 * s)) r = some (att r)) :
    eafdiffMatrixValue m i (2 * s) intervals =
      some ((intervals : K) * ((countIn att 0 s : K) / (s : K) - (countIn att s (2 * s) : K) / (s : K))) ∧
    eafdiffRectValue m i (2 * s) intervals =
      some ((intervals : K) * ((countIn att 0 s : K) / (s : K) - (countIn att s (2 * s) : K) / (s : K))) := by
  obtain ⟨A, hA⟩ := bitRep_any rows (2 * s) m hm
  have hAi : ∀ r < 2 * s, A i r = att r := by
    intro r hr
    have h1 := hA.get i hi r hr
    rw [hatt r hr] at h1
    simpa using h1.symm
  have hc : ∀ lo hi', hi' ≤ 2 * s → countIn (A i) lo hi' = countIn att lo hi' := by
    intro lo hi' hle
    unfold countIn
    congr 1
    apply List.filter_congr
    intro r hr
    rw [hAi r (lt_of_lt_of_le (List.mem_range.1 hr) hle)]
  have hdiv : 2 * s / 2 = s := by omega
  have hspec := attainedLeftRight_spec hA (k := i) (division := s) hi (by omega)
  rw [hc 0 s (by omega), hc s (2 * s) le_rfl] at hspec
  have hsub : 2 * s - s = s := by omega
  constructor
  · unfold eafdiffMatrixValue eafdiffPercentile
    rw [hdiv, hspec]
    dsimp only
    rw [hsub]
  · unfold eafdiffRectValue eafDiffColor
    rw [hdiv, hspec]
    dsimp only
    rw [Option.map_some]
    congr 1
    push_cast
    rw [← sub_div, mul_div_assoc]

/-- **C27 (range).** The value is in `[-intervals, intervals]`. -/
theorem C27_eafdiff_range (s intervals : ℕ) (att : ℕ → Bool) :
    -(intervals : K) ≤ (intervals : K) * ((countIn att 0 s : K) / (s : K) - (countIn att s (2 * s) : K) / (s : K)) ∧
    (intervals : K) * ((countIn att 0 s : K) / (s : K) - (countIn att s (2 * s) : K) / (s : K)) ≤ (intervals : K) := by
  have h1 : (countIn att 0 s : K) / (s : K) ≤ 1 := by
    apply div_le_one_of_le₀ _ (Nat.cast_nonneg s)
    have := countIn_le att 0 s; exact_mod_cast (by omega : countIn att 0 s ≤ s)
  have h2 : (countIn att s (2 * s) : K) / (s : K) ≤ 1 := by
    apply div_le_one_of_le₀ _ (Nat.cast_nonneg s)
    have := countIn_le att s (2 * s); exact_mod_cast (by omega : countIn att s (2 * s) ≤ s)
  have h3 : (0 : K) ≤ (countIn att 0 s : K) / (s : K) := by positivity
  have h4 : (0 : K) ≤ (countIn att s (2 * s) : K) / (s : K) := by positivity
  have hI : (0 : K) ≤ (intervals : K) := Nat.cast_nonneg _
  constructor <;> nlinarith

/-- exchanging the two sides of the runs -/
def swapSides (s : ℕ) (att : ℕ → Bool) : ℕ → Bool := fun r => if r < s then att (s + r) else att (r - s)

/-- **C27 (antisymmetry).** Exchanging left and right sets negates the value. -/
theorem C27_eafdiff_antisymm (s rows intervals : ℕ) (hs : 1 ≤ s) (m m' : List (BitVec 64))
    (hm : m.length = rows * bitNwords (2 * s)) (hm' : m'.length = rows * bitNwords (2 * s)) (i : ℕ) (hi : i < rows)
    (att : ℕ → Bool) (hatt : ∀ r < 2 * s, bitArrayGet m (bitArrayOffset 0 i (2 * s)) r = some (att r))
    (hatt' : ∀ r < 2 * s, bitArrayGet m' (bitArrayOffset 0 i (2 * s)) r = some (swapSides s att r)) :
    ∃ v : K, eafdiffMatrixValue m i (2 * s) intervals = some v ∧ eafdiffMatrixValue m' i (2 * s) intervals = some (-v) := by
  refine ⟨_, (C27_eafdiff_value_equal_sides_partial s rows intervals hs m hm i hi att hatt).1, ?_⟩
  rw [(C27_eafdiff_value_equal_sides_partial s rows intervals hs m' hm' i hi _ hatt').1]
  have h2 : 2 * s = s + s := by omega
  have e1 : countIn (swapSides s att) 0 s = countIn att s (2 * s) := by
    have h := countIn_shift att s s
    have h' := countIn_shift (swapSides s att) 0 s
    rw [Nat.zero_add] at h'
    rw [h2, ← h, ← h']
    congr 1
    apply List.filter_congr
    intro r hr
    have := List.mem_range.1 hr
    simp [swapSides, this]
  have e2 : countIn (swapSides s att) s (2 * s) = countIn att 0 s := by
    have h := countIn_shift (swapSides s att) s s
    have h' := countIn_shift att 0 s
    rw [Nat.zero_add] at h'
    rw [h2, ← h, ← h']
    congr 1
    apply List.filter_congr
    intro r hr
    simp [swapSides]
  rw [e1, e2]
  congr 1; ring

/-- **C27 (defect).** With different numbers of sets on the two sides (here 3 and 1) the code still splits the runs in halves: a point attained by
every left set and no right set gets half of the right value `intervals · (3/3 − 0/1)`. -/
theorem C27_false_unequal_sides :
    ∃ (m : List (BitVec 64)) (att : ℕ → Bool),
      (∀ r < 4, bitArrayGet m (bitArrayOffset 0 0 4) r = some (att r)) ∧
      (∀ r < 3, att r = true) ∧ att 3 = false ∧
      eafdiffMatrixValue m 0 4 2 = some (1 : ℚ) ∧
      (2 : ℚ) * ((countIn att 0 3 : ℚ) / 3 - (countIn att 3 4 : ℚ) / 1) = 2 := by
  refine ⟨[7#64], fun r => decide (r < 3), by decide, by decide, by decide, ?_, ?_⟩
  · have h : attainedLeftRight [7#64] (bitArrayOffset 0 0 4) (4 / 2) 4 = some (2, 1) := by decide
    unfold eafdiffMatrixValue eafdiffPercentile
    rw [h]; norm_num
  · have h1 : countIn (fun r => decide (r < 3)) 0 3 = 3 := by decide
    have h2 : countIn (fun r => decide (r < 3)) 3 4 = 0 := by decide
    rw [h1, h2]; norm_num

/-- Non-vacuity of the hypotheses of `C27_eafdiff_value_equal_sides_partial`. -/
example : ∀ r < 2 * 2, bitArrayGet [0#64, 11#64] (bitArrayOffset 0 1 (2 * 2)) r = some (decide (r ≠ 2)) := by decide

end Moo
