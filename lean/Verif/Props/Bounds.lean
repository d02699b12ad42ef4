import Verif.Model.Bounds
import Mathlib.Data.Nat.Count
import Mathlib.Data.List.Range
import Mathlib.Algebra.Order.Ring.Int
import Mathlib.Data.Finset.Max
import Mathlib.Data.Finset.Prod
import Mathlib.Data.Fintype.Basic

/-!
# Property C38 (bounds) and C45 (extreme points)
-/

set_option autoImplicit false
set_option linter.unusedSectionVars false

namespace Moo

section
variable {α : Type*} [LinearOrder α]

/-! ## `data_bounds` -/

theorem boundsRow_spec (nobj : ℕ) (row : ℕ → α) (mm : (ℕ → α) × (ℕ → α)) (d : ℕ) :
    (boundsRow nobj row mm).1 d = (if d < nobj then min (mm.1 d) (row d) else mm.1 d) ∧
      (boundsRow nobj row mm).2 d = (if d < nobj then max (mm.2 d) (row d) else mm.2 d) := by
  unfold boundsRow
  induction nobj with
  | zero => simp
  | succ n ih =>
    rw [List.range_succ, List.foldl_append]
    simp only [List.foldl_cons, List.foldl_nil]
    generalize (List.range n).foldl _ mm = m at ih
    have key1 : (if m.1 n > row n then upd m.1 n (row n) else m.1) = upd m.1 n (min (m.1 n) (row n)) := by
      funext i
      by_cases hi : i = n
      · subst hi
        split_ifs with h
        · rw [upd_same, upd_same, min_eq_right h.le]
        · rw [upd_same, min_eq_left (not_lt.1 h)]
      · rw [upd_ne _ _ hi]; split_ifs
        · rw [upd_ne _ _ hi]
        · rfl
    have key2 : (if m.2 n < row n then upd m.2 n (row n) else m.2) = upd m.2 n (max (m.2 n) (row n)) := by
      funext i
      by_cases hi : i = n
      · subst hi
        split_ifs with h
        · rw [upd_same, upd_same, max_eq_right h.le]
        · rw [upd_same, max_eq_left (not_lt.1 h)]
      · rw [upd_ne _ _ hi]; split_ifs
        · rw [upd_ne _ _ hi]
        · rfl
    rw [key1, key2]
    by_cases hd : d = n
    · subst hd
      rw [upd_same, upd_same, ih.1, ih.2]
      simp
    · rw [upd_ne _ _ hd, upd_ne _ _ hd, ih.1, ih.2]
      by_cases h : d < n
      · rw [if_pos h, if_pos h, if_pos (by omega), if_pos (by omega)]; exact ⟨rfl, rfl⟩
      · rw [if_neg h, if_neg h, if_neg (by omega), if_neg (by omega)]; exact ⟨rfl, rfl⟩

theorem boundsFold_spec (nobj : ℕ) (data : ℕ → ℕ → α) (l : List ℕ) : ∀ (mm : (ℕ → α) × (ℕ → α)) (d : ℕ), d < nobj →
    (∀ v, v ≤ (l.foldl (fun mm r => boundsRow nobj (data r) mm) mm).1 d ↔ v ≤ mm.1 d ∧ ∀ r ∈ l, v ≤ data r d) ∧
    (∀ v, (l.foldl (fun mm r => boundsRow nobj (data r) mm) mm).2 d ≤ v ↔ mm.2 d ≤ v ∧ ∀ r ∈ l, data r d ≤ v) := by
  induction l with
  | nil => intro mm d _; simp
  | cons r l ih =>
    intro mm d hd
    obtain ⟨h1, h2⟩ := ih (boundsRow nobj (data r) mm) d hd
    obtain ⟨g1, g2⟩ := boundsRow_spec nobj (data r) mm d
    rw [if_pos hd] at g1 g2
    constructor
    · intro v
      rw [List.foldl_cons, h1, g1, le_min_iff]
      simp [and_assoc]
    · intro v
      rw [List.foldl_cons, h2, g2, max_le_iff]
      simp [and_assoc]

/-- `m` is the least, `M` the greatest entry of column `d` of the first `rows` rows. -/
def ColBounds (rows : ℕ) (data : ℕ → ℕ → α) (d : ℕ) (m M : α) : Prop :=
  ((∃ r < rows, data r d = m) ∧ ∀ r < rows, m ≤ data r d) ∧ ((∃ r < rows, data r d = M) ∧ ∀ r < rows, data r d ≤ M)

theorem colBounds_of {rows : ℕ} (hr : 0 < rows) {data : ℕ → ℕ → α} {d : ℕ} {m M : α} (h1 : ∀ v, v ≤ m ↔ ∀ r < rows, v ≤ data r d)
    (h2 : ∀ v, M ≤ v ↔ ∀ r < rows, data r d ≤ v) : ColBounds rows data d m M := by
  have hne : (Finset.range rows).Nonempty := ⟨0, Finset.mem_range.2 hr⟩
  have hm : ∀ r < rows, m ≤ data r d := (h1 m).1 le_rfl
  have hM : ∀ r < rows, data r d ≤ M := (h2 M).1 le_rfl
  refine ⟨⟨?_, hm⟩, ?_, hM⟩
  · obtain ⟨r, hr, hmin⟩ := (Finset.range rows).exists_min_image (fun r => data r d) hne
    have := (h1 (data r d)).2 (fun s hs => hmin s (Finset.mem_range.2 hs))
    exact ⟨r, Finset.mem_range.1 hr, le_antisymm this (hm r (Finset.mem_range.1 hr))⟩
  · obtain ⟨r, hr, hmax⟩ := (Finset.range rows).exists_max_image (fun r => data r d) hne
    have := (h2 (data r d)).2 (fun s hs => hmax s (Finset.mem_range.2 hs))
    exact ⟨r, Finset.mem_range.1 hr, le_antisymm (hM r (Finset.mem_range.1 hr)) this⟩

/-- **C38 (bounds)**: called with NULL bounds on a non-empty table, `data_bounds` of `nondominated` returns the minimum and the maximum of each objective
(for values between -DBL_MAX and INFINITY). -/
theorem C38_data_bounds {inf negInf : α} {nobj rows : ℕ} {data : ℕ → ℕ → α} (hr : 0 < rows) (hb : ∀ r < rows, ∀ d < nobj, negInf ≤ data r d ∧ data r d ≤ inf) :
    ∀ d < nobj, ColBounds rows data d ((dataBounds inf negInf nobj rows data none none).1 d) ((dataBounds inf negInf nobj rows data none none).2 d) := by
  intro d hd
  obtain ⟨h1, h2⟩ := boundsFold_spec nobj data (List.range rows) ((fun _ => inf), (fun _ => negInf)) d hd
  apply colBounds_of hr
  · intro v
    refine (h1 v).trans ?_
    simp only [List.mem_range]
    exact ⟨fun h => h.2, fun h => ⟨(h 0 hr).trans (hb 0 hr d hd).2, h⟩⟩
  · intro v
    refine (h2 v).trans ?_
    simp only [List.mem_range]
    exact ⟨fun h => h.2, fun h => ⟨(hb 0 hr d hd).1.trans (h 0 hr), h⟩⟩

/-- **C38 (bounds of several files)**: called with the bounds of earlier tables, both versions return the bounds of all of them. -/
theorem C38_data_bounds_accumulate {inf negInf : α} {nobj rows : ℕ} {data : ℕ → ℕ → α} {m M : ℕ → α} :
    ∀ d < nobj, (∀ v, v ≤ (dataBounds inf negInf nobj rows data (some m) (some M)).1 d ↔ v ≤ m d ∧ ∀ r < rows, v ≤ data r d) ∧
      (∀ v, (dataBounds inf negInf nobj rows data (some m) (some M)).2 d ≤ v ↔ M d ≤ v ∧ ∀ r < rows, data r d ≤ v) ∧
      dataBoundsHv nobj rows data (some m) (some M) = dataBounds inf negInf nobj rows data (some m) (some M) := by
  intro d hd
  obtain ⟨h1, h2⟩ := boundsFold_spec nobj data (List.range rows) (m, M) d hd
  simp only [List.mem_range] at h1 h2
  refine ⟨h1, h2, ?_⟩
  simp [dataBoundsHv, dataBounds, List.range_eq_range']

/-- **C38 (bounds, `hv` program)**: called with NULL bounds on a non-empty table. -/
theorem C38_data_bounds_hv {nobj rows : ℕ} {data : ℕ → ℕ → α} (hr : 0 < rows) :
    ∀ d < nobj, ColBounds rows data d ((dataBoundsHv nobj rows data none none).1 d) ((dataBoundsHv nobj rows data none none).2 d) := by
  intro d hd
  obtain ⟨h1, h2⟩ := boundsFold_spec nobj data (List.range' 1 (rows - 1)) (data 0, data 0) d hd
  have hall : ∀ p : ℕ → Prop, (p 0 ∧ ∀ r ∈ List.range' 1 (rows - 1), p r) ↔ ∀ r < rows, p r := by
    intro p
    simp only [List.mem_range'_1]
    constructor
    · rintro ⟨h0, h⟩ r hr'
      rcases Nat.eq_zero_or_pos r with rfl | hp
      · exact h0
      · exact h r ⟨hp, by omega⟩
    · intro h
      exact ⟨h 0 hr, fun r hr' => h r (by omega)⟩
  apply colBounds_of hr
  · intro v
    exact (h1 v).trans (hall (fun r => v ≤ data r d))
  · intro v
    exact (h2 v).trans (hall (fun r => data r d ≤ v))

/-- `any_less_than` -/
theorem anyLessThan_iff (a b : ℕ → α) (dim : ℕ) : anyLessThan a b dim = true ↔ ∃ d < dim, a d < b d := by
  simp [anyLessThan]

/-- The flag `outbounds[n]` is set unless all objectives are within the bounds. -/
theorem outbounds_eq_false (dim : ℕ) (pts : ℕ → ℕ → α) (lbound ubound : ℕ → α) (n : ℕ) :
    outbounds dim pts lbound ubound n = false ↔ ∀ d < dim, lbound d ≤ pts n d ∧ pts n d ≤ ubound d := by
  unfold outbounds
  rw [Bool.or_eq_false_iff, ← Bool.not_eq_true, ← Bool.not_eq_true, anyLessThan_iff, anyLessThan_iff]
  push Not
  exact ⟨fun h d hd => ⟨h.1 d hd, h.2 d hd⟩, fun h => ⟨fun d hd => (h d hd).1, fun d hd => (h d hd).2⟩⟩

end

/-! ## `force_bounds` -/

section
variable {β : Type*}

/-- First row of set `k`. -/
def setStart (cum : ℕ → ℕ) (k : ℕ) : ℕ := if k = 0 then 0 else cum (k - 1)

/-- The rows of set `k`. -/
def setRows (pts : ℕ → β) (cum : ℕ → ℕ) (k : ℕ) : List β := (List.range' (setStart cum k) (cum k - setStart cum k)).map pts

theorem fbFound_spec (out : ℕ → Bool) (size : ℕ) :
    (fbFound out size = none ∧ ∀ n < size, out n = false) ∨
      ∃ f < size, fbFound out size = some f ∧ out f = true ∧ ∀ n < f, out n = false := by
  have key : ∀ (m : ℕ) (f0 : Option ℕ), ((List.range m).reverse.foldl (fun f n => if out n then some n else f) f0 = f0 ∧ ∀ n < m, out n = false) ∨
      ∃ f < m, (List.range m).reverse.foldl (fun f n => if out n then some n else f) f0 = some f ∧ out f = true ∧ ∀ n < f, out n = false := by
    intro m
    induction m with
    | zero => intro f0; left; simp
    | succ m ih =>
      intro f0
      rw [List.range_succ, List.reverse_append, List.reverse_singleton, List.singleton_append, List.foldl_cons]
      rcases ih (if out m then some m else f0) with ⟨h1, h2⟩ | ⟨f, hf, h1, h2, h3⟩
      · by_cases hm : out m = true
        · right
          exact ⟨m, by omega, by rw [h1, if_pos hm], hm, h2⟩
        · left
          rw [h1, if_neg hm]
          refine ⟨rfl, fun n hn => ?_⟩
          rcases Nat.lt_succ_iff_lt_or_eq.1 hn with h | rfl
          · exact h2 n h
          · simpa using hm
      · right
        exact ⟨f, by omega, h1, h2, h3⟩
  exact key size none

theorem fbFindSet_spec {cum : ℕ → ℕ} {found nsets : ℕ} (h : found < cum (nsets - 1)) (hn : 0 < nsets) :
    ∃ k < nsets, fbFindSet cum found nsets 0 = some k ∧ found < cum k ∧ ∀ j < k, cum j ≤ found := by
  have key : ∀ (f k : ℕ), k + f = nsets → 0 < f → (∀ j < k, cum j ≤ found) →
      ∃ k' < nsets, fbFindSet cum found f k = some k' ∧ found < cum k' ∧ ∀ j < k', cum j ≤ found := by
    intro f
    induction f with
    | zero => intro k _ h; omega
    | succ f ih =>
      intro k hk _ hj
      rw [fbFindSet]
      split_ifs with hc
      · rcases Nat.eq_zero_or_pos f with rfl | hf
        · have : k = nsets - 1 := by omega
          subst this; omega
        · refine ih (k + 1) (by omega) hf ?_
          intro j hj'
          rcases Nat.lt_succ_iff_lt_or_eq.1 hj' with h | rfl
          · exact hj j h
          · exact hc
      · exact ⟨k, by omega, rfl, by omega, hj⟩
  exact key nsets 0 (by omega) hn (by simp)

/-- The invariant of the deletion loop. -/
structure FbInv (out : ℕ → Bool) (P : ℕ → β) (cum : ℕ → ℕ) (nsets : ℕ) (s : FbSt β) : Prop where
  hn : s.n = ((List.range s.n2).filter (fun i => !out i)).length
  hle : s.n ≤ s.n2
  hrows : (List.range s.n).map s.pts = ((List.range s.n2).filter (fun i => !out i)).map P
  hrest : ∀ i ≥ s.n2, s.pts i = P i
  hss : ∀ j < nsets, s.ss j = (((List.range' (setStart cum j) (cum j - setStart cum j)).filter (fun i => !(out i && decide (i < s.n2)))).length : ℤ)

theorem fbWhile_spec {out : ℕ → Bool} {P : ℕ → β} {cum : ℕ → ℕ} {nsets : ℕ} (hmono : ∀ j, j + 1 < nsets → cum j ≤ cum (j + 1)) {k : ℕ} (hk : k < nsets) :
    ∀ (f : ℕ) (s : FbSt β), FbInv out P cum nsets s → s.n2 + f ≤ cum k → setStart cum k ≤ s.n2 →
      FbInv out P cum nsets (fbWhile out k f s) ∧ (fbWhile out k f s).n2 = s.n2 + f := by
  have hmono' : ∀ i j, i ≤ j → j < nsets → cum i ≤ cum j := by
    intro i j hij
    induction j, hij using Nat.le_induction with
    | base => intro _; exact le_rfl
    | succ j _ ih => intro hj; exact (ih (by omega)).trans (hmono j hj)
  intro f
  induction f with
  | zero => intro s h _ _; exact ⟨h, rfl⟩
  | succ f ih =>
    intro s h hlt hst
    have hstart : ∀ j < nsets, k < j → s.n2 < setStart cum j := by
      intro j hj hkj
      unfold setStart
      rw [if_neg (by omega)]
      have := hmono' k (j - 1) (by omega) (by omega)
      omega
    have hend : ∀ j < nsets, j < k → cum j ≤ s.n2 := by
      intro j hj hjk
      refine le_trans ?_ hst
      unfold setStart
      rw [if_neg (by omega)]
      exact hmono' j (k - 1) (by omega) (by omega)
    have hfil : ∀ j < nsets, j ≠ k → (List.range' (setStart cum j) (cum j - setStart cum j)).filter (fun i => !(out i && decide (i < s.n2 + 1))) =
        (List.range' (setStart cum j) (cum j - setStart cum j)).filter (fun i => !(out i && decide (i < s.n2))) := by
      intro j hj hjk
      apply List.filter_congr
      intro i hi
      rw [List.mem_range'_1] at hi
      have : i ≠ s.n2 := by
        rcases lt_or_gt_of_ne hjk with h' | h'
        · have := hend j hj h'; omega
        · have := hstart j hj h'; omega
      have : (i < s.n2 + 1) ↔ i < s.n2 := by omega
      simp [this]
    have hsplit : List.range' (setStart cum k) (cum k - setStart cum k) =
        List.range' (setStart cum k) (s.n2 - setStart cum k) ++ s.n2 :: List.range' (s.n2 + 1) (cum k - (s.n2 + 1)) := by
      have e1 : cum k - setStart cum k = (s.n2 - setStart cum k) + ((cum k - (s.n2 + 1)) + 1) := by omega
      rw [e1, ← List.range'_append_1, List.range'_succ]
      congr 3 <;> omega
    have hA : (List.range' (setStart cum k) (s.n2 - setStart cum k)).filter (fun i => !(out i && decide (i < s.n2 + 1))) =
        (List.range' (setStart cum k) (s.n2 - setStart cum k)).filter (fun i => !(out i && decide (i < s.n2))) := by
      apply List.filter_congr
      intro i hi
      rw [List.mem_range'_1] at hi
      have h1 : i < s.n2 + 1 := by omega
      have h2 : i < s.n2 := by omega
      simp [h1, h2]
    have hB : (List.range' (s.n2 + 1) (cum k - (s.n2 + 1))).filter (fun i => !(out i && decide (i < s.n2 + 1))) =
        (List.range' (s.n2 + 1) (cum k - (s.n2 + 1))).filter (fun i => !(out i && decide (i < s.n2))) := by
      apply List.filter_congr
      intro i hi
      rw [List.mem_range'_1] at hi
      have h1 : ¬ i < s.n2 + 1 := by omega
      have h2 : ¬ i < s.n2 := by omega
      simp [h1, h2]
    have hrange : (List.range (s.n2 + 1)).filter (fun i => !out i) = (List.range s.n2).filter (fun i => !out i) ++ (if out s.n2 then [] else [s.n2]) := by
      rw [List.range_succ, List.filter_append]
      cases ho : out s.n2 <;> simp [ho]
    rw [fbWhile]
    cases ho : out s.n2
    · simp only [Bool.false_eq_true, if_false]
      rw [ho] at hrange
      simp only [Bool.false_eq_true, if_false] at hrange
      have inv : FbInv out P cum nsets { s with pts := upd s.pts s.n (s.pts s.n2), n := s.n + 1, n2 := s.n2 + 1 } := by
        refine ⟨?_, ?_, ?_, ?_, ?_⟩
        · dsimp only; rw [hrange, List.length_append, ← h.hn]; rfl
        · dsimp only; have := h.hle; omega
        · dsimp only
          rw [hrange, List.range_succ, List.map_append, List.map_append, ← h.hrows]
          congr 1
          · apply List.map_congr_left
            intro i hi
            rw [List.mem_range] at hi
            rw [upd_ne _ _ (by omega)]
          · simp [upd_same, h.hrest s.n2 le_rfl]
        · intro i hi
          dsimp only at hi ⊢
          have := h.hle
          rw [upd_ne _ _ (by omega)]
          exact h.hrest i (by omega)
        · intro j hj
          dsimp only
          rw [h.hss j hj]
          by_cases hjk : j = k
          · subst hjk
            rw [hsplit, List.filter_append, List.filter_append, List.filter_cons, List.filter_cons, hA, hB]
            simp [ho]
          · rw [hfil j hj hjk]
      obtain ⟨g1, g2⟩ := ih _ inv (by dsimp only; omega) (by dsimp only; omega)
      exact ⟨g1, by rw [g2]; dsimp only; omega⟩
    · simp only [if_true]
      rw [ho] at hrange
      simp only [if_true, List.append_nil] at hrange
      have inv : FbInv out P cum nsets { s with n2 := s.n2 + 1, ss := upd s.ss k (s.ss k - 1) } := by
        refine ⟨?_, ?_, ?_, ?_, ?_⟩
        · dsimp only; rw [hrange]; exact h.hn
        · dsimp only; have := h.hle; omega
        · dsimp only; rw [hrange]; exact h.hrows
        · intro i hi; exact h.hrest i (by dsimp only at hi; omega)
        · intro j hj
          dsimp only
          by_cases hjk : j = k
          · subst hjk
            rw [upd_same, h.hss j hj, hsplit, List.filter_append, List.filter_append, List.filter_cons, List.filter_cons, hA, hB]
            simp [ho]
            omega
          · rw [upd_ne _ _ hjk, h.hss j hj, hfil j hj hjk]
      obtain ⟨g1, g2⟩ := ih _ inv (by dsimp only; omega) (by dsimp only; omega)
      exact ⟨g1, by rw [g2]; dsimp only; omega⟩

theorem fbSets_spec {out : ℕ → Bool} {P : ℕ → β} {cum : ℕ → ℕ} {nsets : ℕ} (hmono : ∀ j, j + 1 < nsets → cum j ≤ cum (j + 1)) :
    ∀ (f k : ℕ) (s : FbSt β), k + f = nsets → 0 < f → FbInv out P cum nsets s → setStart cum k ≤ s.n2 → s.n2 ≤ cum k →
      FbInv out P cum nsets (fbSets out cum f k s) ∧ (fbSets out cum f k s).n2 = cum (nsets - 1) := by
  intro f
  induction f with
  | zero => intro k s _ h; omega
  | succ f ih =>
    intro k s hk _ h h1 h2
    obtain ⟨g1, g2⟩ := fbWhile_spec hmono (show k < nsets by omega) (cum k - s.n2) s h (by omega) h1
    rw [fbSets]
    have g3 : (fbWhile out k (cum k - s.n2) s).n2 = cum k := by rw [g2]; omega
    rcases Nat.eq_zero_or_pos f with rfl | hf
    · rw [fbSets]
      refine ⟨g1, ?_⟩
      rw [g3]; congr 1; omega
    · refine ih (k + 1) _ (by omega) hf g1 ?_ ?_
      · rw [g3]; simp [setStart]
      · rw [g3]; exact hmono k (by omega)

/-- **C38**: `force_bounds` returns whether some point is out of bounds; afterwards set `k` consists of exactly the rows of set `k` that are within the bounds, in
their original order, and the cumulative sizes are those of the new sets. -/
theorem C38_force_bounds_rows (out : ℕ → Bool) (P : ℕ → β) (cum : ℕ → ℕ) {nsets : ℕ} (hn : 0 < nsets) (hmono : ∀ j, j + 1 < nsets → cum j ≤ cum (j + 1)) :
    ∃ (b : Bool) (P' : ℕ → β) (cum' : ℕ → ℤ) (c : ℕ → ℕ), forceBounds out P cum nsets = some (b, P', cum') ∧ (∀ k < nsets, cum' k = c k) ∧
      (b = true ↔ ∃ i < cum (nsets - 1), out i = true) ∧ (∀ k, k + 1 < nsets → c k ≤ c (k + 1)) ∧
      ∀ k < nsets, setRows P' c k = ((List.range' (setStart cum k) (cum k - setStart cum k)).filter (fun i => !out i)).map P := by
  have hmono' : ∀ i j, i ≤ j → j < nsets → cum i ≤ cum j := by
    intro i j hij
    induction j, hij using Nat.le_induction with
    | base => intro _; exact le_rfl
    | succ j _ ih => intro hj; exact (ih (by omega)).trans (hmono j hj)
  unfold forceBounds
  rcases fbFound_spec out (cum (nsets - 1)) with ⟨h1, h2⟩ | ⟨found, hf, h1, h2, h3⟩
  · rw [h1]
    refine ⟨false, P, fun k => cum k, cum, rfl, fun _ _ => rfl, ?_, hmono, ?_⟩
    · simp only [Bool.false_eq_true, false_iff, not_exists, not_and, Bool.not_eq_true]; exact h2
    · intro k hk
      unfold setRows
      rw [List.filter_eq_self.2]
      intro i hi
      rw [List.mem_range'_1] at hi
      have := hmono' k (nsets - 1) (by omega) (by omega)
      simp [h2 i (by omega)]
  · rw [h1]
    dsimp only
    obtain ⟨k, hk, e1, e2, e3⟩ := fbFindSet_spec hf hn
    rw [e1]
    dsimp only
    have hst : setStart cum k ≤ found := by
      unfold setStart
      split_ifs with h0
      · omega
      · exact e3 (k - 1) (by omega)
    have hfirst : (List.range (found + 1)).filter (fun i => !out i) = List.range found := by
      rw [List.range_succ, List.filter_append, List.filter_eq_self.2]
      · simp [h2]
      · intro i hi; simp [h3 i (List.mem_range.1 hi)]
    have inv : FbInv out P cum nsets (⟨P, found, found + 1, upd (fun k => if k = 0 then (cum 0 : ℤ) else (cum k : ℤ) - cum (k - 1)) k
        ((if k = 0 then (cum 0 : ℤ) else (cum k : ℤ) - cum (k - 1)) - 1)⟩ : FbSt β) := by
      refine ⟨by rw [hfirst]; simp, by simp, by rw [hfirst], fun _ _ => rfl, ?_⟩
      intro j hj
      dsimp only
      have hsz : (if j = 0 then (cum 0 : ℤ) else (cum j : ℤ) - cum (j - 1)) = ((cum j - setStart cum j : ℕ) : ℤ) := by
        unfold setStart
        split_ifs with h0
        · subst h0; simp
        · have := hmono' (j - 1) j (by omega) hj
          omega
      by_cases hjk : j = k
      · subst hjk
        rw [upd_same, hsz]
        have e : cum j - setStart cum j = (found - setStart cum j) + ((cum j - (found + 1)) + 1) := by omega
        rw [e, ← List.range'_append_1, List.range'_succ, List.filter_append, List.filter_cons]
        have e' : setStart cum j + (found - setStart cum j) = found := by omega
        rw [e']
        have hA : (List.range' (setStart cum j) (found - setStart cum j)).filter (fun i => !(out i && decide (i < found + 1))) =
            List.range' (setStart cum j) (found - setStart cum j) := by
          rw [List.filter_eq_self]
          intro i hi
          rw [List.mem_range'_1] at hi
          simp [h3 i (by omega)]
        have hB : (List.range' (found + 1) (cum j - (found + 1))).filter (fun i => !(out i && decide (i < found + 1))) =
            List.range' (found + 1) (cum j - (found + 1)) := by
          rw [List.filter_eq_self]
          intro i hi
          rw [List.mem_range'_1] at hi
          have : ¬ i < found + 1 := by omega
          simp [this]
        rw [hA, hB]
        simp [h2]
        omega
      · rw [upd_ne _ _ hjk, hsz, List.filter_eq_self.2]
        · simp
        · intro i hi
          rw [List.mem_range'_1] at hi
          rcases lt_or_gt_of_ne hjk with h' | h'
          · have := e3 j h'
            simp [h3 i (by omega)]
          · have h5 : cum k ≤ setStart cum j := by
              unfold setStart
              rw [if_neg (by omega)]
              exact hmono' k (j - 1) (by omega) (by omega)
            have : ¬ i < found + 1 := by omega
            simp [this]
    obtain ⟨g1, g2⟩ := fbSets_spec hmono (nsets - k) k _ (by omega) (by omega) inv (by dsimp only; omega) (by dsimp only; omega)
    generalize fbSets out cum (nsets - k) k _ = s at g1 g2
    -- the number of rows kept among the first `m`
    have hcum : ∀ j < nsets, fbCum s.ss j = (((List.range (cum j)).filter (fun i => !out i)).length : ℤ) := by
      have hss : ∀ j < nsets, s.ss j = (((List.range' (setStart cum j) (cum j - setStart cum j)).filter (fun i => !out i)).length : ℤ) := by
        intro j hj
        rw [g1.hss j hj]
        congr 2
        apply List.filter_congr
        intro i hi
        rw [List.mem_range'_1] at hi
        have := hmono' j (nsets - 1) (by omega) (by omega)
        have : i < s.n2 := by omega
        simp [this]
      intro j
      induction j with
      | zero => intro hj; rw [fbCum, hss 0 hj]; simp [setStart, List.range_eq_range']
      | succ j ih =>
        intro hj
        rw [fbCum, ih (by omega), hss (j + 1) hj]
        have hm := hmono j hj
        have : List.range (cum (j + 1)) = List.range (cum j) ++ List.range' (cum j) (cum (j + 1) - cum j) := by
          rw [List.range_eq_range', List.range_eq_range']
          have := List.range'_append_1 (s := 0) (m := cum j) (n := cum (j + 1) - cum j)
          rw [Nat.zero_add] at this
          rw [this]; congr 1; omega
        rw [this, List.filter_append, List.length_append]
        simp [setStart]
        omega
    have hkept : ∀ a b, a ≤ b → (List.range b).filter (fun i => !out i) = (List.range a).filter (fun i => !out i) ++ (List.range' a (b - a)).filter (fun i => !out i) := by
      intro a b hab
      have : List.range b = List.range a ++ List.range' a (b - a) := by
        rw [List.range_eq_range', List.range_eq_range']
        have := List.range'_append_1 (s := 0) (m := a) (n := b - a)
        rw [Nat.zero_add] at this
        rw [this]; congr 1; omega
      rw [this, List.filter_append]
    let c : ℕ → ℕ := fun m => ((List.range (cum m)).filter (fun i => !out i)).length
    refine ⟨true, s.pts, fbCum s.ss, c, rfl, hcum, ⟨fun _ => ⟨found, hf, h2⟩, fun _ => rfl⟩, ?_, ?_⟩
    · intro j hj
      dsimp only [c]
      rw [hkept (cum j) (cum (j + 1)) (hmono j hj), List.length_append]
      omega
    · intro j hj
      -- the rows of the new set
      have hle := hmono' j (nsets - 1) (by omega) (by omega)
      have hsj : setStart cum j ≤ cum j := by
        unfold setStart
        split_ifs with h0
        · omega
        · exact hmono' (j - 1) j (by omega) hj
      have hrows := g1.hrows
      rw [g1.hn, g2, hkept (cum j) _ hle, hkept _ _ hsj] at hrows
      set A := (List.range (setStart cum j)).filter (fun i => !out i) with hA
      set B := (List.range' (setStart cum j) (cum j - setStart cum j)).filter (fun i => !out i) with hB
      have hcs : setStart c j = A.length := by
        by_cases h0 : j = 0
        · subst h0; simp [setStart, hA]
        · simp only [setStart, if_neg h0, hA, c]
      have hcj : c j = A.length + B.length := by
        simp only [c]
        rw [hkept _ _ hsj, List.length_append]
      unfold setRows
      rw [hcs, hcj, Nat.add_sub_cancel_left]
      have e : (List.range' A.length B.length).map s.pts = ((((List.range (A ++ B ++ (List.range' (cum j) (cum (nsets - 1) - cum j)).filter (fun i => !out i)).length).map s.pts).drop A.length).take B.length) := by
        apply List.ext_getElem
        · simp
        · intro i h1 h2
          simp
      rw [e, hrows]
      simp [List.map_append]

end

section
variable {α : Type*} [LinearOrder α]

/-- **C38**: `force_bounds` keeps, per set and in order, exactly the points within the bounds; the returned flag says whether a point was removed. -/
theorem C38_force_bounds (dim : ℕ) (P : ℕ → ℕ → α) (cum : ℕ → ℕ) {nsets : ℕ} (lbound ubound : ℕ → α) (hn : 0 < nsets)
    (hmono : ∀ j, j + 1 < nsets → cum j ≤ cum (j + 1)) :
    ∃ (b : Bool) (P' : ℕ → ℕ → α) (cum' : ℕ → ℤ) (c : ℕ → ℕ), forceBounds (outbounds dim P lbound ubound) P cum nsets = some (b, P', cum') ∧
      (∀ k < nsets, cum' k = c k) ∧ (∀ k, k + 1 < nsets → c k ≤ c (k + 1)) ∧
      (b = false ↔ ∀ i < cum (nsets - 1), ∀ d < dim, lbound d ≤ P i d ∧ P i d ≤ ubound d) ∧
      ∀ k < nsets, setRows P' c k = (setRows P cum k).filter (fun p => decide (∀ d < dim, lbound d ≤ p d ∧ p d ≤ ubound d)) := by
  obtain ⟨b, P', cum', c, h1, h2, h3, h4, h5⟩ := C38_force_bounds_rows (outbounds dim P lbound ubound) P cum hn hmono
  refine ⟨b, P', cum', c, h1, h2, h4, ?_, ?_⟩
  · rw [← Bool.not_eq_true, h3]
    push Not
    simp only [Bool.not_eq_true, outbounds_eq_false]
  · intro k hk
    rw [h5 k hk, setRows, List.filter_map]
    congr 1
    apply List.filter_congr
    intro i _
    rw [Bool.eq_iff_iff, Bool.not_eq_true', outbounds_eq_false]
    simp

/-- Non-vacuity: two sets, a point of the first and one of the second out of bounds. -/
example : (forceBounds (outbounds 1 (fun i _ => (i : ℤ)) (fun _ => 1) (fun _ => 3)) (fun i _ => (i : ℤ)) (fun k => if k = 0 then 2 else 5) 2).map
    (fun r => (r.1, (List.range 3).map (fun i => r.2.1 i 0), r.2.2 0, r.2.2 1)) = some (true, [1, 2, 3], 1, 3) := by decide +kernel

example : (dataBounds (100 : ℤ) (-100) 2 3 (fun i d => if d = 0 then (i : ℤ) else 5 - i) none none).1 1 = 3 ∧
    (dataBounds (100 : ℤ) (-100) 2 3 (fun i d => if d = 0 then (i : ℤ) else 5 - i) none none).2 0 = 2 := by decide +kernel

/-! ## `calculate_uev` -/

/-- Row `j` is the first of the `size` rows with value `v` in objective `i`. -/
def FirstWith (points : ℕ → ℕ → α) (size i : ℕ) (v : α) (j : ℕ) : Prop := j < size ∧ points j i = v ∧ ∀ j' < j, points j' i ≠ v

theorem uevMark_spec (points : ℕ → ℕ → α) (i : ℕ) (v : α) (m : ℕ) : ∀ (start : ℕ) (uev : ℕ → Bool) (j : ℕ),
    (uevMark points i v (List.range' start m) uev j = true ↔ uev j = true ∨ (start ≤ j ∧ j < start + m ∧ points j i = v ∧ ∀ j', start ≤ j' → j' < j → points j' i ≠ v)) := by
  induction m with
  | zero => intro start uev j; simp [uevMark]; omega
  | succ m ih =>
    intro start uev j
    rw [List.range'_succ, uevMark]
    split_ifs with h
    · rw [upd_apply]
      split_ifs with hj
      · subst hj
        simp only [true_iff]
        exact Or.inr ⟨le_rfl, by omega, h, fun j' h1 h2 => by omega⟩
      · constructor
        · exact Or.inl
        · rintro (h' | ⟨h1, h2, h3, h4⟩)
          · exact h'
          · exact absurd h (h4 start le_rfl (by omega))
    · rw [ih]
      constructor
      · rintro (h' | ⟨h1, h2, h3, h4⟩)
        · exact Or.inl h'
        · refine Or.inr ⟨by omega, by omega, h3, fun j' h5 h6 => ?_⟩
          rcases Nat.eq_or_lt_of_le h5 with rfl | h7
          · exact h
          · exact h4 j' h7 h6
      · rintro (h' | ⟨h1, h2, h3, h4⟩)
        · exact Or.inl h'
        · have : start ≠ j := by rintro rfl; exact h h3
          exact Or.inr ⟨by omega, by omega, h3, fun j' h5 h6 => h4 j' (by omega) h6⟩

/-- **C45**: a row is flagged if and only if it is, for some objective, the first row attaining the given upper bound or the first row attaining the given lower bound. -/
theorem C45_calculate_uev (uev : ℕ → Bool) (points : ℕ → ℕ → α) (dim size : ℕ) (lbound ubound : ℕ → α) (j : ℕ) (hj : j < size) :
    calculateUev uev points dim size lbound ubound j = true ↔
      ∃ i < dim, FirstWith points size i (ubound i) j ∨ FirstWith points size i (lbound i) j := by
  have hmark : ∀ (i : ℕ) (v : α) (u : ℕ → Bool), uevMark points i v (List.range size) u j = true ↔ u j = true ∨ FirstWith points size i v j := by
    intro i v u
    rw [List.range_eq_range', uevMark_spec]
    unfold FirstWith
    simp
  unfold calculateUev
  induction dim with
  | zero => simp [hj]
  | succ dim ih =>
    rw [List.range_succ, List.foldl_append, List.foldl_cons, List.foldl_nil, hmark, hmark]
    refine (or_congr (or_congr ih Iff.rfl) Iff.rfl).trans ?_
    constructor
    · rintro ((⟨i, hi, h⟩ | h) | h)
      · exact ⟨i, by omega, h⟩
      · exact ⟨dim, by omega, Or.inl h⟩
      · exact ⟨dim, by omega, Or.inr h⟩
    · rintro ⟨i, hi, h⟩
      rcases Nat.lt_succ_iff_lt_or_eq.1 hi with h' | rfl
      · exact Or.inl (Or.inl ⟨i, h', h⟩)
      · rcases h with h | h
        · exact Or.inl (Or.inr h)
        · exact Or.inr h

/-- **C45 (number)**: with the bounds of the data itself (as the program calls it) some row is flagged for every objective and direction, hence at least one and
at most `2 * dim` rows are flagged. -/
theorem C45_exists (uev : ℕ → Bool) (points : ℕ → ℕ → α) (dim size : ℕ) (lbound ubound : ℕ → α)
    (hb : ∀ i < dim, ColBounds size points i (lbound i) (ubound i)) :
    (∀ i < dim, (∃ j < size, calculateUev uev points dim size lbound ubound j = true ∧ points j i = ubound i) ∧
      ∃ j < size, calculateUev uev points dim size lbound ubound j = true ∧ points j i = lbound i) ∧
    ((List.range size).filter (calculateUev uev points dim size lbound ubound)).length ≤ 2 * dim := by
  classical
  constructor
  · intro i hi
    obtain ⟨⟨⟨r, hr, h1⟩, _⟩, ⟨s, hs, h2⟩, _⟩ := hb i hi
    have hfirst : ∀ (v : α) (r : ℕ), r < size → points r i = v → ∃ j < size, FirstWith points size i v j := by
      intro v r hr hv
      have hex : ∃ j, points j i = v := ⟨r, hv⟩
      have hle := Nat.find_min' hex hv
      exact ⟨Nat.find hex, by omega, by omega, Nat.find_spec hex, fun j' h => Nat.find_min hex h⟩
    constructor
    · obtain ⟨j, hj, hf⟩ := hfirst _ s hs h2
      exact ⟨j, hj, (C45_calculate_uev uev points dim size lbound ubound j hj).2 ⟨i, hi, Or.inl hf⟩, hf.2.1⟩
    · obtain ⟨j, hj, hf⟩ := hfirst _ r hr h1
      exact ⟨j, hj, (C45_calculate_uev uev points dim size lbound ubound j hj).2 ⟨i, hi, Or.inr hf⟩, hf.2.1⟩
  · have huniq : ∀ {i v j j'}, FirstWith points size i v j → FirstWith points size i v j' → j = j' := by
      intro i v j j' h h'
      rcases lt_trichotomy j j' with hlt | he | hgt
      · exact absurd h.2.1 (h'.2.2 j hlt)
      · exact he
      · exact absurd h'.2.1 (h.2.2 j' hgt)
    let g : ℕ × Bool → ℕ := fun q => if h : ∃ j, FirstWith points size q.1 (if q.2 then ubound q.1 else lbound q.1) j then h.choose else 0
    have hsub : ((List.range size).filter (calculateUev uev points dim size lbound ubound)).toFinset ⊆ ((Finset.range dim) ×ˢ (Finset.univ : Finset Bool)).image g := by
      intro j hj
      simp only [List.mem_toFinset, List.mem_filter, List.mem_range] at hj
      obtain ⟨i, hi, h⟩ := (C45_calculate_uev uev points dim size lbound ubound j hj.1).1 hj.2
      rw [Finset.mem_image]
      rcases h with h | h
      · refine ⟨(i, true), by simp [hi], ?_⟩
        have hex : ∃ j, FirstWith points size i (if true then ubound i else lbound i) j := ⟨j, by simpa using h⟩
        refine (dif_pos hex).trans ?_
        exact huniq hex.choose_spec (by simpa using h)
      · refine ⟨(i, false), by simp [hi], ?_⟩
        have hex : ∃ j, FirstWith points size i (if false then ubound i else lbound i) j := ⟨j, by simpa using h⟩
        refine (dif_pos hex).trans ?_
        exact huniq hex.choose_spec (by simpa using h)
    have hnd : ((List.range size).filter (calculateUev uev points dim size lbound ubound)).Nodup := List.nodup_range.filter _
    rw [← List.toFinset_card_of_nodup hnd]
    calc _ ≤ _ := Finset.card_le_card hsub
      _ ≤ ((Finset.range dim) ×ˢ (Finset.univ : Finset Bool)).card := Finset.card_image_le
      _ = 2 * dim := by simp [Nat.mul_comm]

/-- Non-vacuity: three points, the bounds of the data. -/
example : (List.range 3).map (calculateUev (fun _ => true) (fun j i => if i = 0 then (j : ℤ) else (if j = 1 then 7 else 4)) 2 3 (fun i => if i = 0 then 0 else 4) (fun i => if i = 0 then 2 else 7)) =
    [true, true, true] := by decide +kernel

end

end Moo
