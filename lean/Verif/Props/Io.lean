import Verif.Lemmas.IoSets
import Verif.Spec.Eaf
import Verif.Lemmas.EafStore
import Mathlib.Data.Nat.Digits.Defs
import Mathlib.Algebra.Order.Ring.Int

/-!
# Properties of reading and writing data sets: C31, C32, C33

`scan` is the conversion `%lf` or `%d` of `fscanf`; what is assumed of it is `ScanOk`.  The text has neither vertical tabs nor form feeds (`CleanText`) where
lines matter: after one of these two characters the reader goes on with the same row on the next line.
-/

set_option autoImplicit false

namespace Moo

variable {V : Type*}

/-! ## C32 -/

/-- **C32 (every input)**: whatever the characters are, reading ends without a store outside of the blocks; the result is data of a rectangular
shape in non-empty sets, or one of the documented errors. -/
theorem C32_read_total {scan : NumScan V} (hs : ScanOk scan) (s : List Char) {fuel : ℕ} (hf : s.length + 2 < fuel) :
    ∃ out, readData scan fuel 0 [] [] s = some out ∧
      ((out.code = 0 ∧ 0 < out.nobjs ∧ out.cum ≠ [] ∧ out.cum.Pairwise (· < ·) ∧ (∀ c ∈ out.cum, 0 < c) ∧
          out.data.length = out.nobjs * out.cum.getLastD 0) ∨
        out.code = -1 ∨ out.code = -2 ∨ out.code = -4 ∨ out.code = -5) := by
  unfold readData
  dsimp only [List.length_nil]
  rw [if_pos rfl]
  obtain ⟨⟨rv, r⟩, h1, h2, h3⟩ := skipSeps_total fuel s (by omega)
  rw [h1]
  dsimp only at h2 h3 ⊢
  by_cases hr : rv = -1
  · rw [if_pos hr]
    exact ⟨_, rfl, Or.inr (Or.inl rfl)⟩
  · rw [if_neg hr]
    obtain ⟨out, e1, e2⟩ := readSets_total hs fuel ⟨0, [], 0, [], 0, 0⟩ r (by omega)
      ⟨⟨by simp, by simp⟩, by simp, by simp, by simp, by simp, by simp, by simp⟩ rfl
    refine ⟨out, e1, ?_⟩
    rcases e2 with ⟨e2, e3⟩ | e2 | e2 | e2
    · exact Or.inl ⟨e2, e3.pos, e3.ne, e3.chain, e3.cum0, e3.len⟩
    · exact Or.inr (Or.inr (Or.inr (Or.inl e2)))
    · exact Or.inr (Or.inr (Or.inl e2))
    · exact Or.inr (Or.inr (Or.inr (Or.inr e2)))

/-- **C32 (accepted)**: if every line is a separator or a row of `n` numbers and there is a row, the data sets are read as specified. -/
theorem C32_accept {scan : NumScan V} (hs : ScanOk scan) {s : List Char} (hc : CleanText s) {fuel : ℕ} (hf : s.length + 2 < fuel) {ks : List (LineKind V)}
    (hks : List.Forall₂ (IsLine scan) (textLines s) ks) {n : ℕ} (hfine : ∀ k ∈ ks, k = .sep ∨ ∃ vs, k = .row vs ∧ vs.length = n)
    (hrow : ∃ vs, LineKind.row vs ∈ ks) :
    readData scan fuel 0 [] [] s = some ⟨0, n, cumFrom 0 ((setsOf ks).map List.length), (setsOf ks).flatten.flatten⟩ := by
  obtain ⟨out, h1, h2⟩ := readData_lines hs (nobjs := 0) (cum := []) (data := []) (by simp) (by simp) hf hc hks
  obtain ⟨vs, hvs⟩ := hrow
  have hn : n ≠ 0 := by
    rcases hfine _ hvs with h | ⟨ws, h, hl⟩
    · cases h
    · cases h
      have : ∀ {ls : List (List Char)} {ks : List (LineKind V)}, List.Forall₂ (IsLine scan) ls ks → .row vs ∈ ks → vs ≠ [] := by
        intro ls ks h
        induction h with
        | nil => intro h; simp at h
        | cons h1 _ ih =>
          intro h
          rcases List.mem_cons.1 h with h | h
          · subst h; exact h1.2.1
          · exact ih h
      have := this hks hvs
      rw [← hl]
      simpa using this
  have hro : rowsOf ks ≠ [] := by
    clear hks hfine h2
    induction ks with
    | nil => simp at hvs
    | cons k ks ih =>
      cases k with
      | row ws => simp [rowsOf]
      | sep => rw [rowsOf]; · exact ih (by simpa using hvs)
               simp
      | bad => rw [rowsOf]; · exact ih (by simpa using hvs)
               simp
  rw [runLines_accept hn hfine hro (Or.inl rfl)] at h2
  rw [h1]
  congr 1
  obtain ⟨c, n', cum, data⟩ := out
  obtain ⟨e1, e2, e3, e4⟩ := h2
  simp only [List.nil_append, List.getLastD_nil] at e1 e2 e3 e4
  subst e1 e2 e3
  rw [e4 rfl, setsOf, setsAux_flatten]
  rfl

/-- **C32 (empty)**: a text with no rows and no other lines than comments and blank lines is reported as empty (-1). -/
theorem C32_empty {scan : NumScan V} (hs : ScanOk scan) {s : List Char} (hc : CleanText s) {fuel : ℕ} (hf : s.length + 2 < fuel)
    (h : ∀ l ∈ textLines s, (∃ t, l = '#' :: t) ∨ ∀ c ∈ l, isWs c = true) :
    ∃ out, readData scan fuel 0 [] [] s = some out ∧ out.code = -1 := by
  have hks : List.Forall₂ (IsLine scan) (textLines s) ((textLines s).map (fun _ => LineKind.sep)) := by
    generalize textLines s = ls at h
    induction ls with
    | nil => exact .nil
    | cons l ls ih => exact .cons (h l (by simp)) (ih (fun l hl => h l (by simp [hl])))
  obtain ⟨out, h1, h2⟩ := readData_lines hs (nobjs := 0) (cum := []) (data := []) (by simp) (by simp) hf hc hks
  exact ⟨out, h1, by rw [h2.code]; exact runLines_empty (by simp) _⟩

/-- **C32 (conversion)**: the first offending line is not a sequence of numbers: error -4. -/
theorem C32_conversion {scan : NumScan V} (hs : ScanOk scan) {s : List Char} (hc : CleanText s) {fuel : ℕ} (hf : s.length + 2 < fuel)
    {good rest : List (LineKind V)} (hks : List.Forall₂ (IsLine scan) (textLines s) (good ++ .bad :: rest)) {n : ℕ} (hn : 0 < n)
    (hfine : ∀ k ∈ good, k = .sep ∨ ∃ vs, k = .row vs ∧ vs.length = n) :
    ∃ out, readData scan fuel 0 [] [] s = some out ∧ out.code = -4 := by
  obtain ⟨out, h1, h2⟩ := readData_lines hs (nobjs := 0) (cum := []) (data := []) (by simp) (by simp) hf hc hks
  exact ⟨out, h1, by rw [h2.code]; exact runLines_bad (mode := .init) (m := ⟨0, [], 0, []⟩) (by omega) hfine ⟨Or.inl rfl, by simp⟩ rest⟩

/-- **C32 (columns)**: the first offending line is a row whose number of columns is not that of the first row: error -5. -/
theorem C32_columns {scan : NumScan V} (hs : ScanOk scan) {s : List Char} (hc : CleanText s) {fuel : ℕ} (hf : s.length + 2 < fuel)
    {good rest : List (LineKind V)} {vs : List V} (hks : List.Forall₂ (IsLine scan) (textLines s) (good ++ .row vs :: rest)) {n : ℕ} (hn : 0 < n)
    (hfine : ∀ k ∈ good, k = .sep ∨ ∃ vs, k = .row vs ∧ vs.length = n) (hrow : ∃ vs, LineKind.row vs ∈ good) (hvs : vs.length ≠ n) :
    ∃ out, readData scan fuel 0 [] [] s = some out ∧ out.code = -5 := by
  obtain ⟨out, h1, h2⟩ := readData_lines hs (nobjs := 0) (cum := []) (data := []) (by simp) (by simp) hf hc hks
  refine ⟨out, h1, ?_⟩
  rw [h2.code]
  refine runLines_columns (mode := .init) (m := ⟨0, [], 0, []⟩) (by omega) hfine ⟨Or.inl rfl, by simp⟩ (Or.inl ?_) hvs rest
  obtain ⟨ws, hws⟩ := hrow
  clear hks hfine h2
  induction good with
  | nil => simp at hws
  | cons k good ih =>
    cases k with
    | row ws => simp [rowsOf]
    | sep => rw [rowsOf]; · exact ih (by simpa using hws)
             simp
    | bad => rw [rowsOf]; · exact ih (by simpa using hws)
             simp

/-- **C32 (later files)**: reading a further file when data is already there.  Rows with the same number of columns are appended as new sets. -/
theorem C32_append {scan : NumScan V} (hs : ScanOk scan) {s : List Char} (hc : CleanText s) {fuel : ℕ} (hf : s.length + 2 < fuel) {ks : List (LineKind V)}
    (hks : List.Forall₂ (IsLine scan) (textLines s) ks) {n : ℕ} (hn : 0 < n) (hfine : ∀ k ∈ ks, k = .sep ∨ ∃ vs, k = .row vs ∧ vs.length = n)
    (hrow : rowsOf ks ≠ []) {cum : List ℕ} {data : List V} (hcum : cum ≠ []) (hd : data.length = n * cum.getLastD 0) :
    readData scan fuel n cum data s =
      some ⟨0, n, cum ++ cumFrom (cum.getLastD 0) ((setsOf ks).map List.length), data ++ (setsOf ks).flatten.flatten⟩ := by
  obtain ⟨out, h1, h2⟩ := readData_lines hs (nobjs := n) (cum := cum) (data := data) (fun _ => hd) (fun h => absurd h hcum) hf hc hks
  rw [runLines_accept (by omega) hfine hrow (Or.inr rfl)] at h2
  rw [h1]
  congr 1
  obtain ⟨c, n', cum', data'⟩ := out
  obtain ⟨e1, e2, e3, e4⟩ := h2
  dsimp only at e1 e2 e3 e4
  subst e1 e2 e3
  rw [e4 rfl, setsOf, setsAux_flatten]
  rfl

/-- The three cases cover every text: all lines fine with a row, no row at all and nothing bad, or a first offending line. -/
theorem C32_cases (ks : List (LineKind V)) (hrows : ∀ vs, LineKind.row vs ∈ ks → vs ≠ []) :
    (∀ k ∈ ks, k = .sep) ∨
    (∃ n, 0 < n ∧ (∀ k ∈ ks, k = .sep ∨ ∃ vs, k = .row vs ∧ vs.length = n) ∧ ∃ vs, LineKind.row vs ∈ ks) ∨
    (∃ n good rest, 0 < n ∧ (∀ k ∈ good, k = .sep ∨ ∃ vs, k = .row vs ∧ vs.length = n) ∧
      (ks = good ++ .bad :: rest ∨ ∃ vs, vs.length ≠ n ∧ ks = good ++ .row vs :: rest ∧ ∃ vs, LineKind.row vs ∈ good)) := by
  induction ks using List.reverseRecOn with
  | nil => exact Or.inl (by simp)
  | append_singleton ks k ih =>
    rcases ih (fun vs hvs => hrows vs (by simp [hvs])) with h | ⟨n, hn, h1, h2⟩ | ⟨n, good, rest, hn, h1, h2⟩
    · cases k with
      | sep =>
        left
        intro k hk
        rcases List.mem_append.1 hk with hk | hk
        · exact h k hk
        · exact List.mem_singleton.1 hk
      | bad => exact Or.inr (Or.inr ⟨1, ks, [], by omega, fun k hk => Or.inl (h k hk), Or.inl rfl⟩)
      | row vs =>
        right; left
        refine ⟨vs.length, List.length_pos_iff.2 (hrows vs (by simp)), ?_, vs, by simp⟩
        intro k hk
        rcases List.mem_append.1 hk with hk | hk
        · exact Or.inl (h k hk)
        · rw [List.mem_singleton] at hk
          exact Or.inr ⟨vs, hk, rfl⟩
    · cases k with
      | sep =>
        right; left
        refine ⟨n, hn, ?_, ?_⟩
        · intro k hk
          rcases List.mem_append.1 hk with hk | hk
          · exact h1 k hk
          · exact Or.inl (List.mem_singleton.1 hk)
        · obtain ⟨vs, hvs⟩ := h2; exact ⟨vs, by simp [hvs]⟩
      | bad => exact Or.inr (Or.inr ⟨n, ks, [], hn, h1, Or.inl rfl⟩)
      | row vs =>
        by_cases hv : vs.length = n
        · right; left
          refine ⟨n, hn, ?_, ?_⟩
          · intro k hk
            rcases List.mem_append.1 hk with hk | hk
            · exact h1 k hk
            · rw [List.mem_singleton] at hk
              exact Or.inr ⟨vs, hk, hv⟩
          · obtain ⟨vs, hvs⟩ := h2; exact ⟨vs, by simp [hvs]⟩
        · exact Or.inr (Or.inr ⟨n, ks, [], hn, h1, Or.inr ⟨vs, hv, rfl, h2⟩⟩)
    · right; right
      refine ⟨n, good, rest ++ [k], hn, h1, ?_⟩
      rcases h2 with rfl | ⟨vs, hv, rfl, h3⟩
      · left; simp
      · right; exact ⟨vs, hv, by simp, h3⟩

/-! ## C33 -/

theorem getLastD_eq_getD {l : List ℕ} (_ : l ≠ []) : l.getLastD 0 = l.getD (l.length - 1) 0 := by
  rw [List.getLastD_eq_getLast?, List.getLast?_eq_getElem?]
  simp

theorem cum_lt {cum : List ℕ} (h : cum.Pairwise (· < ·)) {r s : ℕ} (hrs : r < s) (hs : s < cum.length) : cum.getD r 0 < cum.getD s 0 := by
  rw [List.getD_eq_getElem _ _ (by omega), List.getD_eq_getElem _ _ hs]
  exact List.pairwise_iff_getElem.1 h r s (by omega) hs hrs

theorem cum_le {cum : List ℕ} (h : cum.Pairwise (· < ·)) {r s : ℕ} (hrs : r ≤ s) (hs : s < cum.length) : cum.getD r 0 ≤ cum.getD s 0 := by
  rcases Nat.lt_or_eq_of_le hrs with h1 | rfl
  · exact (cum_lt h h1 hs).le
  · exact le_rfl

theorem inRun_next {cum : List ℕ} (h : cum.Pairwise (· < ·)) {j i : ℕ} (hj : j < cum.length) (hr : InRun (fun r => cum.getD r 0) j i) (hi : i + 1 < cum.getLastD 0) :
    (if i + 1 = cum.getD j 0 then j + 1 else j) < cum.length ∧ InRun (fun r => cum.getD r 0) (if i + 1 = cum.getD j 0 then j + 1 else j) (i + 1) := by
  have hne : cum ≠ [] := by rintro rfl; simp at hj
  have h2 := hr.2
  dsimp only at h2
  rw [getLastD_eq_getD hne] at hi
  split_ifs with he
  · have hj1 : j + 1 < cum.length := by
      by_contra hge
      have : j = cum.length - 1 := by omega
      rw [← this] at hi; omega
    refine ⟨hj1, ?_, ?_⟩
    · intro s hs
      have := cum_le h (show s ≤ j by omega) hj
      dsimp only; omega
    · have := cum_lt h (show j < j + 1 by omega) hj1
      dsimp only; omega
  · exact ⟨hj, fun s hs => (hr.1 s hs).trans (by omega), by dsimp only; omega⟩

/-- The row that `read_datasets` gives for point `i` of set number `j + 1`. -/
theorem numberSets_spec {ofNat : ℕ → V} {nobjs : ℕ} {cum : List ℕ} {data : List V} (h : RdGood nobjs cum data) (k : ℕ) : ∀ (i j : ℕ),
    i + k = cum.getLastD 0 → (k = 0 ∨ j < cum.length ∧ InRun (fun r => cum.getD r 0) j i) →
    ∃ rows, numberSets ofNat nobjs cum data k i (j + 1) = some rows ∧ rows.length = k ∧
      ∀ m (hm : m < rows.length), ∃ set row, InRun (fun r => cum.getD r 0) set (i + m) ∧ rows[m] = row ++ [ofNat (set + 1)] ∧ row.length = nobjs ∧
        ∀ d < nobjs, row[d]? = data[(i + m) * nobjs + d]? := by
  induction k with
  | zero => intro i j _ _; exact ⟨[], rfl, rfl, fun m hm => absurd hm (by simp)⟩
  | succ k ih =>
    intro i j hik hj
    rcases hj with hj | ⟨hj, hr⟩
    · omega
    have hdata : ∀ d < nobjs, i * nobjs + d < data.length := by
      intro d hd
      rw [h.len]
      calc i * nobjs + d < i * nobjs + nobjs := by omega
        _ = nobjs * (i + 1) := by ring
        _ ≤ _ := Nat.mul_le_mul_left _ (by omega)
    have hrow : (List.range nobjs).mapM (fun d => data[i * nobjs + d]?) = some ((data.drop (i * nobjs)).take nobjs) := by
      have hlen : ((data.drop (i * nobjs)).take nobjs).length = nobjs := by
        have := hdata (nobjs - 1) (by have := h.pos; omega)
        rw [List.length_take, List.length_drop]; have := h.pos; omega
      cases data with
      | nil => have := hdata 0 h.pos; simp at this
      | cons x0 dt =>
      have := mapM_some (fun d => (x0 :: dt)[i * nobjs + d]?) (fun d => (((x0 :: dt).drop (i * nobjs)).take nobjs).getD d x0) (List.range nobjs) (by
        intro d hd
        rw [List.mem_range] at hd
        rw [List.getD_eq_getElem _ _ (by omega), List.getElem_take, List.getElem_drop, List.getElem?_eq_getElem (hdata d hd)])
      rw [this]
      congr 1
      apply List.ext_getElem
      · simp [hlen]
      · intro d h1 h2
        rw [List.getElem_map, List.getElem_range, List.getD_eq_getElem _ _ h2]
    rw [numberSets, hrow, Nat.add_sub_cancel, List.getElem?_eq_getElem hj]
    dsimp only
    have hget : cum[j] = cum.getD j 0 := (List.getD_eq_getElem _ _ hj).symm
    have hif : (if i + 1 = cum[j] then j + 1 + 1 else j + 1) = (if i + 1 = cum.getD j 0 then j + 1 else j) + 1 := by
      rw [hget]; split_ifs <;> rfl
    rw [hif]
    obtain ⟨rows, e1, e2, e3⟩ := ih (i + 1) (if i + 1 = cum.getD j 0 then j + 1 else j) (by omega) (by
      rcases Nat.eq_zero_or_pos k with hk | hk
      · exact Or.inl hk
      · exact Or.inr (inRun_next h.chain hj hr (by omega)))
    rw [e1]
    refine ⟨_, rfl, by simp [e2], ?_⟩
    intro m hm
    cases m with
    | zero =>
      refine ⟨j, _, hr, rfl, ?_, ?_⟩
      · have := hdata (nobjs - 1) (by have := h.pos; omega)
        rw [List.length_take, List.length_drop]; have := h.pos; omega
      · intro d hd
        rw [List.getElem?_take_of_lt hd, List.getElem?_drop]
        simp
    | succ m =>
      obtain ⟨set, row, g1, g2, g3, g4⟩ := e3 m (by simpa using hm)
      refine ⟨set, row, ?_, by simpa using g2, g3, ?_⟩
      · rw [show i + (m + 1) = i + 1 + m by omega]; exact g1
      · intro d hd
        rw [show i + (m + 1) = i + 1 + m by omega]; exact g4 d hd

/-- **C33**: for every sequence of characters, `read_datasets` returns an error code, or a matrix with one column more than the data and one row for every point:
the objectives of the point followed by the number, from 1, of the set the point belongs to. -/
theorem C33_read_datasets {scan : NumScan V} (hs : ScanOk scan) (ofNat : ℕ → V) (s : List Char) {fuel : ℕ} (hf : s.length + 2 < fuel) :
    ∃ out, readData scan fuel 0 [] [] s = some out ∧
      ((out.code ≠ 0 ∧ readDatasets scan ofNat fuel s = some (.error out.code)) ∨
       (out.code = 0 ∧ ∃ rows, readDatasets scan ofNat fuel s = some (.ok (out.nobjs + 1, rows)) ∧ rows.length = out.cum.getLastD 0 ∧
        ∀ i (hi : i < rows.length), ∃ set row, InRun (fun r => out.cum.getD r 0) set i ∧ set < out.cum.length ∧ rows[i] = row ++ [ofNat (set + 1)] ∧
          row.length = out.nobjs ∧ ∀ d < out.nobjs, row[d]? = out.data[i * out.nobjs + d]?)) := by
  obtain ⟨out, h1, h2⟩ := C32_read_total hs s hf
  refine ⟨out, h1, ?_⟩
  unfold readDatasets
  rw [h1]
  dsimp only
  by_cases hc : out.code = 0
  · right
    refine ⟨hc, ?_⟩
    rw [if_neg (by simpa using hc)]
    rcases h2 with ⟨_, e1, e2, e3, e4, e5⟩ | h2 | h2 | h2 | h2
    · have hgood : RdGood out.nobjs out.cum out.data := ⟨e1, e2, e3, e4, e5⟩
      have hpos : 0 < out.cum.length := List.length_pos_iff.2 e2
      have hlast : out.cum.getLast? = some (out.cum.getLastD 0) := by
        rw [getLastD_eq_getD e2, List.getLast?_eq_getElem?, List.getElem?_eq_getElem (by omega), List.getD_eq_getElem _ _ (by omega)]
      rw [hlast]
      dsimp only
      obtain ⟨rows, g1, g2, g3⟩ := numberSets_spec (ofNat := ofNat) hgood (out.cum.getLastD 0) 0 0 (by omega)
        (Or.inr ⟨hpos, fun s hs => by omega, by
          have := e4 (out.cum.getD 0 0) (by rw [List.getD_eq_getElem _ _ hpos]; exact List.getElem_mem _)
          exact this⟩)
      rw [g1]
      refine ⟨rows, rfl, g2, ?_⟩
      intro i hi
      obtain ⟨set, row, k1, k2, k3, k4⟩ := g3 i hi
      rw [Nat.zero_add] at k1 k4
      refine ⟨set, row, k1, ?_, k2, k3, k4⟩
      by_contra hge
      have := k1.2
      simp only at this
      rw [List.getD_eq_default _ _ (by omega)] at this
      omega
    all_goals omega
  · left
    refine ⟨hc, ?_⟩
    rw [if_pos hc]

/-- The column of set numbers of `R_read_datasets`. -/
theorem numberSetsR_spec {cum : List ℕ} (h : cum.Pairwise (· < ·)) (m : ℕ) : ∀ (k j : ℕ), k + m = cum.getLastD 0 →
    (m = 0 ∨ j < cum.length ∧ (∀ s < j, cum.getD s 0 ≤ k) ∧ k ≤ cum.getD j 0) →
    ∃ l, numberSetsR cum m k j = some l ∧ l.length = m ∧ ∀ i (hi : i < l.length), ∃ set, InRun (fun r => cum.getD r 0) set (k + i) ∧ l[i] = set + 1 := by
  induction m with
  | zero => intro k j _ _; exact ⟨[], rfl, rfl, fun i hi => absurd hi (by simp)⟩
  | succ m ih =>
    intro k j hk hj
    rcases hj with hj | ⟨hj, h1, h2⟩
    · omega
    have hget : cum[j] = cum.getD j 0 := (List.getD_eq_getElem _ _ hj).symm
    have hne : cum ≠ [] := by rintro rfl; simp at hj
    rw [numberSetsR, List.getElem?_eq_getElem hj, hget]
    dsimp only
    rw [getLastD_eq_getD hne] at hk
    have key : (if k = cum.getD j 0 then j + 1 else j) < cum.length ∧ InRun (fun r => cum.getD r 0) (if k = cum.getD j 0 then j + 1 else j) k := by
      split_ifs with he
      · have hj1 : j + 1 < cum.length := by
          by_contra hge
          have : j = cum.length - 1 := by omega
          rw [← this] at hk; omega
        refine ⟨hj1, ?_, ?_⟩
        · intro s hs
          have := cum_le h (show s ≤ j by omega) hj
          dsimp only; omega
        · have := cum_lt h (show j < j + 1 by omega) hj1
          dsimp only; omega
      · exact ⟨hj, h1, by dsimp only; omega⟩
    obtain ⟨l, e1, e2, e3⟩ := ih (k + 1) (if k = cum.getD j 0 then j + 1 else j) (by rw [getLastD_eq_getD hne]; omega)
      (Or.inr ⟨key.1, fun s hs => (key.2.1 s hs).trans (by omega), key.2.2⟩)
    rw [e1]
    refine ⟨_, rfl, by simp [e2], ?_⟩
    intro i hi
    cases i with
    | zero => exact ⟨_, key.2, rfl⟩
    | succ i =>
      obtain ⟨set, g1, g2⟩ := e3 i (by simpa using hi)
      exact ⟨set, by rw [show k + (i + 1) = k + 1 + i by omega]; exact g1, by simpa using g2⟩

/-- **C33 (R)**: for accepted input, the set numbers of `R_read_datasets` are right. -/
theorem C33_R_read_datasets {scan : NumScan V} (hs : ScanOk scan) (s : List Char) {fuel : ℕ} (hf : s.length + 2 < fuel) {out : RdOut V}
    (ho : readData scan fuel 0 [] [] s = some out) (hc : out.code = 0) :
    ∃ l, readDatasetsR scan fuel s = some (.ok (out.nobjs, out.data, l)) ∧ l.length = out.cum.getLastD 0 ∧
      ∀ i (hi : i < l.length), ∃ set, InRun (fun r => out.cum.getD r 0) set i ∧ l[i] = set + 1 := by
  obtain ⟨out', h1, h2⟩ := C32_read_total hs s hf
  obtain rfl : out' = out := by rw [h1] at ho; exact Option.some.inj ho
  rcases h2 with ⟨_, e1, e2, e3, e4, e5⟩ | h2 | h2 | h2 | h2
  · have hpos : 0 < out'.cum.length := List.length_pos_iff.2 e2
    have hlast : out'.cum.getLast? = some (out'.cum.getLastD 0) := by
      rw [getLastD_eq_getD e2, List.getLast?_eq_getElem?, List.getElem?_eq_getElem (by omega), List.getD_eq_getElem _ _ (by omega)]
    obtain ⟨l, g1, g2, g3⟩ := numberSetsR_spec e3 (out'.cum.getLastD 0) 0 0 (by omega) (Or.inr ⟨hpos, by simp, Nat.zero_le _⟩)
    refine ⟨l, ?_, g2, ?_⟩
    · unfold readDatasetsR
      rw [h1]
      dsimp only
      rw [if_neg (by simp [hc]), hlast]
      dsimp only
      rw [g1]
    · intro i hi
      obtain ⟨set, k1, k2⟩ := g3 i hi
      rw [Nat.zero_add] at k1
      exact ⟨set, k1, k2⟩
  all_goals omega

/-- **Defect (R)**: for a text with only comments and blank lines, `R_read_datasets` reads `cumsizes[-1]`, outside of the array. -/
theorem C33_R_empty_out_of_bounds {scan : NumScan V} (hs : ScanOk scan) {s : List Char} (hc : CleanText s) {fuel : ℕ} (hf : s.length + 2 < fuel)
    (h : ∀ l ∈ textLines s, (∃ t, l = '#' :: t) ∨ ∀ c ∈ l, isWs c = true) : readDatasetsR scan fuel s = none := by
  unfold readDatasetsR readData
  have hks : List.Forall₂ (IsLine scan) (textLines s) ((textLines s).map (fun _ => LineKind.sep)) := by
    generalize textLines s = ls at h
    induction ls with
    | nil => exact .nil
    | cons l ls ih => exact .cons (h l (by simp)) (ih (fun l hl => h l (by simp [hl])))
  rcases skipSeps_lines hs fuel (some s) _ (by simp [streamO]; omega) hc hks with ⟨r, k1, k2⟩ | ⟨l2, o3, seps, k3, ks3, g1, g2, g3, g4, _⟩
  · rw [streamO, Option.getD_some] at k1
    rw [k1]
    simp [RdSt.finish]
  · exfalso
    have : k3 ∈ (textLines s).map (fun _ => (LineKind.sep : LineKind V)) := by rw [g2]; simp
    simp only [List.mem_map] at this
    obtain ⟨_, _, e⟩ := this
    exact g4 e.symm

end Moo
