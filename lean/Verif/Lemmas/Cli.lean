import Verif.Model.Cli
import Verif.Props.Io
import Verif.Lemmas.IoWrite

/-!
# Reading the input of the command-line programs
-/

set_option autoImplicit false

namespace Moo

variable {V : Type*}

theorem forall₂_row_ne {scan : NumScan V} {vs : List V} : ∀ {ls : List (List Char)} {ks : List (LineKind V)}, List.Forall₂ (IsLine scan) ls ks →
    LineKind.row vs ∈ ks → vs ≠ [] := by
  intro ls ks h
  induction h with
  | nil => intro h; simp at h
  | cons h1 _ ih =>
    intro h
    rcases List.mem_cons.1 h with h | h
    · subst h; exact h1.2.1
    · exact ih h

theorem rowsOf_ne_of_mem {ks : List (LineKind V)} {vs : List V} (hvs : LineKind.row vs ∈ ks) : rowsOf ks ≠ [] := by
  induction ks with
  | nil => simp at hvs
  | cons k ks ih =>
    cases k with
    | row ws => simp [rowsOf]
    | sep => rw [rowsOf]; · exact ih (by simpa using hvs)
             simp
    | bad => rw [rowsOf]; · exact ih (by simpa using hvs)
             simp

theorem mem_rowsOf {ks : List (LineKind V)} {vs : List V} : vs ∈ rowsOf ks ↔ LineKind.row vs ∈ ks := by
  induction ks with
  | nil => simp [rowsOf]
  | cons k ks ih =>
    cases k with
    | row ws => simp [rowsOf, ih]
    | sep => rw [rowsOf]; · simp [ih]
             simp
    | bad => rw [rowsOf]; · simp [ih]
             simp

/-- What is known of the sets of a text. -/
theorem TextSets.shape {scan : NumScan V} {s : List Char} {n : ℕ} {sets : List (List (List V))} (h : TextSets scan s n sets) :
    0 < n ∧ sets ≠ [] ∧ (∀ t ∈ sets, t ≠ []) ∧ ∀ t ∈ sets, ∀ r ∈ t, r.length = n := by
  obtain ⟨_, ks, hks, hfine, ⟨vs, hvs⟩, rfl⟩ := h
  have hfl : (setsOf ks).flatten = rowsOf ks := by rw [setsOf, setsAux_flatten, List.nil_append]
  refine ⟨?_, ?_, setsAux_ne [] ks, ?_⟩
  · rcases hfine _ hvs with h | ⟨ws, h, hl⟩
    · cases h
    · cases h
      rw [← hl]
      exact List.length_pos_iff.2 (forall₂_row_ne hks hvs)
  · intro he
    rw [he] at hfl
    exact rowsOf_ne_of_mem hvs hfl.symm
  · intro t ht r hr
    have : r ∈ rowsOf ks := by rw [← hfl]; exact List.mem_flatten.2 ⟨t, ht, hr⟩
    rcases hfine _ (mem_rowsOf.1 this) with h | ⟨ws, h, hl⟩
    · cases h
    · cases h; exact hl

/-- A text of data sets is read. -/
theorem readFile_ok {scan : NumScan V} (hs : ScanOk scan) {s : List Char} {n nobj : ℕ} {sets : List (List (List V))} (h : TextSets scan s n sets) (hn : nobj = 0 ∨ nobj = n) :
    readFile scan nobj s = some (some ⟨0, n, cumFrom 0 (sets.map List.length), sets.flatten.flatten⟩) := by
  have hn0 := h.shape.1
  obtain ⟨hc, ks, hks, hfine, ⟨vs, hvs⟩, rfl⟩ := h
  obtain ⟨out, h1, h2⟩ := readData_lines hs (nobjs := nobj) (cum := []) (data := []) (fuel := s.length + 3) (by simp) (by simp) (by omega) hc hks
  rw [runLines_accept (by omega) hfine (rowsOf_ne_of_mem hvs) hn] at h2
  unfold readFile
  rw [h1]
  obtain ⟨c, n', cum, data⟩ := out
  obtain ⟨e1, e2, e3, e4⟩ := h2
  simp only [List.nil_append, List.getLastD_nil] at e1 e2 e3 e4
  subst e1 e2 e3
  rw [e4 rfl, setsOf, setsAux_flatten]
  simp

/-- Any other text makes the program exit. -/
theorem readFile_err {scan : NumScan V} (hs : ScanOk scan) {s : List Char} {nobj : ℕ} (h : Unreadable scan s nobj) :
    readFile scan nobj s = some none := by
  obtain ⟨hc, hno⟩ := h
  obtain ⟨ks, hks⟩ := lines_exists scan (textLines s)
  obtain ⟨out, h1, h2⟩ := readData_lines hs (nobjs := nobj) (cum := []) (data := []) (fuel := s.length + 3) (by simp) (by simp) (by omega) hc hks
  have hcode : (runLines .init ⟨nobj, [], 0, []⟩ ks).code ≠ 0 := by
    rcases C32_cases ks (fun vs hvs => forall₂_row_ne hks hvs) with h | ⟨n, hn, g1, g2⟩ | ⟨n, good, rest, hn, g1, g2⟩
    · rw [runLines_empty h]; omega
    · have hne : ¬ (nobj = 0 ∨ n = nobj) := fun he => hno ⟨n, _, he, hc, ks, hks, g1, g2, rfl⟩
      -- the first row has the wrong length
      have key : ∀ ks : List (LineKind V), (∀ k ∈ ks, k = .sep ∨ ∃ vs, k = .row vs ∧ vs.length = n) → (∃ vs, LineKind.row vs ∈ ks) →
          (runLines .init ⟨nobj, [], 0, []⟩ ks).code ≠ 0 := by
        intro ks
        induction ks with
        | nil => rintro _ ⟨vs, hvs⟩; simp at hvs
        | cons k ks ih =>
          intro h1 h2
          rcases h1 k (by simp) with rfl | ⟨vs, rfl, hvs⟩
          · rw [runLines]
            exact ih (fun k hk => h1 k (by simp [hk])) (by simpa using h2)
          · have := runLines_initial_dim (nobjs := nobj) (by omega) (seps := []) (by simp) (vs := vs) (by omega) ks
            rw [List.nil_append] at this
            rw [this]; omega
      exact key ks g1 g2
    · by_cases hm : nobj = 0 ∨ nobj = n
      · rcases g2 with rfl | ⟨vs, hvs, rfl, ⟨ws, hws⟩⟩
        · rw [runLines_bad (mode := .init) (by omega) g1 (by exact ⟨hm, by simp⟩)]; omega
        · rw [runLines_columns (mode := .init) (by omega) g1 (by exact ⟨hm, by simp⟩) (Or.inl (rowsOf_ne_of_mem hws)) hvs]; omega
      · -- the first row of `good`, or the offending line
        have key : ∀ (good : List (LineKind V)) (k : LineKind V), (∀ k ∈ good, k = .sep ∨ ∃ vs, k = .row vs ∧ vs.length = n) →
            (k = .bad ∨ (∃ vs, k = .row vs) ∧ ∃ vs, LineKind.row vs ∈ good) →
            (runLines .init ⟨nobj, [], 0, []⟩ (good ++ k :: rest)).code ≠ 0 := by
          intro good
          induction good with
          | nil =>
            intro k _ hk
            rcases hk with rfl | ⟨_, vs, hvs⟩
            · rw [List.nil_append, runLines]; exact (by decide : (-4 : ℤ) ≠ 0)
            · simp at hvs
          | cons k0 good ih =>
            intro k h1 hk
            rcases h1 k0 (by simp) with rfl | ⟨vs, rfl, hvs⟩
            · rw [List.cons_append, runLines]
              exact ih k (fun k hk => h1 k (by simp [hk])) (hk.imp id (fun ⟨a, b⟩ => ⟨a, by simpa using b⟩))
            · have := runLines_initial_dim (nobjs := nobj) (by omega) (seps := []) (by simp) (vs := vs) (by omega) (good ++ k :: rest)
              rw [List.nil_append] at this
              rw [List.cons_append, this]; omega
        rcases g2 with rfl | ⟨vs, hvs, rfl, hws⟩
        · exact key good _ g1 (Or.inl rfl)
        · exact key good _ g1 (Or.inr ⟨⟨vs, rfl⟩, hws⟩)
  unfold readFile
  rw [h1]
  dsimp only
  rw [if_pos (by rw [h2.code]; exact hcode)]

/-- A text is a text of data sets or unreadable, whatever `nobj` is. -/
theorem textSets_or_unreadable (scan : NumScan V) (s : List Char) (hc : ∀ c ∈ s, c ≠ '\x0b' ∧ c ≠ '\x0c') (nobj : ℕ) :
    (∃ n sets, (nobj = 0 ∨ n = nobj) ∧ TextSets scan s n sets) ∨ Unreadable scan s nobj := by
  by_cases h : ∃ n sets, (nobj = 0 ∨ n = nobj) ∧ TextSets scan s n sets
  · exact Or.inl h
  · exact Or.inr ⟨hc, h⟩

theorem getLastD_cumFrom (l : List ℕ) : ∀ b, l ≠ [] → (cumFrom b l).getLastD 0 = b + l.sum := by
  induction l with
  | nil => intro b h; exact absurd rfl h
  | cons a l ih =>
    intro b _
    cases l with
    | nil => simp [cumFrom]
    | cons c l =>
      have := ih (b + a) (by simp)
      rw [cumFrom]
      rw [List.sum_cons, ← Nat.add_assoc, ← this]
      rw [cumFrom]
      simp

/-- The flat array holds the points. -/
theorem holdsSets_flatten [Zero V] {n : ℕ} {sets : List (List (List V))} (h : ∀ t ∈ sets, ∀ r ∈ t, r.length = n) :
    HoldsSets (fun j => sets.flatten.flatten.getD j 0) n 0 sets := by
  have key : ∀ (rows : List (List V)), (∀ r ∈ rows, r.length = n) → ∀ i (hi : i < rows.length),
      (List.range n).map (fun j => rows.flatten.getD (n * i + j) 0) = rows[i] := by
    intro rows
    induction rows with
    | nil => intro _ i hi; simp at hi
    | cons r rows ih =>
      intro hr i hi
      have hrl := hr r (by simp)
      cases i with
      | zero =>
        apply List.ext_getElem
        · simp [hrl]
        · intro k h1 h2
          simp only [List.length_map, List.length_range] at h1
          simp only [List.getElem_map, List.getElem_range, Nat.mul_zero, Nat.zero_add, List.flatten_cons, List.getD_eq_getElem?_getD, List.getElem_cons_zero]
          rw [List.getElem?_append_left (by omega), List.getElem?_eq_getElem (by omega)]
          rfl
      | succ i =>
        rw [List.getElem_cons_succ, ← ih (fun r hr' => hr r (by simp [hr'])) i (by simpa using hi)]
        apply List.map_congr_left
        intro k _
        simp only [List.flatten_cons, List.getD_eq_getElem?_getD]
        rw [List.getElem?_append_right (by rw [hrl, Nat.mul_succ]; omega)]
        congr 2
        rw [hrl, Nat.mul_succ]; omega
  intro i hi
  rw [Nat.zero_add]
  apply key
  intro r hr
  obtain ⟨t, ht, hrt⟩ := List.mem_flatten.1 hr
  exact h t ht r hrt

/-- The block of a set is its table. -/
theorem HoldsSets.block [Zero V] {data : ℕ → V} {n size : ℕ} {s : List (List V)} {sets : List (List (List V))} (h : HoldsSets data n size (s :: sets)) :
    ∀ i < s.length, ∀ k < n, blockTable data n size i k = rowsTable s i k := by
  intro i hi k hk
  have := h.head i hi
  unfold blockTable rowsTable
  have h2 : ((List.range n).map (fun j => data (n * (size + i) + j)))[k]? = s[i][k]? := by rw [this]
  simp only [List.getElem?_map] at h2
  rw [List.getElem?_range hk] at h2
  simp only [Option.map_some] at h2
  rw [List.getD_eq_getElem?_getD, List.getD_eq_getElem?_getD, List.getElem?_eq_getElem hi]
  simp only [Option.getD_some]
  rw [← h2, Option.getD_some, ← Nat.add_assoc, Nat.mul_add]

/-- The union of the sets is held in the same place. -/
theorem HoldsSets.union {data : ℕ → V} {n size : ℕ} {sets : List (List (List V))} (h : HoldsSets data n size sets) : HoldsSets data n size [sets.flatten] := by
  intro i hi
  have e : [sets.flatten].flatten = sets.flatten := by simp
  have hi' : i < sets.flatten.length := by rw [e] at hi; exact hi
  have := h i hi'
  rw [this]
  congr 1
  exact e.symm

/-- Writing a block does not touch later sets. -/
theorem HoldsSets.writeBlock {data : ℕ → V} {n size : ℕ} {sets : List (List (List V))} {m size0 : ℕ} {t : ℕ → ℕ → V} (hle : size0 + m ≤ size) (h : HoldsSets data n size sets) :
    HoldsSets (writeBlock data n size0 m t) n size sets := by
  intro i hi
  rw [← h i hi]
  apply List.map_congr_left
  intro k _
  unfold Moo.writeBlock
  rw [if_neg]
  rintro ⟨_, h2⟩
  rw [← Nat.mul_add] at h2
  have : n * (size0 + m) ≤ n * (size + i) := Nat.mul_le_mul_left _ (by omega)
  omega

/-- Reading a point. -/
theorem readPoint_ok {scan : NumScan V} (hs : ScanOk scan) {str : List Char} {vs : List V}  (h : NumbersArg scan str vs) (hne : vs ≠ []) : readPoint scan str = some (some vs) := by
  have hend : ∀ l : List Char, (∀ c ∈ l, isSpaceC c = true) → scan (l.dropWhile isSpaceC) = none := by
    intro l hl
    have h0 : l.dropWhile isSpaceC = [] := by
      clear h hne
      induction l with
      | nil => rfl
      | cons c l ih => rw [List.dropWhile_cons, if_pos (hl c (by simp))]; exact ih (fun c hc => hl c (by simp [hc]))
    rw [h0]
    cases hsc : scan [] with
    | none => rfl
    | some q =>
      have := (hs.suffix _ _ _ hsc).2
      simp at this
  have key : ∀ (str : List Char) (vs : List V), NumbersArg scan str vs → ∀ (fuel size : ℕ) (p : List V), str.length < fuel → 0 < size → p.length ≤ size → p ++ vs ≠ [] →
      readPointLoop scan fuel size p str = some (some (p ++ vs)) := by
    intro str vs h
    induction h with
    | nil l hl =>
      intro fuel size p hf h0 hp hne
      obtain ⟨fuel, rfl⟩ : ∃ f, fuel = f + 1 := ⟨fuel - 1, by omega⟩
      rw [readPointLoop]
      rw [if_neg (by split_ifs <;> omega), hend l hl]
      dsimp only
      rw [if_pos ⟨List.all_eq_true.2 hl, by simpa using hne⟩, List.append_nil]
    | cons l r v vs h1 h2 ih =>
      intro fuel size p hf h0 hp hne
      obtain ⟨fuel, rfl⟩ : ∃ f, fuel = f + 1 := ⟨fuel - 1, by omega⟩
      rw [readPointLoop]
      rw [if_neg (by split_ifs <;> omega), h1]
      dsimp only
      have hlen := (hs.suffix _ _ _ h1).2
      have hl2 := dropWhile_length_le isSpaceC l
      rw [ih fuel _ (p ++ [v]) (by omega) (by split_ifs <;> omega) (by rw [List.length_append, List.length_singleton]; split_ifs <;> omega) (by simp)]
      simp
  exact key str vs h _ 10 [] (by omega) (by omega) (by simp) (by simpa using hne)

/-- Anything else is not a point. -/
theorem readPoint_err {scan : NumScan V} (hs : ScanOk scan) {str : List Char} (h : ¬ ∃ vs, vs ≠ [] ∧ NumbersArg scan str vs) : readPoint scan str = some none := by
  have key : ∀ (fuel size : ℕ) (p : List V) (str : List Char), str.length < fuel → 0 < size → p.length ≤ size → (¬ ∃ vs, p ++ vs ≠ [] ∧ NumbersArg scan str vs) →
      readPointLoop scan fuel size p str = some none := by
    intro fuel
    induction fuel with
    | zero => intro size p str hf; omega
    | succ fuel ih =>
      intro size p str hf h0 hp hno
      rw [readPointLoop]
      rw [if_neg (by split_ifs <;> omega)]
      cases hsc : scan (str.dropWhile isSpaceC) with
      | none =>
        dsimp only
        rw [if_neg]
        rintro ⟨h1, h2⟩
        exact hno ⟨[], by simpa using h2, .nil _ (List.all_eq_true.1 h1)⟩
      | some q =>
        obtain ⟨v, r⟩ := q
        dsimp only
        have hlen := (hs.suffix _ _ _ hsc).2
        have hl2 := dropWhile_length_le isSpaceC str
        refine ih _ _ _ (by omega) (by split_ifs <;> omega) (by rw [List.length_append, List.length_singleton]; split_ifs <;> omega) ?_
        rintro ⟨vs, _, h2⟩
        exact hno ⟨v :: vs, by simp, .cons _ _ _ _ hsc h2⟩
  exact key _ 10 [] str (by omega) (by omega) (by simp) (by simpa using h)

end Moo
