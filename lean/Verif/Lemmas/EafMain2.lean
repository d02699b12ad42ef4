import Verif.Lemmas.EafMain
import Verif.Lemmas.Eaf2dSpec

/-!
# Lemmas for the program `eaf`: reading several files, runs as lists
-/

set_option autoImplicit false
set_option linter.unusedSectionVars false

namespace Moo

section read
variable {V : Type*}

theorem cumFrom_append (l m : List ℕ) : ∀ b, cumFrom b (l ++ m) = cumFrom b l ++ cumFrom (b + l.sum) m := by
  induction l with
  | nil => intro b; simp [cumFrom]
  | cons a l ih => intro b; simp [cumFrom, ih, Nat.add_assoc]

theorem cumFrom_length (l : List ℕ) : ∀ b, (cumFrom b l).length = l.length := by
  induction l with
  | nil => intro b; rfl
  | cons a l ih => intro b; simp [cumFrom, ih]

theorem getLastD_cumFrom_zero (l : List ℕ) : (cumFrom 0 l).getLastD 0 = l.sum := by
  by_cases h : l = []
  · subst h; rfl
  · rw [getLastD_cumFrom l 0 h, Nat.zero_add]

theorem flatten_length_const {n : ℕ} {rows : List (List V)} (h : ∀ r ∈ rows, r.length = n) : rows.flatten.length = n * rows.length := by
  induction rows with
  | nil => simp
  | cons r rows ih =>
    rw [List.flatten_cons, List.length_append, ih (fun r hr => h r (by simp [hr])), h r (by simp), List.length_cons]
    ring

theorem runs_data_length {n : ℕ} {runs : List (List (List V))} (h : ∀ t ∈ runs, ∀ r ∈ t, r.length = n) : runs.flatten.flatten.length = n * (runs.map List.length).sum := by
  rw [flatten_length_const (n := n), List.length_flatten]
  intro r hr
  obtain ⟨t, ht, hrt⟩ := List.mem_flatten.1 hr
  exact h t ht r hrt

/-- A text without data leaves everything as it is. -/
theorem readData_empty {scan : NumScan V} (hs : ScanOk scan) {fuel nobjs : ℕ} {cum : List ℕ} {data : List V} (h0 : cum = [] → data = []) {s : List Char} (hf : s.length + 2 < fuel)
    (h : NoData scan s) : readData scan fuel nobjs cum data s = some ⟨-1, nobjs, cum, data⟩ := by
  obtain ⟨hc, hl⟩ := h
  have hks : List.Forall₂ (IsLine scan) (textLines s) (List.replicate (textLines s).length .sep) := by
    generalize textLines s = ls at *
    induction ls with
    | nil => exact .nil
    | cons l ls ih => exact .cons (hl l (by simp)) (ih (fun l h => hl l (by simp [h])))
  unfold readData
  rcases skipSeps_lines hs fuel (some s) _ (by simp [streamO]; omega) hc hks with ⟨r, k1, k2⟩ | ⟨l2, o3, seps, k3, ks3, g1, g2, g3, g4, g5, g6, g7, g8, g9, g10⟩
  · rw [streamO, Option.getD_some] at k1
    rw [k1]
    dsimp only
    rw [if_pos rfl]
    by_cases hcum : cum = []
    · subst hcum
      rw [h0 rfl]
      rfl
    · rw [if_neg (by simpa using hcum)]
      rfl
  · have : k3 ∈ List.replicate (textLines s).length LineKind.sep := by rw [g2]; simp
    exact absurd (List.eq_of_mem_replicate this) g4

/-- A text of data sets is appended to what has been read. -/
theorem readData_append {scan : NumScan V} (hs : ScanOk scan) {fuel nobjs n : ℕ} {runs sets : List (List (List V))} {s : List Char} (hf : s.length + 2 < fuel) (hr : ∀ t ∈ runs, ∀ r ∈ t, r.length = n)
    (hn : nobjs = if runs = [] then 0 else n) (h : TextSets scan s n sets) :
    readData scan fuel nobjs (cumFrom 0 (runs.map List.length)) runs.flatten.flatten s =
      some ⟨0, n, cumFrom 0 ((runs ++ sets).map List.length), (runs ++ sets).flatten.flatten⟩ := by
  have hn0 := h.shape.1
  obtain ⟨hc, ks, hks, hfine, ⟨vs, hvs⟩, rfl⟩ := h
  obtain ⟨out, h1, h2⟩ := readData_lines hs (nobjs := nobjs) (cum := cumFrom 0 (runs.map List.length)) (data := runs.flatten.flatten) (fuel := fuel)
    (by
      intro hne
      have : runs ≠ [] := by rintro rfl; simp [cumFrom] at hne
      rw [getLastD_cumFrom_zero, runs_data_length hr, hn, if_neg this])
    (by
      intro he
      have : runs = [] := by
        cases runs with
        | nil => rfl
        | cons a b => simp [cumFrom] at he
      subst this
      rfl) hf hc hks
  rw [runLines_accept (by omega) hfine (rowsOf_ne_of_mem hvs) (by rw [hn]; split_ifs <;> simp)] at h2
  rw [h1]
  obtain ⟨c, n', cum, data⟩ := out
  obtain ⟨e1, e2, e3, e4⟩ := h2
  simp only at e1 e2 e3 e4
  subst e1 e2 e3
  rw [e4 rfl, getLastD_cumFrom_zero, List.map_append, cumFrom_append, Nat.zero_add, List.flatten_append, List.flatten_append, setsOf, setsAux_flatten, List.nil_append]

/-- Reading several files. -/
theorem eafRead_files {scan : NumScan V} (hs : ScanOk scan) {n : ℕ} {files : List (List Char)} {runs : List (List (List V))} (h : FilesRuns scan n files runs) (rest : List (List Char)) :
    ∀ runs0 : List (List (List V)), (∀ t ∈ runs0, ∀ r ∈ t, r.length = n) →
    eafRead scan (if runs0 = [] then 0 else n) (cumFrom 0 (runs0.map List.length)) runs0.flatten.flatten (files ++ rest) =
      eafRead scan (if runs0 ++ runs = [] then 0 else n) (cumFrom 0 ((runs0 ++ runs).map List.length)) (runs0 ++ runs).flatten.flatten rest := by
  induction h with
  | nil => intro runs0 _; rw [List.append_nil, List.nil_append]
  | empty s files runs h1 _ ih =>
    intro runs0 hr
    rw [List.cons_append, eafRead, readData_empty hs (by
      intro he
      cases runs0 with
      | nil => rfl
      | cons a b => simp [cumFrom] at he) (by omega) h1]
    dsimp only
    rw [if_pos (by simp), ih runs0 hr]
  | data s files sets runs h1 _ ih =>
    intro runs0 hr
    rw [List.cons_append, eafRead, readData_append hs (by omega) hr rfl h1]
    dsimp only
    rw [if_pos (by simp)]
    have hne := h1.shape.2.1
    have := ih (runs0 ++ sets) (by
      intro t ht
      rcases List.mem_append.1 ht with ht | ht
      · exact hr t ht
      · exact h1.shape.2.2.2 t ht)
    rw [if_neg (by simp [hne]), List.append_assoc] at this
    rw [this]

theorem eafRead_ok {scan : NumScan V} (hs : ScanOk scan) {n : ℕ} {files : List (List Char)} {runs : List (List (List V))} (h : FilesRuns scan n files runs) :
    eafRead scan 0 [] [] files = some (some (if runs = [] then 0 else n, cumFrom 0 (runs.map List.length), runs.flatten.flatten)) := by
  have := eafRead_files hs h [] [] (by simp)
  simp only [List.append_nil, List.nil_append] at this
  exact this

theorem FilesRuns.shape {scan : NumScan V} {n : ℕ} {files : List (List Char)} {runs : List (List (List V))} (h : FilesRuns scan n files runs) :
    (∀ t ∈ runs, t ≠ []) ∧ (∀ t ∈ runs, ∀ r ∈ t, r.length = n) ∧ (runs ≠ [] → 0 < n) := by
  induction h with
  | nil => simp
  | empty _ _ _ _ _ ih => exact ih
  | data s files sets runs h1 _ ih =>
    refine ⟨fun t ht => ?_, fun t ht => ?_, fun _ => h1.shape.1⟩
    · rcases List.mem_append.1 ht with ht | ht
      · exact h1.shape.2.2.1 t ht
      · exact ih.1 t ht
    · rcases List.mem_append.1 ht with ht | ht
      · exact h1.shape.2.2.2 t ht
      · exact ih.2.1 t ht

/-- The codes of `read_objective_t_data` for a caller like `eaf`. -/
theorem runLines_codes : ∀ (ks : List (LineKind V)), (∀ vs, LineKind.row vs ∈ ks → vs ≠ []) → ∀ (mode : Mode) (m : MSt V),
    ((m.nobjs = 0 ∧ mode = .init ∧ m.cum = []) ∨ ((∀ c ∈ m.cum, 0 < c) ∧ m.nobjs ≠ 0 ∧ (m.cum ≠ [] ∨ (mode = .inn ∧ 0 < m.cur)) ∧ (mode = .inn → 0 < m.cur))) →
    ((runLines mode m ks).code = -4 ∨ (runLines mode m ks).code = -5) ∨
      ((runLines mode m ks).code = -1 ∧ ∀ k ∈ ks, k = .sep) ∨
      ((runLines mode m ks).code = 0 ∧ ∃ n, (m.nobjs = 0 ∨ n = m.nobjs) ∧ (∀ k ∈ ks, k = .sep ∨ ∃ vs, k = .row vs ∧ vs.length = n) ∧ (mode = .init → ∃ vs, LineKind.row vs ∈ ks)) := by
  intro ks
  induction ks with
  | nil =>
    intro _ mode m _
    cases mode with
    | init => right; left; simp [runLines]
    | sep => right; right; exact ⟨rfl, m.nobjs, by simp⟩
    | inn => right; right; exact ⟨rfl, m.nobjs, by simp⟩
  | cons k ks ih =>
    intro hrow mode m hm
    have hrow' : ∀ vs, LineKind.row vs ∈ ks → vs ≠ [] := fun vs h => hrow vs (by simp [h])
    cases k with
    | bad => left; left; cases mode <;> rfl
    | sep =>
      have hstep : ∀ (mode' : Mode) (m' : MSt V), m'.nobjs = m.nobjs → (mode = .init → mode' = .init) → (mode' = .init → mode = .init) → runLines mode m (.sep :: ks) = runLines mode' m' ks →
          ((m'.nobjs = 0 ∧ mode' = .init ∧ m'.cum = []) ∨ ((∀ c ∈ m'.cum, 0 < c) ∧ m'.nobjs ≠ 0 ∧ (m'.cum ≠ [] ∨ (mode' = .inn ∧ 0 < m'.cur)) ∧ (mode' = .inn → 0 < m'.cur))) →
          ((runLines mode m (.sep :: ks)).code = -4 ∨ (runLines mode m (.sep :: ks)).code = -5) ∨
          ((runLines mode m (.sep :: ks)).code = -1 ∧ ∀ k ∈ LineKind.sep :: ks, k = .sep) ∨
          ((runLines mode m (.sep :: ks)).code = 0 ∧ ∃ n, (m.nobjs = 0 ∨ n = m.nobjs) ∧ (∀ k ∈ LineKind.sep :: ks, k = .sep ∨ ∃ vs, k = .row vs ∧ vs.length = n) ∧
            (mode = .init → ∃ vs, LineKind.row vs ∈ LineKind.sep :: ks)) := by
        intro mode' m' e1 e2 e3 e4 hm'
        rw [e4]
        rcases ih hrow' mode' m' hm' with h | ⟨h, h'⟩ | ⟨h, n, h1, h2, h3⟩
        · exact Or.inl h
        · refine Or.inr (Or.inl ⟨h, ?_⟩)
          intro k hk
          rcases List.mem_cons.1 hk with rfl | hk
          · rfl
          · exact h' k hk
        · refine Or.inr (Or.inr ⟨h, n, by rw [← e1]; exact h1, ?_, ?_⟩)
          · intro k hk
            rcases List.mem_cons.1 hk with rfl | hk
            · exact Or.inl rfl
            · exact h2 k hk
          · intro hmi
            obtain ⟨vs, hvs⟩ := h3 (e2 hmi)
            exact ⟨vs, by simp [hvs]⟩
      cases mode with
      | init => exact hstep .init m rfl id id rfl hm
      | sep => exact hstep .sep m rfl id id rfl hm
      | inn =>
        refine hstep .sep { m with cum := m.cum ++ [m.cur] } rfl (by simp) (by simp) rfl ?_
        rcases hm with ⟨_, h, _⟩ | ⟨h1, h2, _, h4⟩
        · cases h
        · refine Or.inr ⟨?_, h2, by simp, by simp⟩
          intro c hc
          rcases List.mem_append.1 hc with hc | hc
          · exact h1 c hc
          · rw [List.mem_singleton] at hc; subst hc; exact h4 rfl
    | row vs =>
      have hvs : vs ≠ [] := hrow vs (by simp)
      by_cases hok : m.nobjs = 0 ∨ vs.length = m.nobjs
      · rw [runLines_row_ok mode m vs ks hok]
        have hvl : vs.length ≠ 0 := by simpa using hvs
        have hno : (if m.nobjs = 0 then vs.length else m.nobjs) = vs.length := by
          rcases hok with h | h
          · rw [if_pos h]
          · rw [h]; simp
        rcases ih hrow' .inn ⟨if m.nobjs = 0 then vs.length else m.nobjs, m.cum, curOf mode m + 1, m.data ++ vs⟩ (by
            right
            refine ⟨?_, ?_, ?_, ?_⟩
            · rcases hm with ⟨_, _, h⟩ | ⟨h, _⟩
              · simp [h]
              · exact h
            · dsimp only; rw [hno]; exact hvl
            · right; simp
            · simp) with h | ⟨h, h'⟩ | ⟨h, n, h1, h2, h3⟩
        · exact Or.inl h
        · -- not possible: the code is not -1 after a row
          exfalso
          have hinn : ∀ (ks : List (LineKind V)) (mode : Mode) (m : MSt V), mode ≠ .init → (runLines mode m ks).code ≠ -1 := by
            intro ks
            induction ks with
            | nil => intro mode m hne; cases mode <;> simp [runLines] at hne ⊢
            | cons k ks ih2 =>
              intro mode m hne
              cases k with
              | bad => cases mode <;> simp [runLines]
              | sep =>
                cases mode with
                | init => exact absurd rfl hne
                | sep => exact ih2 .sep m (by simp)
                | inn => exact ih2 .sep _ (by simp)
              | row vs =>
                by_cases hok : m.nobjs = 0 ∨ vs.length = m.nobjs
                · rw [runLines_row_ok mode m vs ks hok]; exact ih2 .inn _ (by simp)
                · rw [runLines_row_err mode m vs ks hok]; split_ifs <;> simp
          exact hinn _ _ _ (by simp) h
        · refine Or.inr (Or.inr ⟨h, n, ?_, ?_, fun _ => ⟨vs, by simp⟩⟩)
          · dsimp only at h1
            rw [hno] at h1
            rcases h1 with h1 | h1
            · exact absurd h1 hvl
            · rcases hok with h | h
              · exact Or.inl h
              · right; omega
          · intro k hk
            rcases List.mem_cons.1 hk with rfl | hk
            · dsimp only at h1
              rw [hno] at h1
              exact Or.inr ⟨vs, rfl, by omega⟩
            · exact h2 k hk
      · left; right
        rw [runLines_row_err mode m vs ks hok, if_neg]
        rcases hm with ⟨h, _⟩ | ⟨h1, h2, h3, h4⟩
        · exact absurd (Or.inl h) hok
        · cases hcum : m.cum with
          | nil =>
            rcases h3 with h3 | ⟨h3, h5⟩
            · exact absurd hcum h3
            · subst h3
              simp [curOf]; omega
          | cons c cs =>
            have := h1 c (by simp [hcum])
            simp; omega

/-- A file that can not be read makes the program exit. -/
theorem eafRead_err {scan : NumScan V} (hs : ScanOk scan) {n : ℕ} {runs0 : List (List (List V))} (hr : (∀ t ∈ runs0, t ≠ []) ∧ (∀ t ∈ runs0, ∀ r ∈ t, r.length = n) ∧ (runs0 ≠ [] → 0 < n)) {s : List Char}
    (hu : Unreadable scan s (if runs0 = [] then 0 else n)) (hno : ¬ NoData scan s) (files : List (List Char)) :
    eafRead scan (if runs0 = [] then 0 else n) (cumFrom 0 (runs0.map List.length)) runs0.flatten.flatten (s :: files) = some none := by
  obtain ⟨hc, hno2⟩ := hu
  obtain ⟨ks, hks⟩ := lines_exists scan (textLines s)
  obtain ⟨out, h1, h2⟩ := readData_lines hs (nobjs := if runs0 = [] then 0 else n) (cum := cumFrom 0 (runs0.map List.length)) (data := runs0.flatten.flatten) (fuel := s.length + 3)
    (by
      intro hne
      have : runs0 ≠ [] := by rintro rfl; simp [cumFrom] at hne
      rw [getLastD_cumFrom_zero, runs_data_length hr.2.1, if_neg this])
    (by
      intro he
      have : runs0 = [] := by
        cases runs0 with
        | nil => rfl
        | cons a b => simp [cumFrom] at he
      subst this
      rfl) (by omega) hc hks
  have hpos : ∀ (l : List (List (List V))) (b : ℕ), (∀ t ∈ l, t ≠ []) → ∀ c ∈ cumFrom b (l.map List.length), 0 < c := by
    intro l
    induction l with
    | nil => intro b _ c hc; simp [cumFrom] at hc
    | cons t l ih =>
      intro b hl c hc
      rw [List.map_cons, cumFrom] at hc
      rcases List.mem_cons.1 hc with rfl | hc
      · have := List.length_pos_iff.2 (hl t (by simp)); omega
      · exact ih _ (fun t ht => hl t (by simp [ht])) c hc
  rw [eafRead, h1]
  dsimp only
  rw [if_neg]
  rw [h2.code]
  rcases runLines_codes ks (fun vs hvs => forall₂_row_ne hks hvs) .init ⟨if runs0 = [] then 0 else n, cumFrom 0 (runs0.map List.length), 0, runs0.flatten.flatten⟩ (by
      by_cases he : runs0 = []
      · left; subst he; simp [cumFrom]
      · right
        refine ⟨hpos runs0 0 hr.1, ?_, ?_, by simp⟩
        · dsimp only
          rw [if_neg he]
          have := hr.2.2 he
          omega
        · left
          cases runs0 with
          | nil => exact absurd rfl he
          | cons a b => simp [cumFrom]) with h | ⟨h, h'⟩ | ⟨h, m, g1, g2, g3⟩
  · omega
  · exfalso
    refine hno ⟨hc, ?_⟩
    intro l hl
    obtain ⟨i, hi, rfl⟩ := List.getElem_of_mem hl
    have hk := List.forall₂_iff_get.1 hks
    have := hk.2 i hi (by rw [← hk.1]; exact hi)
    rw [h' _ (List.get_mem _ _)] at this
    exact this
  · exact absurd ⟨m, _, by simpa using g1, hc, ks, hks, g2, g3 rfl, rfl⟩ hno2

end read

/-! ## Runs as lists -/

theorem cumFrom_getD (l : List ℕ) : ∀ (b r : ℕ), r < l.length → (cumFrom b l).getD r 0 = b + (l.take (r + 1)).sum := by
  induction l with
  | nil => intro b r h; simp at h
  | cons a l ih =>
    intro b r h
    cases r with
    | zero => simp [cumFrom]
    | succ r =>
      rw [cumFrom, List.getD_cons_succ, ih _ r (by simpa using h), List.take_succ_cons, List.sum_cons]
      omega

theorem flatten_getElem?_run {β : Type*} (L : List (List β)) : ∀ (r : ℕ) (hr : r < L.length) (j : ℕ), j < L[r].length →
    L.flatten[((L.map List.length).take r).sum + j]? = L[r][j]? := by
  induction L with
  | nil => intro r hr; simp at hr
  | cons l L ih =>
    intro r hr j hj
    cases r with
    | zero =>
      simp only [List.getElem_cons_zero] at hj ⊢
      simp only [List.take_zero, List.sum_nil, Nat.zero_add, List.flatten_cons]
      rw [List.getElem?_append_left hj]
    | succ r =>
      simp only [List.getElem_cons_succ] at hj ⊢
      rw [List.map_cons, List.take_succ_cons, List.sum_cons, List.flatten_cons, List.getElem?_append_right (by omega), ← ih r (by simpa using hr) j hj]
      congr 1
      omega

theorem take_sum_succ (l : List ℕ) (r : ℕ) (hr : r < l.length) : (l.take (r + 1)).sum = (l.take r).sum + l[r] := by
  rw [← List.take_concat_get' l r hr, List.sum_append]
  simp

/-- The points of run `r` are those in its block. -/
theorem mem_run_iff {β : Type*} (L : List (List β)) (r : ℕ) (hr : r < L.length) (p : β) :
    p ∈ L[r] ↔ ∃ k, InRun (fun r => (cumFrom 0 (L.map List.length)).getD r 0) r k ∧ L.flatten[k]? = some p := by
  have hcum : ∀ s < L.length, (cumFrom 0 (L.map List.length)).getD s 0 = ((L.map List.length).take (s + 1)).sum := by
    intro s hs
    rw [cumFrom_getD _ _ _ (by simpa using hs), Nat.zero_add]
  have hmono : ∀ (l : List ℕ) (i j : ℕ), i ≤ j → (l.take i).sum ≤ (l.take j).sum := by
    intro l i j hij
    obtain ⟨d, rfl⟩ := Nat.exists_eq_add_of_le hij
    rw [List.take_add, List.sum_append]
    omega
  have hlast : ((L.map List.length).take (r + 1)).sum = ((L.map List.length).take r).sum + L[r].length := by
    rw [take_sum_succ _ _ (by simpa using hr)]
    simp
  constructor
  · intro hp
    obtain ⟨j, hj, rfl⟩ := List.getElem_of_mem hp
    refine ⟨((L.map List.length).take r).sum + j, ⟨?_, ?_⟩, ?_⟩
    · intro s hs
      dsimp only
      rw [hcum s (by omega)]
      have := hmono (L.map List.length) (s + 1) r (by omega)
      omega
    · dsimp only
      rw [hcum r hr, hlast]
      omega
    · rw [flatten_getElem?_run L r hr j hj, List.getElem?_eq_getElem hj]
  · rintro ⟨k, ⟨h1, h2⟩, h3⟩
    dsimp only at h2
    rw [hcum r hr, hlast] at h2
    have hlow : ((L.map List.length).take r).sum ≤ k := by
      cases r with
      | zero => simp
      | succ r =>
        have := h1 r (by omega)
        dsimp only at this
        rwa [hcum r (by omega)] at this
    obtain ⟨j, rfl⟩ := Nat.exists_eq_add_of_le hlow
    rw [flatten_getElem?_run L r hr j (by omega)] at h3
    exact List.mem_of_getElem? h3

theorem runsOk_of_runs {β : Type*} {L : List (List β)} (hL : L ≠ []) (hne : ∀ t ∈ L, t ≠ []) :
    RunsOk (fun r => (cumFrom 0 (L.map List.length)).getD r 0) L.length ∧ 0 < (cumFrom 0 (L.map List.length)).getD 0 0 ∧
      (cumFrom 0 (L.map List.length)).getD (L.length - 1) 0 = L.flatten.length := by
  have hlen := List.length_pos_iff.2 hL
  have hcum : ∀ s < L.length, (cumFrom 0 (L.map List.length)).getD s 0 = ((L.map List.length).take (s + 1)).sum := by
    intro s hs
    rw [cumFrom_getD _ _ _ (by simpa using hs), Nat.zero_add]
  have hpos : ∀ r (hr : r < L.length), 0 < L[r].length := fun r hr => List.length_pos_iff.2 (hne _ (List.getElem_mem _))
  have hstep : ∀ r, r + 1 < L.length → (cumFrom 0 (L.map List.length)).getD r 0 < (cumFrom 0 (L.map List.length)).getD (r + 1) 0 := by
    intro r hr
    rw [hcum r (by omega), hcum (r + 1) hr, take_sum_succ _ (r + 1) (by simpa using hr)]
    have := hpos (r + 1) hr
    simp only [List.getElem_map]
    omega
  have h0 : 0 < (cumFrom 0 (L.map List.length)).getD 0 0 := by
    rw [hcum 0 hlen, take_sum_succ _ 0 (by simpa using hlen)]
    have := hpos 0 hlen
    simp only [List.getElem_map]
    omega
  have htot : (cumFrom 0 (L.map List.length)).getD (L.length - 1) 0 = L.flatten.length := by
    rw [hcum _ (by omega), List.length_flatten, List.take_of_length_le (by simp; omega)]
  refine ⟨⟨hlen, hstep, ?_⟩, h0, htot⟩
  dsimp only
  rw [htot, List.length_flatten]
  have := take_sum_succ (L.map List.length) 0 (by simpa using hlen)
  rw [hcum 0 hlen] at h0
  have h2 : ((L.map List.length).take (0 + 1)).sum ≤ (L.map List.length).sum := by
    conv_rhs => rw [← List.take_append_drop (0 + 1) (L.map List.length), List.sum_append]
    omega
  omega

section bridge
variable {K : Type*} [LinearOrder K] [Zero K]

/-- The table of the points that have been read. -/
theorem runs_table {n : ℕ} {runs : List (List (List K))} (h : ∀ t ∈ runs, ∀ r ∈ t, r.length = n) {k : ℕ} {p : List K} (hk : runs.flatten[k]? = some p) {d : ℕ} (hd : d < n) :
    blockTable (fun j => runs.flatten.flatten.getD j 0) n 0 k d = obj p d := by
  have hlt : k < runs.flatten.length := by
    by_contra hc
    rw [List.getElem?_eq_none (by omega)] at hk
    cases hk
  have := (holdsSets_flatten h).union.block k hlt d hd
  rw [this]
  unfold rowsTable obj
  rw [List.getD_eq_getElem?_getD (l := runs.flatten), hk]
  rfl

theorem attains_iff_run {n : ℕ} {runs : List (List (List K))} (h : ∀ t ∈ runs, ∀ r ∈ t, r.length = n) {r : ℕ} (hr : r < runs.length) (z : ℕ → K) :
    Attains (blockTable (fun j => runs.flatten.flatten.getD j 0) n 0) (fun r => (cumFrom 0 (runs.map List.length)).getD r 0) n r z ↔ RunAttains n runs[r] ((List.range n).map z) := by
  have hz : ∀ d < n, obj ((List.range n).map z) d = z d := by
    intro d hd
    unfold obj
    rw [List.getD_eq_getElem _ _ (by simpa using hd)]
    simp
  unfold Attains RunAttains
  constructor
  · rintro ⟨k, h1, h2⟩
    have hk : k < runs.flatten.length := by
      obtain ⟨_, hlt⟩ := h1
      dsimp only at hlt
      rw [cumFrom_getD _ _ _ (by simpa using hr), Nat.zero_add] at hlt
      rw [List.length_flatten]
      have h2 : ((runs.map List.length).take (r + 1)).sum ≤ (runs.map List.length).sum := by
        conv_rhs => rw [← List.take_append_drop (r + 1) (runs.map List.length), List.sum_append]
        omega
      omega
    refine ⟨runs.flatten[k], (mem_run_iff runs r hr _).2 ⟨k, h1, List.getElem?_eq_getElem hk⟩, ?_⟩
    intro d hd
    rw [hz d hd, ← runs_table h (List.getElem?_eq_getElem hk) hd]
    exact h2 d hd
  · rintro ⟨p, h1, h2⟩
    obtain ⟨k, g1, g2⟩ := (mem_run_iff runs r hr p).1 h1
    refine ⟨k, g1, ?_⟩
    intro d hd
    rw [runs_table h g2 hd, ← hz d hd]
    exact h2 d hd

theorem card_filter_range {β : Type*} (L : List β) (P : β → Prop) [DecidablePred P] (Q : ℕ → Prop) [DecidablePred Q] (h : ∀ r (hr : r < L.length), Q r ↔ P L[r]) :
    ((Finset.range L.length).filter Q).card = (L.filter fun b => P b).length := by
  induction L using List.reverseRecOn with
  | nil => rfl
  | append_singleton L a ih =>
    rw [List.length_append, List.length_singleton, Finset.range_add_one, Finset.filter_insert, List.filter_append, List.length_append]
    have h1 := h L.length (by simp)
    rw [List.getElem_append_right (by omega)] at h1
    simp only [Nat.sub_self, List.getElem_singleton] at h1
    have hi : ((Finset.range L.length).filter Q).card = (L.filter fun b => P b).length := by
      apply ih
      intro r hr
      rw [h r (by simp; omega), List.getElem_append_left hr]
    by_cases hp : P a
    · rw [if_pos (h1.2 hp), Finset.card_insert_of_notMem (by simp), hi]
      simp [hp]
    · rw [if_neg (fun h => hp (h1.1 h)), hi]
      simp [hp]

theorem attainCount_runs {n : ℕ} {runs : List (List (List K))} (h : ∀ t ∈ runs, ∀ r ∈ t, r.length = n) (z : ℕ → K) :
    attainCount (blockTable (fun j => runs.flatten.flatten.getD j 0) n 0) (fun r => (cumFrom 0 (runs.map List.length)).getD r 0) runs.length n z =
      runsAttaining n runs ((List.range n).map z) := by
  unfold attainCount runsAttaining
  classical
  rw [← card_filter_range runs (fun run => RunAttains n run ((List.range n).map z)) _ (fun r hr => attains_iff_run h hr z)]

theorem range_map_obj {n : ℕ} {w : List K} (h : w.length = n) : (List.range n).map (obj w) = w := by
  apply List.ext_getElem
  · simp [h]
  · intro i h1 h2
    simp only [List.getElem_map, List.getElem_range, obj]
    exact List.getD_eq_getElem _ _ h2

theorem minimalAttained_runs {n : ℕ} {runs : List (List (List K))} (h : ∀ t ∈ runs, ∀ r ∈ t, r.length = n) (k : ℕ) (z : ℕ → K) :
    MinimalAttained (blockTable (fun j => runs.flatten.flatten.getD j 0) n 0) (fun r => (cumFrom 0 (runs.map List.length)).getD r 0) runs.length n k z ↔
      OnSurface n runs k ((List.range n).map z) := by
  have hz : ∀ (z : ℕ → K), ∀ d < n, obj ((List.range n).map z) d = z d := by
    intro z d hd
    unfold obj
    rw [List.getD_eq_getElem _ _ (by simpa using hd)]
    simp
  unfold MinimalAttained OnSurface
  rw [attainCount_runs h]
  constructor
  · rintro ⟨h1, h2⟩
    refine ⟨by simp, h1, ?_⟩
    intro w hw h3 h4
    have := h2 (obj w) (by rw [attainCount_runs h, range_map_obj hw]; exact h3) (fun d hd => by rw [← hz z d hd]; exact h4 d hd)
    rw [← range_map_obj hw]
    apply List.map_congr_left
    intro d hd
    exact this d (List.mem_range.1 hd)
  · rintro ⟨_, h1, h2⟩
    refine ⟨h1, ?_⟩
    intro w h3 h4 d hd
    have := h2 ((List.range n).map w) (by simp) (by rw [← attainCount_runs h]; exact h3) (fun d hd => by rw [hz w d hd, hz z d hd]; exact h4 d hd)
    rw [← hz w d hd, this, hz z d hd]

end bridge

end Moo
