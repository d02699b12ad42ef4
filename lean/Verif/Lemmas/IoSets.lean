import Verif.Lemmas.IoLines

/-!
# From lines to data sets
-/

set_option autoImplicit false

namespace Moo

variable {V : Type*}

/-- Separators and rows with `n` numbers. -/
def FineLines (n : ℕ) (ks : List (LineKind V)) : Prop := ∀ k ∈ ks, k = .sep ∨ ∃ vs, k = .row vs ∧ vs.length = n

/-- The rows, in order. -/
def rowsOf : List (LineKind V) → List (List V)
  | [] => []
  | .row vs :: ks => vs :: rowsOf ks
  | _ :: ks => rowsOf ks

theorem setsAux_flatten (cur : List (List V)) (ks : List (LineKind V)) : (setsAux cur ks).flatten = cur ++ rowsOf ks := by
  induction ks generalizing cur with
  | nil =>
    rw [setsAux, rowsOf]
    split_ifs with h
    · simp [h]
    · simp
  | cons k ks ih =>
    cases k with
    | row vs => rw [setsAux, rowsOf, ih]; simp
    | sep =>
      rw [setsAux, rowsOf]
      · split_ifs with h
        · rw [ih, h]
        · rw [List.flatten_cons, ih]; simp
      all_goals simp
    | bad =>
      rw [setsAux, rowsOf]
      · split_ifs with h
        · rw [ih, h]
        · rw [List.flatten_cons, ih]; simp
      all_goals simp

theorem setsAux_ne (cur : List (List V)) (ks : List (LineKind V)) : ∀ s ∈ setsAux cur ks, s ≠ [] := by
  induction ks generalizing cur with
  | nil =>
    rw [setsAux]
    split_ifs with h
    · simp
    · simpa using h
  | cons k ks ih =>
    have hsep : ∀ s ∈ (if cur = [] then setsAux [] ks else cur :: setsAux [] ks), s ≠ [] := by
      split_ifs with h
      · exact ih []
      · intro s hs
        rcases List.mem_cons.1 hs with rfl | hs
        · exact h
        · exact ih [] s hs
    cases k with
    | row vs => rw [setsAux]; exact ih _
    | sep => rw [setsAux]; · exact hsep
             all_goals simp
    | bad => rw [setsAux]; · exact hsep
             all_goals simp

theorem getLastD_append_singleton (l : List ℕ) (a : ℕ) : (l ++ [a]).getLastD 0 = a := by simp

/-- The number of rows counted before the next row. -/
def curOf : Mode → MSt V → ℕ
  | .inn, m => m.cur
  | .init, m => m.cum.getLastD 0
  | .sep, m => m.cum.getLastD 0

theorem runLines_row_ok (mode : Mode) (m : MSt V) (vs : List V) (ks : List (LineKind V)) (h : m.nobjs = 0 ∨ vs.length = m.nobjs) :
    runLines mode m (.row vs :: ks) = runLines .inn ⟨if m.nobjs = 0 then vs.length else m.nobjs, m.cum, curOf mode m + 1, m.data ++ vs⟩ ks := by
  cases mode <;> (rw [runLines]; simp only [h, not_true_eq_false, if_false]; rfl; try simp)

theorem runLines_row_err (mode : Mode) (m : MSt V) (vs : List V) (ks : List (LineKind V)) (h : ¬ (m.nobjs = 0 ∨ vs.length = m.nobjs)) :
    (runLines mode m (.row vs :: ks)).code = if m.cum.headD (curOf mode m) = 0 then -2 else -5 := by
  cases mode <;> (rw [runLines]; simp only [h, not_false_eq_true, if_true]; (split_ifs with h1 h2 h2 <;> first | rfl | exact absurd h1 h2 | exact absurd h2 h1); try simp)

theorem runLines_fine (ks : List (LineKind V)) : ∀ {n : ℕ}, n ≠ 0 → FineLines n ks → ∀ (cum : List ℕ) (data : List V),
    (∀ c, runLines .sep ⟨n, cum, c, data⟩ ks =
      ⟨0, n, cum ++ cumFrom (cum.getLastD 0) ((setsAux [] ks).map List.length), data ++ (rowsOf ks).flatten⟩) ∧
    ∀ cur : List (List V), cur ≠ [] → runLines .inn ⟨n, cum, cum.getLastD 0 + cur.length, data⟩ ks =
      ⟨0, n, cum ++ cumFrom (cum.getLastD 0) ((setsAux cur ks).map List.length), data ++ (rowsOf ks).flatten⟩ := by
  induction ks with
  | nil =>
    intro n hn _ cum data
    refine ⟨?_, ?_⟩
    · intro c; simp [runLines, setsAux, cumFrom, rowsOf]
    · intro cur hcur; simp [runLines, setsAux, cumFrom, rowsOf, hcur]
  | cons k ks ih =>
    intro n hn hf cum data
    have hf' : FineLines n ks := fun k hk => hf k (List.mem_cons_of_mem _ hk)
    rcases hf k (by simp) with rfl | ⟨vs, rfl, hvs⟩
    · refine ⟨?_, ?_⟩
      · intro c
        rw [runLines, (ih hn hf' cum data).1, setsAux, rowsOf]
        all_goals simp
      · intro cur hcur
        rw [runLines]
        dsimp only
        rw [(ih hn hf' _ data).1, setsAux, rowsOf, if_neg hcur, List.map_cons, cumFrom, getLastD_append_singleton]
        all_goals simp
    · refine ⟨?_, ?_⟩
      · intro c
        have h2 := (ih hn hf' cum (data ++ vs)).2 [vs] (by simp)
        simp only [List.length_singleton] at h2
        rw [runLines_row_ok _ _ _ _ (Or.inr hvs)]
        simp only [hn, if_false, curOf]
        rw [h2, setsAux, rowsOf]
        simp
      · intro cur hcur
        have h2 := (ih hn hf' cum (data ++ vs)).2 (cur ++ [vs]) (by simp)
        simp only [List.length_append, List.length_singleton] at h2
        rw [runLines_row_ok _ _ _ _ (Or.inr hvs)]
        simp only [hn, if_false, curOf]
        rw [Nat.add_assoc, h2, setsAux, rowsOf]
        simp

theorem runLines_accept {ks : List (LineKind V)} {n : ℕ} (hn : n ≠ 0) (hf : FineLines n ks) (hrow : rowsOf ks ≠ []) {nobjs : ℕ} (ho : nobjs = 0 ∨ nobjs = n)
    (cum : List ℕ) (data : List V) : runLines .init ⟨nobjs, cum, 0, data⟩ ks =
      ⟨0, n, cum ++ cumFrom (cum.getLastD 0) ((setsOf ks).map List.length), data ++ (rowsOf ks).flatten⟩ := by
  induction ks with
  | nil => exact absurd rfl hrow
  | cons k ks ih =>
    have hf' : FineLines n ks := fun k hk => hf k (List.mem_cons_of_mem _ hk)
    rcases hf k (by simp) with rfl | ⟨vs, rfl, hvs⟩
    · have hrow' : rowsOf ks ≠ [] := by rw [rowsOf] at hrow; · exact hrow
                                        simp
      rw [runLines, ih hf' hrow', setsOf, setsOf, setsAux, rowsOf]
      all_goals simp
    · have h2 := (runLines_fine ks hn hf' cum (data ++ vs)).2 [vs] (by simp)
      simp only [List.length_singleton] at h2
      have hc : nobjs = 0 ∨ vs.length = nobjs := by omega
      have hnn : (if nobjs = 0 then vs.length else nobjs) = n := by split_ifs <;> omega
      rw [runLines_row_ok _ _ _ _ hc]
      simp only [curOf, hnn]
      rw [h2, setsOf, setsAux, rowsOf]
      simp

theorem runLines_empty {ks : List (LineKind V)} (h : ∀ k ∈ ks, k = .sep) (m : MSt V) : (runLines .init m ks).code = -1 := by
  have := runLines_seps .init (by simp) m ks [] h
  rw [List.append_nil] at this
  rw [this]; rfl

/-- What is known before a line, after fine lines. -/
def MOk (n : ℕ) : Mode → MSt V → Prop
  | .init, m => (m.nobjs = 0 ∨ m.nobjs = n) ∧ ∀ c ∈ m.cum, 0 < c
  | .sep, m => m.nobjs = n ∧ m.cum ≠ [] ∧ ∀ c ∈ m.cum, 0 < c
  | .inn, m => m.nobjs = n ∧ 0 < m.cur ∧ ∀ c ∈ m.cum, 0 < c

theorem runLines_prefix {n : ℕ} (_ : n ≠ 0) (good : List (LineKind V)) : ∀ (mode : Mode) (m : MSt V), FineLines n good → MOk n mode m → 
    ∃ mode' m', MOk n mode' m' ∧ (rowsOf good ≠ [] → mode' ≠ .init) ∧ (mode ≠ .init → mode' ≠ .init) ∧ (mode' = .init → m' = m) ∧
      ∀ rest, runLines mode m (good ++ rest) = runLines mode' m' rest := by
  induction good with
  | nil => intro mode m _ hm; exact ⟨mode, m, hm, by simp [rowsOf], id, fun _ => rfl, fun _ => rfl⟩
  | cons k good ih =>
    intro mode m hf hm
    have hf' : FineLines n good := fun k hk => hf k (List.mem_cons_of_mem _ hk)
    rcases hf k (by simp) with rfl | ⟨vs, rfl, hvs⟩
    · have hro : rowsOf (.sep :: good) = rowsOf good := by rw [rowsOf]; simp
      rw [hro]
      cases mode with
      | init => exact ih .init m hf' hm
      | sep => exact ih .sep m hf' hm
      | inn =>
        obtain ⟨mode', m', h1, h2, h3, h4, h5⟩ := ih .sep { m with cum := m.cum ++ [m.cur] } hf' ⟨hm.1, by simp, by
          intro c hc
          simp only [List.mem_append, List.mem_singleton] at hc
          rcases hc with hc | rfl
          · exact hm.2.2 c hc
          · exact hm.2.1⟩
        have hne := h3 (by simp)
        exact ⟨mode', m', h1, h2, fun _ => hne, fun e => absurd e hne, h5⟩
    · have hok : m.nobjs = 0 ∨ vs.length = m.nobjs := by
        cases mode with
        | init => have := hm.1; omega
        | sep => have := hm.1; omega
        | inn => have := hm.1; omega
      have hpos : ∀ c ∈ m.cum, 0 < c := by
        cases mode with
        | init => exact hm.2
        | sep => exact hm.2.2
        | inn => exact hm.2.2
      have hnn : (if m.nobjs = 0 then vs.length else m.nobjs) = n := by split_ifs <;> omega
      obtain ⟨mode', m', h1, h2, h3, h4, h5⟩ := ih .inn ⟨if m.nobjs = 0 then vs.length else m.nobjs, m.cum, curOf mode m + 1, m.data ++ vs⟩ hf'
        ⟨hnn, Nat.succ_pos _, hpos⟩
      have hne := h3 (by simp)
      refine ⟨mode', m', h1, fun _ => hne, fun _ => hne, fun e => absurd e hne, ?_⟩
      intro rest
      rw [List.cons_append, runLines_row_ok _ _ _ _ hok, h5]

theorem runLines_bad {n : ℕ} (hn : n ≠ 0) {good : List (LineKind V)} {mode : Mode} {m : MSt V} (hf : FineLines n good) (hm : MOk n mode m) (rest : List (LineKind V)) :
    (runLines mode m (good ++ .bad :: rest)).code = -4 := by
  obtain ⟨mode', m', _, _, _, _, h5⟩ := runLines_prefix hn good mode m hf hm
  rw [h5]
  cases mode' <;> rfl

/-- A row with a different number of columns, after a row (or after previous data). -/
theorem runLines_columns {n : ℕ} (hn : n ≠ 0) {good : List (LineKind V)} {mode : Mode} {m : MSt V} (hf : FineLines n good) (hm : MOk n mode m)
    (hrow : rowsOf good ≠ [] ∨ (m.nobjs = n ∧ m.cum ≠ [])) {vs : List V} (hvs : vs.length ≠ n) (rest : List (LineKind V)) :
    (runLines mode m (good ++ .row vs :: rest)).code = -5 := by
  obtain ⟨mode', m', h1, h2, h3, h4, h5⟩ := runLines_prefix hn good mode m hf hm
  rw [h5]
  have hhead : ∀ {l : List ℕ} {c : ℕ}, (∀ c ∈ l, 0 < c) → l ≠ [] → l.headD c ≠ 0 := by
    intro l c hl hne
    cases l with
    | nil => exact absurd rfl hne
    | cons a l => have := hl a (by simp); simp; omega
  have key : m'.nobjs = n ∧ m'.cum.headD (curOf mode' m') ≠ 0 := by
    cases mode' with
    | init =>
      rw [h4 rfl] at h1 ⊢
      rcases hrow with hrow | ⟨hrow, hrow2⟩
      · exact absurd rfl (h2 hrow)
      · exact ⟨hrow, hhead h1.2 hrow2⟩
    | sep => exact ⟨h1.1, hhead h1.2.2 h1.2.1⟩
    | inn =>
      refine ⟨h1.1, ?_⟩
      by_cases hc : m'.cum = []
      · rw [hc]; have := h1.2.1; simp [curOf]; omega
      · exact hhead h1.2.2 hc
  rw [runLines_row_err _ _ _ _ (by rw [key.1]; omega), if_neg key.2]

/-- The first row has a different number of columns from what the caller asked for. -/
theorem runLines_initial_dim {nobjs : ℕ} (hn : nobjs ≠ 0) {seps : List (LineKind V)} (hs : ∀ k ∈ seps, k = .sep) {vs : List V} (hvs : vs.length ≠ nobjs)
    (rest : List (LineKind V)) : (runLines .init ⟨nobjs, [], 0, []⟩ (seps ++ .row vs :: rest)).code = -2 := by
  rw [runLines_seps .init (by simp) _ _ _ hs, runLines_row_err _ _ _ _ (by simp; omega)]
  rfl

end Moo
