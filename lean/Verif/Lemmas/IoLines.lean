import Verif.Lemmas.Io
import Mathlib.Data.List.Forall2

/-!
# Reading text, line by line
-/

set_option autoImplicit false

namespace Moo

variable {V : Type*}

/-- What follows a line: the end of the text, or a newline and more text. -/
def afterLine : Option (List Char) → List Char
  | none => []
  | some t => '\n' :: t

/-- The lines that follow. -/
def linesO : Option (List Char) → List (List Char)
  | none => []
  | some t => textLines t

/-- The stream after the newline, if any. -/
def streamO (o : Option (List Char)) : List Char := o.getD []

/-- The result of scanning for a newline there. -/
def retO : Option (List Char) → ℤ
  | none => -1
  | some _ => 1

theorem textLines_append (l : List Char) (o : Option (List Char)) (hl : '\n' ∉ l) : textLines (l ++ afterLine o) = l :: linesO o := by
  induction l with
  | nil =>
    cases o with
    | none => simp [afterLine, textLines, linesO]
    | some t => simp [afterLine, textLines, linesO]
  | cons c l ih =>
    simp only [List.mem_cons, not_or] at hl
    rw [List.cons_append, textLines, if_neg (Ne.symm hl.1), ih hl.2]

theorem exists_line (s : List Char) : ∃ l o, '\n' ∉ l ∧ s = l ++ afterLine o := by
  induction s with
  | nil => exact ⟨[], none, by simp, rfl⟩
  | cons c s ih =>
    by_cases hc : c = '\n'
    · subst hc; exact ⟨[], some s, by simp, rfl⟩
    · obtain ⟨l, o, h1, h2⟩ := ih
      exact ⟨c :: l, o, by simp [h1, Ne.symm hc], by rw [h2]; rfl⟩

theorem scanNewline_afterLine (o : Option (List Char)) : scanNewline (afterLine o) = (retO o, streamO o) := by
  cases o <;> rfl

theorem isWs_newline : isWs '\n' = false := by decide

theorem dropWhile_afterLine (p : Char → Bool) (hp : p '\n' = false) (l : List Char) (o : Option (List Char)) :
    (l ++ afterLine o).dropWhile p = l.dropWhile p ++ afterLine o := by
  induction l with
  | nil =>
    cases o with
    | none => rfl
    | some t => simp [afterLine, hp]
  | cons c l ih =>
    rw [List.cons_append]
    by_cases hc : p c = true
    · rw [List.dropWhile_cons_of_pos hc, List.dropWhile_cons_of_pos hc, ih]
    · rw [List.dropWhile_cons_of_neg hc, List.dropWhile_cons_of_neg hc, List.cons_append]

theorem dropWhile_all {p : Char → Bool} {l : List Char} (h : ∀ c ∈ l, p c = true) : l.dropWhile p = [] := by
  induction l with
  | nil => rfl
  | cons c l ih => rw [List.dropWhile_cons_of_pos (h c (by simp))]; exact ih (fun d hd => h d (by simp [hd]))

theorem skipComment_sep {l : List Char} {o : Option (List Char)} (hl : '\n' ∉ l) (h : (∃ t, l = '#' :: t) ∨ ∀ c ∈ l, isWs c = true) :
    skipCommentLine (l ++ afterLine o) = (retO o, streamO o) := by
  rcases h with ⟨t, rfl⟩ | h
  · rw [List.cons_append, skipCommentLine, if_pos rfl, dropWhile_afterLine _ (by simp), dropWhile_all, List.nil_append, scanNewline_afterLine]
    intro c hc
    simp only [ne_eq, decide_not, Bool.not_eq_eq_eq_not, Bool.not_true, decide_eq_false_iff_not]
    rintro rfl
    exact hl (List.mem_cons_of_mem _ hc)
  · cases l with
    | nil =>
      cases o with
      | none => rfl
      | some t => rfl
    | cons c l =>
      have hc : c ≠ '#' := by
        rintro rfl
        have := h '#' (by simp)
        simp [isWs] at this
      rw [List.cons_append, skipCommentLine, if_neg hc, skipWs, ← List.cons_append, dropWhile_afterLine _ isWs_newline, dropWhile_all h, List.nil_append,
        scanNewline_afterLine]

theorem dropWhile_ne_nil {p : Char → Bool} {l : List Char} (h : ¬ ∀ c ∈ l, p c = true) : ∃ c t, l.dropWhile p = c :: t ∧ p c = false ∧ c ∈ l := by
  induction l with
  | nil => simp at h
  | cons c l ih =>
    by_cases hc : p c = true
    · obtain ⟨d, t, h1, h2, h3⟩ := ih (by intro hall; exact h (by intro x hx; rcases List.mem_cons.1 hx with rfl | hx; exacts [hc, hall x hx]))
      exact ⟨d, t, by rw [List.dropWhile_cons_of_pos hc, h1], h2, List.mem_cons_of_mem _ h3⟩
    · exact ⟨c, l, List.dropWhile_cons_of_neg hc, by simpa using hc, by simp⟩

theorem skipComment_row {l : List Char} {o : Option (List Char)} (hl : '\n' ∉ l) (h1 : ∀ t, l ≠ '#' :: t) (h2 : ¬ ∀ c ∈ l, isWs c = true) :
    skipCommentLine (l ++ afterLine o) = (0, l.dropWhile isWs ++ afterLine o) := by
  obtain ⟨d, t, h3, _, h5⟩ := dropWhile_ne_nil h2
  cases l with
  | nil => simp at h2
  | cons c l =>
    have hc : c ≠ '#' := by rintro rfl; exact h1 l rfl
    rw [List.cons_append, skipCommentLine, if_neg hc, skipWs, ← List.cons_append, dropWhile_afterLine _ isWs_newline, h3, List.cons_append, scanNewline, if_neg]
    rintro rfl
    exact hl h5

/-- Neither vertical tabs nor form feeds. -/
def CleanText (s : List Char) : Prop := ∀ c ∈ s, c ≠ '\x0b' ∧ c ≠ '\x0c'

theorem isSpaceC_eq_isWs {c : Char} (h1 : c ≠ '\n') (h2 : c ≠ '\x0b') (h3 : c ≠ '\x0c') : isSpaceC c = isWs c := by
  simp [isSpaceC, isWs, h1, h2, h3]

theorem dropWhile_space {x : List Char} (o : Option (List Char)) (hn : '\n' ∉ x) (hc : CleanText x) (hb : ¬ ∀ c ∈ x, isWs c = true) :
    (x ++ afterLine o).dropWhile isSpaceC = x.dropWhile isWs ++ afterLine o := by
  induction x with
  | nil => simp at hb
  | cons c x ih =>
    simp only [List.mem_cons, not_or] at hn
    have he := isSpaceC_eq_isWs (c := c) (Ne.symm hn.1) (hc c (by simp)).1 (hc c (by simp)).2
    rw [List.cons_append]
    by_cases hw : isWs c = true
    · rw [List.dropWhile_cons_of_pos (by rw [he]; exact hw), List.dropWhile_cons_of_pos hw]
      apply ih hn.2 (fun d hd => hc d (List.mem_cons_of_mem _ hd))
      intro hall
      exact hb (by intro d hd; rcases List.mem_cons.1 hd with rfl | hd; exacts [hw, hall d hd])
    · rw [List.dropWhile_cons_of_neg (by rw [he]; exact hw), List.dropWhile_cons_of_neg hw, List.cons_append]

theorem dropWhile_idem (p : Char → Bool) (x : List Char) : (x.dropWhile p).dropWhile p = x.dropWhile p := by
  induction x with
  | nil => rfl
  | cons c x ih =>
    by_cases hc : p c = true
    · rw [List.dropWhile_cons_of_pos hc, ih]
    · rw [List.dropWhile_cons_of_neg hc, List.dropWhile_cons_of_neg hc]

theorem all_dropWhile (p : Char → Bool) (x : List Char) (h : ∀ c ∈ x.dropWhile p, p c = true) : ∀ c ∈ x, p c = true := by
  by_contra hb
  obtain ⟨c, t, h1, h2, _⟩ := dropWhile_ne_nil hb
  have := h c (by rw [h1]; simp)
  rw [h2] at this
  cases this

theorem numbers_dropWs {scan : NumScan V} {x : List Char} {vs : List V} : Numbers scan (x.dropWhile isWs) vs ↔ Numbers scan x vs := by
  constructor
  · intro h
    cases h with
    | nil _ h => exact Numbers.nil _ (all_dropWhile _ _ h)
    | cons _ r v vs h1 h2 => exact Numbers.cons _ r v vs (by rw [dropWhile_idem] at h1; exact h1) h2
  · intro h
    cases h with
    | nil _ h => exact Numbers.nil _ (by rw [dropWhile_all h]; simp)
    | cons _ r v vs h1 h2 => exact Numbers.cons _ r v vs (by rw [dropWhile_idem]; exact h1) h2

theorem scan_afterLine {scan : NumScan V} (hs : ScanOk scan) {l : List Char} (hl : '\n' ∉ l) (o : Option (List Char)) :
    scan (l ++ afterLine o) = (scan l).map (fun p => (p.1, p.2 ++ afterLine o)) := by
  cases o with
  | none => cases h : scan l <;> simp [afterLine, h]
  | some t => exact hs.line l t hl

/-- Reading the row at the start of a line. -/
theorem readRow_line {scan : NumScan V} (hs : ScanOk scan) (fuel : ℕ) : ∀ (column : ℕ) (st : RdSt V) (x : List Char) (o : Option (List Char)),
    x.length < fuel → RdInv st → '\n' ∉ x → CleanText x → (¬ ∀ c ∈ x, isWs c = true) →
    (∃ vs st', Numbers scan x vs ∧ readRow scan fuel column st (x ++ afterLine o) = some (.row st' (column + vs.length) (streamO o)) ∧
      Appended st st' vs ∧ RdInv st') ∨
    ((∀ vs, ¬ Numbers scan x vs) ∧ ∃ st' vs, readRow scan fuel column st (x ++ afterLine o) = some (.conv st') ∧ Appended st st' vs) := by
  induction fuel with
  | zero => intro c st x o h; omega
  | succ fuel ih =>
    intro column st x o h hi hn hc hb
    rw [readRow]
    rw [dropWhile_space o hn hc hb]
    have hsub : (x.dropWhile isWs) <:+ x := List.dropWhile_suffix _
    rw [scan_afterLine hs (fun hm => hn (hsub.mem hm))]
    cases hsc : scan (x.dropWhile isWs) with
    | none =>
      right
      refine ⟨?_, st, [], rfl, rfl, rfl, rfl, by simp, rfl⟩
      intro vs hv
      cases hv with
      | nil _ h => exact hb h
      | cons _ r v vs h1 _ => rw [hsc] at h1; cases h1
    | some p =>
      obtain ⟨v, r⟩ := p
      simp only [Option.map_some]
      obtain ⟨d, h1, h2⟩ := push_ok hi v
      rw [h1]
      dsimp only
      obtain ⟨hl1, hl2⟩ := hs.suffix _ _ _ hsc
      have hl := dropWhile_length_le isWs x
      have hrx : r <:+ x := hl1.trans hsub
      have hrn : '\n' ∉ r := fun hm => hn (hrx.mem hm)
      rw [skipWs, dropWhile_afterLine _ isWs_newline]
      by_cases hr : ∀ c ∈ r, isWs c = true
      · rw [dropWhile_all hr, List.nil_append, scanNewline_afterLine]
        left
        refine ⟨[v], { st with data := st.data ++ [v], datasize := d }, Numbers.cons _ r v [] hsc (Numbers.nil _ hr), ?_, ⟨rfl, rfl, rfl, rfl, rfl⟩, h2⟩
        rw [if_neg (by cases o <;> simp [retO])]
        rfl
      · obtain ⟨c, t, e1, e2, e3⟩ := dropWhile_ne_nil hr
        have hsn : scanNewline (r.dropWhile isWs ++ afterLine o) = (0, r.dropWhile isWs ++ afterLine o) := by
          rw [e1, List.cons_append, scanNewline, if_neg]
          rintro rfl
          exact hrn e3
        rw [hsn]
        simp only [if_true]
        have hsub2 : (r.dropWhile isWs) <:+ r := List.dropWhile_suffix _
        have hl3 := dropWhile_length_le isWs r
        rcases ih (column + 1) _ (r.dropWhile isWs) o (by omega) h2 (fun hm => hrn (hsub2.mem hm)) (fun d hd => hc d ((hsub2.trans hrx).mem hd))
          (fun hall => hr (all_dropWhile _ _ hall)) with ⟨vs, st', g1, g2, g3, g4⟩ | ⟨g1, st', vs, g2, g3⟩
        · left
          refine ⟨v :: vs, st', Numbers.cons _ r v vs hsc (numbers_dropWs.1 g1), ?_, ⟨g3.nobjs, g3.cum, g3.cur, by rw [g3.data]; simp, g3.size⟩, g4⟩
          rw [g2]
          simp only [List.length_cons]
          congr 2; omega
        · right
          refine ⟨?_, st', v :: vs, g2, ⟨g3.nobjs, g3.cum, g3.cur, by rw [g3.data]; simp, g3.size⟩⟩
          intro ws hw
          cases hw with
          | nil _ h => exact hb h
          | cons _ r' v' vs' k1 k2 =>
            rw [hsc] at k1
            obtain ⟨rfl, rfl⟩ := Prod.mk.inj (Option.some.inj k1)
            exact g1 vs' (numbers_dropWs.2 k2)

/-! ## The meaning of a list of lines -/

/-- The state of the reader, without the sizes of the blocks. -/
structure MSt (V : Type*) where
  nobjs : ℕ
  cum : List ℕ
  cur : ℕ
  data : List V

inductive Mode
  | init
  | sep
  | inn

/-- Reading lines with known meanings. -/
def runLines : Mode → MSt V → List (LineKind V) → RdOut V
  | .init, m, [] => ⟨-1, m.nobjs, m.cum, m.data⟩
  | .sep, m, [] => ⟨0, m.nobjs, m.cum, m.data⟩
  | .inn, m, [] => ⟨0, m.nobjs, m.cum ++ [m.cur], m.data⟩
  | .init, m, .sep :: ks => runLines .init m ks
  | .sep, m, .sep :: ks => runLines .sep m ks
  | .inn, m, .sep :: ks => runLines .sep { m with cum := m.cum ++ [m.cur] } ks
  | _, m, .bad :: _ => ⟨-4, m.nobjs, m.cum, m.data⟩
  | mode, m, .row vs :: ks =>
    let cur := match mode with
      | .inn => m.cur
      | _ => m.cum.getLastD 0
    if ¬ (m.nobjs = 0 ∨ vs.length = m.nobjs) then
      if m.cum.headD cur = 0 then ⟨-2, m.nobjs, m.cum, m.data⟩ else ⟨-5, m.nobjs, m.cum, m.data⟩
    else runLines .inn ⟨if m.nobjs = 0 then vs.length else m.nobjs, m.cum, cur + 1, m.data ++ vs⟩ ks

/-- The two results agree; the data is compared when there is no error. -/
structure OutEq (a b : RdOut V) : Prop where
  code : a.code = b.code
  nobjs : a.nobjs = b.nobjs
  cum : a.cum = b.cum
  data : a.code = 0 → a.data = b.data

/-- The state of the model without the sizes. -/
def RdSt.m (st : RdSt V) : MSt V := ⟨st.nobjs, st.cum, st.cur, st.data⟩

theorem isLine_exists (scan : NumScan V) (l : List Char) : ∃ k, IsLine scan l k := by
  by_cases h1 : (∃ t, l = '#' :: t) ∨ ∀ c ∈ l, isWs c = true
  · exact ⟨.sep, h1⟩
  · push Not at h1
    by_cases h2 : ∃ vs, Numbers scan l vs
    · obtain ⟨vs, h2⟩ := h2
      refine ⟨.row vs, h1.1, ?_, h2⟩
      rintro rfl
      cases h2 with
      | nil _ h =>
        obtain ⟨c, hc, hc2⟩ := h1.2
        exact hc2 (h c hc)
    · push Not at h2
      exact ⟨.bad, h1.1, h2⟩

theorem lines_exists (scan : NumScan V) (ls : List (List Char)) : ∃ ks, List.Forall₂ (IsLine scan) ls ks := by
  induction ls with
  | nil => exact ⟨[], .nil⟩
  | cons l ls ih =>
    obtain ⟨ks, h⟩ := ih
    obtain ⟨k, hk⟩ := isLine_exists scan l
    exact ⟨k :: ks, .cons hk h⟩

theorem numbers_unique {scan : NumScan V} (hs : ScanOk scan) {l : List Char} {vs ws : List V} (h1 : Numbers scan l vs) (h2 : Numbers scan l ws) : vs = ws := by
  have hnone : ∀ {x : List Char}, (∀ c ∈ x, isWs c = true) → scan (x.dropWhile isWs) = none := by
    intro x hx
    rw [dropWhile_all hx]
    cases h : scan [] with
    | none => rfl
    | some p => exact absurd (hs.suffix _ _ _ h).2 (by simp)
  induction h1 generalizing ws with
  | nil l h =>
    cases h2 with
    | nil => rfl
    | cons _ r v vs k1 _ => rw [hnone h] at k1; cases k1
  | cons l r v vs k1 _ ih =>
    cases h2 with
    | nil _ h => rw [hnone h] at k1; cases k1
    | cons _ r' v' vs' k2 k3 =>
      rw [k1] at k2
      obtain ⟨rfl, rfl⟩ := Prod.mk.inj (Option.some.inj k2)
      rw [ih k3]

/-- A non-separator line is not blank. -/
theorem IsLine.not_blank {scan : NumScan V} (hs : ScanOk scan) {l : List Char} {k : LineKind V} (h : IsLine scan l k) (hk : k ≠ .sep) :
    ¬ ∀ c ∈ l, isWs c = true := by
  intro hb
  cases k with
  | sep => exact hk rfl
  | bad => exact h.2 [] (Numbers.nil _ hb)
  | row vs => exact h.2.1 (numbers_unique hs h.2.2 (Numbers.nil _ hb))

theorem IsLine.not_hash {scan : NumScan V} {l : List Char} {k : LineKind V} (h : IsLine scan l k) (hk : k ≠ .sep) : ∀ t, l ≠ '#' :: t := by
  cases k with
  | sep => exact absurd rfl hk
  | bad => exact h.1
  | row vs => exact h.1

/-- `skip_comment_line` repeated: all remaining lines are separators, or the stream is at the start of the first line that is not (white space dropped). -/
theorem skipSeps_lines {scan : NumScan V} (hs : ScanOk scan) (fuel : ℕ) : ∀ (o : Option (List Char)) (ks : List (LineKind V)), (streamO o).length < fuel →
    CleanText (streamO o) → List.Forall₂ (IsLine scan) (linesO o) ks →
    (∃ r, skipSeps fuel (streamO o) = some (-1, r) ∧ ∀ k ∈ ks, k = .sep) ∨
    (∃ l o' seps k ks', skipSeps fuel (streamO o) = some (0, l.dropWhile isWs ++ afterLine o') ∧ ks = seps ++ k :: ks' ∧ (∀ k ∈ seps, k = .sep) ∧
      k ≠ .sep ∧ IsLine scan l k ∧ '\n' ∉ l ∧ CleanText l ∧ CleanText (streamO o') ∧ List.Forall₂ (IsLine scan) (linesO o') ks' ∧
      l.length + (afterLine o').length ≤ (streamO o).length) := by
  induction fuel with
  | zero => intro o ks h; omega
  | succ fuel ih =>
    intro o ks h hc hk
    cases o with
    | none =>
      cases hk
      exact Or.inl ⟨[], rfl, by simp⟩
    | some s =>
      obtain ⟨l, o', hl, rfl⟩ := exists_line s
      rw [linesO, textLines_append l o' hl] at hk
      cases hk with
      | @cons _ k _ ks' h1 h2 =>
        rw [streamO, Option.getD_some] at h hc ⊢
        have hcl : CleanText l := fun c hc' => hc c (List.mem_append_left _ hc')
        have hco : CleanText (streamO o') := by
          cases o' with
          | none => intro c hc'; simp [streamO] at hc'
          | some t => intro c hc'; exact hc c (List.mem_append_right _ (List.mem_cons_of_mem _ hc'))
        rw [skipSeps]
        by_cases hks : k = .sep
        · subst hks
          rw [skipComment_sep hl h1]
          dsimp only
          cases o' with
          | none =>
            cases h2
            exact Or.inl ⟨[], rfl, by simp⟩
          | some t =>
            simp only [retO, if_true]
            have hlen : (streamO (some t)).length < fuel := by
              simp [streamO, afterLine] at h ⊢; omega
            rcases ih (some t) ks' hlen hco h2 with ⟨r, g1, g2⟩ | ⟨l2, o2, seps, k, ks2, g1, g2, g3, g4, g5, g6, g7, g8, g9, g10⟩
            · exact Or.inl ⟨r, g1, by simpa using g2⟩
            · refine Or.inr ⟨l2, o2, .sep :: seps, k, ks2, g1, by rw [g2]; rfl, by simpa using g3, g4, g5, g6, g7, g8, g9, ?_⟩
              simp [streamO, afterLine] at g10 ⊢
              omega
        · rw [skipComment_row hl (h1.not_hash hks) (h1.not_blank hs hks)]
          right
          exact ⟨l, o', [], k, ks', by simp, rfl, by simp, hks, h1, hl, hcl, hco, h2, by simp⟩

theorem runLines_seps (mode : Mode) (hm : mode ≠ .inn) (m : MSt V) (seps ks : List (LineKind V)) (h : ∀ k ∈ seps, k = .sep) :
    runLines mode m (seps ++ ks) = runLines mode m ks := by
  induction seps with
  | nil => rfl
  | cons k seps ih =>
    obtain rfl := h k (by simp)
    cases mode with
    | inn => exact absurd rfl hm
    | init => exact ih (fun k hk => h k (by simp [hk]))
    | sep => exact ih (fun k hk => h k (by simp [hk]))

theorem runLines_begin (mode : Mode) (hm : mode ≠ .inn) (m : MSt V) (k : LineKind V) (hk : k ≠ .sep) (ks : List (LineKind V)) :
    runLines mode m (k :: ks) = runLines .inn { m with cur := m.cum.getLastD 0 } (k :: ks) := by
  cases k with
  | sep => exact absurd rfl hk
  | bad => cases mode <;> rfl
  | row vs =>
    cases mode with
    | inn => exact absurd rfl hm
    | init => rfl
    | sep => rfl

theorem streamO_le (o : Option (List Char)) : (streamO o).length ≤ (afterLine o).length := by
  cases o <;> simp [streamO, afterLine]

theorem afterLine_le (o : Option (List Char)) : (afterLine o).length ≤ (streamO o).length + 1 := by
  cases o <;> simp [streamO, afterLine]

theorem afterLine_some_length (l : List Char) (o : Option (List Char)) : (afterLine (some (l ++ afterLine o))).length = l.length + (afterLine o).length + 1 := by
  simp [afterLine]

theorem readSet_lines {scan : NumScan V} (hs : ScanOk scan) (fuel : ℕ) : ∀ (st : RdSt V) (l : List Char) (o : Option (List Char)) (k : LineKind V)
    (ks : List (LineKind V)), l.length + (afterLine o).length + 1 < fuel → RdInv st → IsLine scan l k → k ≠ .sep → '\n' ∉ l → CleanText l →
    CleanText (streamO o) → List.Forall₂ (IsLine scan) (linesO o) ks →
    (∃ code st', readSet scan fuel st (l.dropWhile isWs ++ afterLine o) = some (.err code st') ∧ OutEq (st'.finish code) (runLines .inn st.m (k :: ks))) ∨
    (∃ st' o2 ks2, readSet scan fuel st (l.dropWhile isWs ++ afterLine o) = some (.fin st' (streamO o2)) ∧ RdInv st' ∧ st'.cum = st.cum ∧
      st'.sizessize = st.sizessize ∧
      runLines .inn st.m (k :: ks) = runLines .sep ⟨st'.nobjs, st'.cum ++ [st'.cur], st'.cur, st'.data⟩ ks2 ∧
      List.Forall₂ (IsLine scan) (linesO o2) ks2 ∧ CleanText (streamO o2) ∧ (streamO o2).length ≤ (afterLine o).length) := by
  induction fuel with
  | zero => intro st l o k ks h; omega
  | succ fuel ih =>
    intro st l o k ks hf hi hlk hk hn hc hco hks
    have hsub : (l.dropWhile isWs) <:+ l := List.dropWhile_suffix _
    have hnb := hlk.not_blank hs hk
    have hdl := dropWhile_length_le isWs l
    rw [readSet]
    rcases readRow_line hs fuel 0 st (l.dropWhile isWs) o (by omega) hi (fun hm => hn (hsub.mem hm)) (fun d hd => hc d (hsub.mem hd))
      (fun hall => hnb (all_dropWhile _ _ hall)) with ⟨vs, st1, g1, g2, g3, g4⟩ | ⟨g1, st1, vs, g2, g3⟩
    · rw [numbers_dropWs] at g1
      have hkr : k = .row vs := by
        cases k with
        | sep => exact absurd rfl hk
        | bad => exact absurd g1 (hlk.2 vs)
        | row ws => rw [numbers_unique hs g1 hlk.2.2]
      subst hkr
      rw [g2]
      dsimp only
      rw [runLines]
      simp only [RdSt.m]
      rw [Nat.zero_add, g3.nobjs, g3.cum, g3.cur]
      by_cases h1 : st.nobjs = 0 ∨ vs.length = st.nobjs
      swap
      · simp only [h1, not_false_eq_true, if_true]
        left
        by_cases hh : st.cum.headD st.cur = 0
        · simp only [hh, if_true]
          exact ⟨_, _, rfl, rfl, g3.nobjs, g3.cum, by simp [RdSt.finish]⟩
        · simp only [hh, if_false]
          exact ⟨_, _, rfl, rfl, g3.nobjs, g3.cum, by simp [RdSt.finish]⟩
      simp only [h1, not_true_eq_false, if_false]
      have hst2 : RdInv ({ st1 with nobjs := if st.nobjs = 0 then vs.length else st.nobjs, cum := st.cum, cur := st.cur + 1 } : RdSt V)   := ⟨g4.data, by have := g4.cum; rw [g3.cum] at this; exact this⟩
      cases o with
      | none =>
        cases hks
        right
        refine ⟨_, none, [], rfl, hst2, rfl, g3.size, ?_, .nil, by simp [streamO, CleanText], by simp [streamO]⟩
        simp only [runLines]
        rw [g3.data]
        rfl
      | some s =>
        obtain ⟨l', o', hl', rfl⟩ := exists_line s
        rw [linesO, textLines_append l' o' hl'] at hks
        cases hks with
        | @cons _ k' _ ks' h2 h3 =>
          rw [streamO, Option.getD_some] at hco
          have hcl : CleanText l' := fun c hc' => hco c (List.mem_append_left _ hc')
          have hco' : CleanText (streamO o') := by
            cases o' with
            | none => intro c hc'; simp [streamO] at hc'
            | some t => intro c hc'; exact hco c (List.mem_append_right _ (List.mem_cons_of_mem _ hc'))
          have hle := streamO_le o'
          simp only [streamO, Option.getD_some]
          by_cases hks : k' = .sep
          · subst hks
            have hret : ¬ retO o' = 0 := by cases o' <;> simp [retO]
            simp only [skipComment_sep hl' h2, hret, if_false]
            right
            refine ⟨_, o', ks', rfl, hst2, rfl, g3.size, ?_, h3, hco', ?_⟩
            · simp only [runLines]
              rw [g3.data]
              rfl
            · rw [afterLine_some_length]
              have : (streamO o').length = (o'.getD []).length := rfl
              omega
          · simp only [skipComment_row hl' (h2.not_hash hks) (h2.not_blank hs hks), if_true]
            have hfu : l'.length + (afterLine o').length + 1 < fuel := by
              rw [afterLine_some_length] at hf; omega
            have hm : runLines .inn ⟨if st.nobjs = 0 then vs.length else st.nobjs, st.cum, st.cur + 1, st.data ++ vs⟩ (k' :: ks') =
                runLines .inn ({ st1 with nobjs := if st.nobjs = 0 then vs.length else st.nobjs, cum := st.cum, cur := st.cur + 1 } : RdSt V).m (k' :: ks') := by
              simp only [RdSt.m]
              rw [g3.data]
            rcases ih _ l' o' k' ks' hfu hst2 h2 hks hl' hcl hco' h3 with ⟨code, st', e1, e2⟩ | ⟨st', o2, ks2, e1, e2, e3, e4, e5, e6, e7, e8⟩
            · rw [← hm] at e2
              exact Or.inl ⟨code, st', e1, e2⟩
            · right
              rw [← hm] at e5
              refine ⟨st', o2, ks2, e1, e2, e3, by rw [e4]; exact g3.size, e5, e6, e7, ?_⟩
              rw [afterLine_some_length]
              have : (streamO o2).length = (o2.getD []).length := rfl
              omega
    · have hkb : k = .bad := by
        cases k with
        | sep => exact absurd rfl hk
        | bad => rfl
        | row ws => exact absurd (numbers_dropWs.2 hlk.2.2) (g1 ws)
      subst hkb
      rw [g2]
      left
      exact ⟨-4, st1, rfl, rfl, g3.nobjs, g3.cum, by simp [RdSt.finish]⟩

theorem readSets_lines {scan : NumScan V} (hs : ScanOk scan) (fuel : ℕ) : ∀ (st : RdSt V) (l : List Char) (o : Option (List Char)) (k : LineKind V)
    (ks : List (LineKind V)), l.length + (afterLine o).length + 2 < fuel → RdInv st → IsLine scan l k → k ≠ .sep → '\n' ∉ l → CleanText l →
    CleanText (streamO o) → List.Forall₂ (IsLine scan) (linesO o) ks →
    ∃ out, readSets scan fuel st (l.dropWhile isWs ++ afterLine o) = some out ∧ OutEq out (runLines .sep st.m (k :: ks)) := by
  induction fuel with
  | zero => intro st l o k ks h; omega
  | succ fuel ih =>
    intro st l o k ks hf hi hlk hk hn hc hco hks
    rw [readSets]
    have hl1 : 0 < l.length := by
      rw [List.length_pos_iff]
      rintro rfl
      exact hlk.not_blank hs hk (by simp)
    obtain ⟨z, hz1, hz2⟩ := beginSet_ok hi.cum
    rw [hz1]
    dsimp only
    have hb : runLines .sep st.m (k :: ks) = runLines .inn ({ st with sizessize := z, cur := st.cum.getLastD 0 } : RdSt V).m (k :: ks) :=
      runLines_begin .sep (by simp) st.m k hk ks
    rw [hb]
    rcases readSet_lines hs fuel { st with sizessize := z, cur := st.cum.getLastD 0 } l o k ks (by omega) ⟨hi.data, hz2.le⟩ hlk hk hn hc hco hks with
      ⟨code, st', e1, e2⟩ | ⟨st', o2, ks2, e1, e2, e3, e4, e5, e6, e7, e8⟩
    · rw [e1]
      exact ⟨_, rfl, e2⟩
    · rw [e1, e5]
      dsimp only at e3 e4 ⊢
      have hinv : RdInv ({ st' with cum := st'.cum ++ [st'.cur] } : RdSt V) := ⟨e2.data, by simp; rw [e3, e4]; exact hz2⟩
      rcases skipSeps_lines hs fuel o2 ks2 (by omega) e7 e6 with ⟨r, k1, k2⟩ | ⟨l2, o3, seps, k3, ks3, g1, g2, g3, g4, g5, g6, g7, g8, g9, g10⟩
      · rw [k1]
        have := runLines_seps .sep (by simp) ⟨st'.nobjs, st'.cum ++ [st'.cur], st'.cur, st'.data⟩ ks2 [] k2
        rw [List.append_nil] at this
        rw [this]
        exact ⟨_, rfl, rfl, rfl, rfl, fun _ => rfl⟩
      · rw [g1, g2, runLines_seps .sep (by simp) _ seps _ g3]
        exact ih { st' with cum := st'.cum ++ [st'.cur] } l2 o3 k3 ks3 (by omega) hinv g5 g4 g6 g7 g8 g9

/-- The sizes of the blocks at the start are right for the data already there. -/
theorem initSize_ok (n : ℕ) : n ≤ ((n - 1) / dataInc + 1) * dataInc := by
  unfold dataInc
  have := Nat.div_add_mod (n - 1) 512
  have := Nat.mod_lt (n - 1) (show 0 < 512 by omega)
  omega

theorem readData_lines {scan : NumScan V} (hs : ScanOk scan) {fuel nobjs : ℕ} {cum : List ℕ} {data : List V} (hd : cum ≠ [] → data.length = nobjs * cum.getLastD 0)
    (h0 : cum = [] → data = []) {s : List Char} (hf : s.length + 2 < fuel) (hc : CleanText s) {ks : List (LineKind V)}
    (hks : List.Forall₂ (IsLine scan) (textLines s) ks) :
    ∃ out, readData scan fuel nobjs cum data s = some out ∧ OutEq out (runLines .init ⟨nobjs, cum, 0, data⟩ ks) := by
  unfold readData
  generalize hst : (if cum.length = 0 then (⟨nobjs, cum, 0, [], 0, 0⟩ : RdSt V)
    else ⟨nobjs, cum, 0, data, ((nobjs * cum.getLastD 0 - 1) / dataInc + 1) * dataInc, ((cum.length - 1) / dataInc + 1) * dataInc⟩) = st
  have hinv : RdInv st ∧ st.m = ⟨nobjs, cum, 0, data⟩ := by
    rw [← hst]
    split_ifs with h
    · have hc0 : cum = [] := List.length_eq_zero_iff.1 h
      exact ⟨⟨by simp, by simp [h]⟩, by simp [RdSt.m, h0 hc0]⟩
    · refine ⟨⟨?_, initSize_ok _⟩, rfl⟩
      dsimp only
      rw [hd (fun e => h (by simp [e]))]
      exact initSize_ok _
  dsimp only
  rcases skipSeps_lines hs fuel (some s) ks (by simp [streamO]; omega) hc hks with ⟨r, k1, k2⟩ | ⟨l2, o3, seps, k3, ks3, g1, g2, g3, g4, g5, g6, g7, g8, g9, g10⟩
  · rw [streamO, Option.getD_some] at k1
    rw [k1]
    have := runLines_seps .init (by simp) ⟨nobjs, cum, 0, data⟩ ks [] k2
    rw [List.append_nil] at this
    rw [this, ← hinv.2]
    exact ⟨_, rfl, rfl, rfl, rfl, by simp [RdSt.finish]⟩
  · rw [streamO, Option.getD_some] at g1 g10
    rw [g1, g2, runLines_seps .init (by simp) _ seps _ g3, ← hinv.2, runLines_begin .init (by simp) _ _ g4, ← runLines_begin .sep (by simp) _ _ g4]
    exact readSets_lines hs fuel st l2 o3 k3 ks3 (by omega) hinv.1 g5 g4 g6 g7 g8 g9

end Moo
