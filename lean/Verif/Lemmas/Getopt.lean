import Verif.Model.Getopt
import Mathlib.Data.List.Basic
import Mathlib.Tactic.Common

/-!
# A table of options and the command lines it accepts
-/

set_option autoImplicit false

namespace Moo

variable {I : Type}

/-- The short option of a letter and its case. -/
def modelShort (t : OptTable) (cases : OptVal → Option I) (c : Char) : Option (I × HasArg) := (shortKind t.short c).bind fun k => (cases (.ch c)).map fun i => (i, k)

/-- The long option of a name and its case. -/
def modelLong (t : OptTable) (cases : OptVal → Option I) (w : Word) : Option (I × HasArg) := (findLong t.long w).bind fun o => (cases o.val).map fun i => (i, o.arg)

/-- The table and the cases have the options of the grammar. -/
structure OptAgree (t : OptTable) (cases : OptVal → Option I) (G : List (OptDoc I)) : Prop where
  short : ∀ c i k, modelShort t cases c = some (i, k) ↔ ShortIs G c i k
  long : ∀ w i k, modelLong t cases w = some (i, k) ↔ LongIs G w i k
  noEq : ∀ d ∈ G, ∀ n ∈ d.long, '=' ∉ n

/-- The options of a letter in a grammar. -/
def docShort (G : List (OptDoc I)) (c : Char) : List (I × HasArg) := (G.filter fun d => c ∈ d.short).map fun d => (d.id, d.arg)

/-- The options with exactly this name. -/
def docExact (G : List (OptDoc I)) (w : Word) : List (I × HasArg) := (G.filter fun d => w ∈ d.long).map fun d => (d.id, d.arg)

/-- The options with a name that begins with this. -/
def docPrefix (G : List (OptDoc I)) (w : Word) : List (I × HasArg) := (G.filter fun d => d.long.any fun n => w.isPrefixOf n).map fun d => (d.id, d.arg)

/-- The options with this name or abbreviation. -/
def docLong [DecidableEq I] (G : List (OptDoc I)) (w : Word) : List (I × HasArg) :=
  if w = [] then []
  else if docExact G w ≠ [] then docExact G w
  else match docPrefix G w with
    | [] => []
    | x :: xs => if xs.all fun y => y = x then [x] else []

theorem shortIs_iff (G : List (OptDoc I)) (c : Char) (i : I) (k : HasArg) : ShortIs G c i k ↔ (i, k) ∈ docShort G c := by
  simp [ShortIs, docShort, and_assoc]

theorem docExact_mem (G : List (OptDoc I)) (w : Word) (x : I × HasArg) : x ∈ docExact G w ↔ ∃ d ∈ G, w ∈ d.long ∧ (d.id, d.arg) = x := by
  simp [docExact, and_assoc]

theorem docPrefix_mem (G : List (OptDoc I)) (w : Word) (x : I × HasArg) : x ∈ docPrefix G w ↔ ∃ d ∈ G, (∃ n ∈ d.long, w <+: n) ∧ (d.id, d.arg) = x := by
  simp [docPrefix, and_assoc]

theorem longIs_iff' (G : List (OptDoc I)) (w : Word) (i : I) (k : HasArg) :
    LongIs G w i k ↔ w ≠ [] ∧ ((i, k) ∈ docExact G w ∨ ((i, k) ∈ docPrefix G w ∧ ∀ y ∈ docPrefix G w, y = (i, k))) := by
  constructor
  · rintro ⟨hw, d, hd, rfl, rfl, n, hn, h⟩
    refine ⟨hw, ?_⟩
    rcases h with rfl | ⟨hp, h⟩
    · exact .inl ((docExact_mem _ _ _).2 ⟨d, hd, hn, rfl⟩)
    · refine .inr ⟨(docPrefix_mem _ _ _).2 ⟨d, hd, ⟨n, hn, hp⟩, rfl⟩, ?_⟩
      intro y hy
      obtain ⟨d', hd', ⟨n', hn', hp'⟩, rfl⟩ := (docPrefix_mem _ _ _).1 hy
      obtain ⟨h1, h2⟩ := h d' hd' n' hn' hp'
      rw [h1, h2]
  · rintro ⟨hw, h | ⟨h, hall⟩⟩
    · obtain ⟨d, hd, hn, he⟩ := (docExact_mem _ _ _).1 h
      rw [Prod.mk.injEq] at he
      exact ⟨hw, d, hd, he.1, he.2, w, hn, .inl rfl⟩
    · obtain ⟨d, hd, ⟨n, hn, hp⟩, he⟩ := (docPrefix_mem _ _ _).1 h
      rw [Prod.mk.injEq] at he
      refine ⟨hw, d, hd, he.1, he.2, n, hn, .inr ⟨hp, ?_⟩⟩
      intro d' hd' n' hn' hp'
      have := hall _ ((docPrefix_mem _ _ _).2 ⟨d', hd', ⟨n', hn', hp'⟩, rfl⟩)
      rw [Prod.mk.injEq] at this
      exact this

theorem docExact_sub_prefix (G : List (OptDoc I)) (w : Word) (x : I × HasArg) (h : x ∈ docExact G w) : x ∈ docPrefix G w := by
  obtain ⟨d, hd, hn, he⟩ := (docExact_mem _ _ _).1 h
  exact (docPrefix_mem _ _ _).2 ⟨d, hd, ⟨w, hn, List.prefix_refl w⟩, he⟩

theorem longIs_iff [DecidableEq I] (G : List (OptDoc I)) (w : Word) (i : I) (k : HasArg) : LongIs G w i k ↔ (i, k) ∈ docLong G w := by
  rw [longIs_iff']
  unfold docLong
  by_cases hw : w = []
  · simp [hw]
  rw [if_neg hw]
  by_cases he : docExact G w = []
  · rw [if_neg (by simpa using he)]
    rw [he]
    cases hp : docPrefix G w with
    | nil => simp
    | cons x xs =>
      simp only [hw, ne_eq, not_false_eq_true, true_and, List.not_mem_nil, false_or]
      by_cases ha : (xs.all fun y => y = x) = true
      · rw [if_pos ha]
        simp only [List.all_eq_true, decide_eq_true_eq] at ha
        constructor
        · rintro ⟨-, h⟩
          simpa using (h x (by simp)).symm
        · intro h
          have h : (i, k) = x := by simpa using h
          subst h
          refine ⟨by simp, ?_⟩
          intro y hy
          rcases List.mem_cons.1 hy with rfl | hy
          · rfl
          · exact ha y hy
      · rw [if_neg ha]
        simp only [List.not_mem_nil, iff_false, not_and]
        intro h1 h2
        apply ha
        simp only [List.all_eq_true, decide_eq_true_eq]
        intro y hy
        rw [h2 y (by simp [hy]), h2 x (by simp)]
  · rw [if_pos he]
    simp only [hw, ne_eq, not_false_eq_true, true_and]
    constructor
    · rintro (h | ⟨-, h⟩)
      · exact h
      · obtain ⟨x, hx⟩ := List.exists_mem_of_ne_nil _ he
        rw [← h x (docExact_sub_prefix G w x hx)]
        exact hx
    · exact fun h => .inl h

/-- A check of the letters and names that occur in the table or the grammar. -/
def agreeCheck [DecidableEq I] (t : OptTable) (cases : OptVal → Option I) (G : List (OptDoc I)) : Bool :=
  (t.short ++ G.flatMap OptDoc.short).all (fun c => docShort G c = (modelShort t cases c).toList) &&
  ((t.long.map LongOpt.name ++ G.flatMap OptDoc.long).flatMap List.inits).all (fun w => docLong G w = (modelLong t cases w).toList) &&
  G.all (fun d => d.long.all fun n => ¬ '=' ∈ n) && (t.long ≠ [])

theorem shortKind_none (os : List Char) (c : Char) (h : c ∉ os) : shortKind os c = none := by
  induction os with
  | nil => rfl
  | cons a os ih =>
    rw [List.mem_cons, not_or] at h
    rw [shortKind]
    by_cases hc : c = ':' ∨ c = ';'
    · rw [if_pos hc]
    · rw [if_neg hc, if_neg (fun hh => h.1 hh.symm), ih h.2]

theorem optAgree_of_check [DecidableEq I] (t : OptTable) (cases : OptVal → Option I) (G : List (OptDoc I)) (h : agreeCheck t cases G = true) : OptAgree t cases G := by
  unfold agreeCheck at h
  simp only [Bool.and_eq_true, List.all_eq_true, decide_eq_true_eq] at h
  obtain ⟨⟨⟨h1, h2⟩, h3⟩, h4⟩ := h
  refine ⟨?_, ?_, fun d hd n hn => h3 d hd n hn⟩
  · intro c i k
    rw [shortIs_iff]
    by_cases hc : c ∈ t.short ++ G.flatMap OptDoc.short
    · rw [h1 c hc]
      simp [Option.mem_toList]
    · rw [List.mem_append, not_or] at hc
      have e1 : modelShort t cases c = none := by rw [modelShort, shortKind_none _ _ hc.1]; rfl
      have e2 : docShort G c = [] := by
        unfold docShort
        rw [List.map_eq_nil_iff, List.filter_eq_nil_iff]
        intro d hd
        have : c ∉ d.short := fun hh => hc.2 (List.mem_flatMap.2 ⟨d, hd, hh⟩)
        simpa using this
      rw [e1, e2]
      simp
  · intro w i k
    rw [longIs_iff]
    by_cases hw : w ∈ (t.long.map LongOpt.name ++ G.flatMap OptDoc.long).flatMap List.inits
    · rw [h2 w hw]
      simp [Option.mem_toList]
    · simp only [List.mem_flatMap, List.mem_append, List.mem_inits, not_exists, not_and, List.mem_map] at hw
      have e1 : modelLong t cases w = none := by
        have f1 : (t.long.find? fun o => o.name = w) = none := by
          rw [List.find?_eq_none]
          intro o ho hh
          have hh : o.name = w := by simpa using hh
          exact hw o.name (.inl ⟨o, ho, rfl⟩) (hh ▸ List.prefix_refl _)
        have f2 : (t.long.filter fun o => w.isPrefixOf o.name) = [] := by
          rw [List.filter_eq_nil_iff]
          intro o ho hh
          exact hw o.name (.inl ⟨o, ho, rfl⟩) (List.isPrefixOf_iff_prefix.1 hh)
        rw [modelLong, findLong, f1]
        simp only
        rw [f2]
        rfl
      have e2 : docPrefix G w = [] := by
        unfold docPrefix
        rw [List.map_eq_nil_iff, List.filter_eq_nil_iff]
        intro d hd hh
        simp only [List.any_eq_true, List.isPrefixOf_iff_prefix] at hh
        obtain ⟨n, hn, hp⟩ := hh
        exact hw n (.inr ⟨d, hd, hn⟩) hp
      have e3 : docExact G w = [] := by
        rw [List.eq_nil_iff_forall_not_mem]
        intro x hx
        have := docExact_sub_prefix G w x hx
        rw [e2] at this
        simp at this
      rw [e1]
      unfold docLong
      rw [e2, e3]
      simp

/-! ### Words -/

theorem modelShort_eq_some {t : OptTable} {cases : OptVal → Option I} {c : Char} {i : I} {k : HasArg} :
    modelShort t cases c = some (i, k) ↔ shortKind t.short c = some k ∧ cases (.ch c) = some i := by
  unfold modelShort
  cases h1 : shortKind t.short c <;> cases h2 : cases (.ch c) <;> simp [and_comm]

theorem modelLong_eq_some {t : OptTable} {cases : OptVal → Option I} {w : Word} {i : I} {k : HasArg} :
    modelLong t cases w = some (i, k) ↔ ∃ o, findLong t.long w = some o ∧ o.arg = k ∧ cases o.val = some i := by
  unfold modelLong
  cases h1 : findLong t.long w with
  | none => simp
  | some o => cases h2 : cases o.val <;> simp [h2, and_comm]

/-- The options that the cases make of values. -/
def caseAll (cases : OptVal → Option I) (evs : List (OptVal × Option Word)) (os : List (I × Option Word)) : Prop := List.Forall₂ (fun e o => cases e.1 = some o.1 ∧ e.2 = o.2) evs os

theorem cliSwitch_ok (cases : OptVal → Option I) (evs : List (OptVal × Option Word)) (e : CliEnd) (os : List (I × Option Word)) (fs : List Word) :
    cliSwitch cases evs e = (os, .files fs) ↔ e = .files fs ∧ caseAll cases evs os := by
  induction evs generalizing os with
  | nil => simp [cliSwitch, caseAll, and_comm, eq_comm]
  | cons x evs ih =>
    obtain ⟨v, arg⟩ := x
    rw [cliSwitch]
    cases hv : cases v with
    | none =>
      simp only [Prod.mk.injEq, reduceCtorEq, and_false, false_iff, not_and]
      rintro - h
      unfold caseAll at h
      cases h with
      | cons h1 _ => simp [hv] at h1
    | some i =>
      simp only [Prod.mk.injEq]
      constructor
      · rintro ⟨rfl, h2⟩
        have := (ih (cliSwitch cases evs e).1).1 (by rw [← h2])
        exact ⟨this.1, .cons ⟨hv, rfl⟩ this.2⟩
      · rintro ⟨h1, h2⟩
        unfold caseAll at h2
        cases h2 with
        | cons hh ht =>
          rename_i o os
          have := (ih os).2 ⟨h1, ht⟩
          rw [this]
          obtain ⟨a, b⟩ := o
          simp only [hv, Option.some.injEq] at hh
          obtain ⟨rfl, rfl⟩ := hh
          exact ⟨rfl, rfl⟩

theorem caseAll_append (cases : OptVal → Option I) (a b : List (OptVal × Option Word)) (os : List (I × Option Word)) :
    caseAll cases (a ++ b) os ↔ ∃ o1 o2, os = o1 ++ o2 ∧ caseAll cases a o1 ∧ caseAll cases b o2 := by
  unfold caseAll
  induction a generalizing os with
  | nil => simp
  | cons x a ih =>
    constructor
    · intro h
      rw [List.cons_append] at h
      cases h with
      | cons h1 h2 =>
        rename_i o os
        obtain ⟨o1, o2, rfl, h3, h4⟩ := (ih os).1 h2
        exact ⟨o :: o1, o2, rfl, .cons h1 h3, h4⟩
    · rintro ⟨o1, o2, rfl, h3, h4⟩
      cases h3 with
      | cons h1 h2 => exact .cons h1 ((ih _).2 ⟨_, _, rfl, h2, h4⟩)

/-- What a word with options leads to, in terms of the grammar: the option whose argument is the next word. -/
def endIs (cases : OptVal → Option I) : WordEnd → Option I → Prop
  | .done, none => True
  | .needs v, some i => cases v = some i
  | _, _ => False

theorem shortWord_iff {t : OptTable} {cases : OptVal → Option I} {G : List (OptDoc I)} (ha : OptAgree t cases G) (cs : List Char) (os : List (I × Option Word)) (p : Option I) :
    Shorts G cs os p ↔ caseAll cases (shortWord t cs).1 os ∧ endIs cases (shortWord t cs).2 p := by
  induction cs generalizing os with
  | nil =>
    simp only [shortWord, caseAll, List.forall₂_nil_left_iff]
    constructor
    · intro h; cases h; exact ⟨rfl, trivial⟩
    · rintro ⟨rfl, h⟩
      cases p with
      | none => exact .nil
      | some i => exact h.elim
  | cons c cs ih =>
    have hs : ∀ i k, ShortIs G c i k ↔ shortKind t.short c = some k ∧ cases (.ch c) = some i := fun i k => by rw [← ha.short, modelShort_eq_some]
    rw [shortWord]
    cases hk : shortKind t.short c with
    | none =>
      simp only [endIs, and_false, iff_false]
      intro h
      cases h with
      | flag _ i _ _ _ h => simp [hs, hk] at h
      | attached _ i _ _ h => simp [hs, hk] at h
      | omitted _ i h => simp [hs, hk] at h
      | next _ i h => simp [hs, hk] at h
    | some k =>
      cases k with
      | no =>
        simp only
        constructor
        · intro h
          cases h with
          | flag _ i _ os _ h hr =>
            rw [hs] at h
            obtain ⟨h1, h2⟩ := (ih os).1 hr
            exact ⟨.cons ⟨h.2, rfl⟩ h1, h2⟩
          | attached _ i k _ h hk' => rw [hs, hk] at h; simp only [Option.some.injEq] at h; exact absurd h.1.symm hk'
          | omitted _ i h => simp [hs, hk] at h
          | next _ i h => simp [hs, hk] at h
        · rintro ⟨h1, h2⟩
          unfold caseAll at h1
          cases h1 with
          | cons h3 h4 =>
            rename_i o os
            obtain ⟨i, a⟩ := o
            obtain ⟨h5, h6⟩ := h3
            simp only at h5 h6
            subst h6
            exact .flag c i cs os p ((hs i .no).2 ⟨hk, h5⟩) ((ih os).2 ⟨h4, h2⟩)
      | required =>
        simp only
        by_cases hn : cs = []
        · subst hn
          rw [if_pos rfl]
          constructor
          · intro h
            cases h with
            | flag _ i _ os _ h hr => simp [hs, hk] at h
            | attached _ i k _ h hk' hne => exact absurd rfl hne
            | omitted _ i h => simp [hs, hk] at h
            | next _ i h => rw [hs] at h; exact ⟨.nil, h.2⟩
          · rintro ⟨h1, h2⟩
            unfold caseAll at h1
            cases h1
            cases p with
            | none => exact h2.elim
            | some i => exact .next c i ((hs i _).2 ⟨hk, h2⟩)
        · rw [if_neg hn]
          constructor
          · intro h
            cases h with
            | flag _ i _ os _ h hr => simp [hs, hk] at h
            | attached _ i k _ h hk' hne => rw [hs] at h; exact ⟨.cons ⟨h.2, rfl⟩ .nil, trivial⟩
            | omitted _ i h => exact absurd rfl hn
            | next _ i h => exact absurd rfl hn
          · rintro ⟨h1, h2⟩
            unfold caseAll at h1
            cases h1 with
            | cons h3 h4 =>
              rename_i o os
              cases h4
              obtain ⟨i, a⟩ := o
              obtain ⟨h5, h6⟩ := h3
              simp only at h5 h6
              subst h6
              cases p with
              | none => exact .attached c i .required cs ((hs i _).2 ⟨hk, h5⟩) (by simp) hn
              | some i => exact h2.elim
      | optional =>
        simp only
        by_cases hn : cs = []
        · subst hn
          rw [if_pos rfl]
          constructor
          · intro h
            cases h with
            | flag _ i _ os _ h hr => simp [hs, hk] at h
            | attached _ i k _ h hk' hne => exact absurd rfl hne
            | omitted _ i h => rw [hs] at h; exact ⟨.cons ⟨h.2, rfl⟩ .nil, trivial⟩
            | next _ i h => simp [hs, hk] at h
          · rintro ⟨h1, h2⟩
            unfold caseAll at h1
            cases h1 with
            | cons h3 h4 =>
              rename_i o os
              cases h4
              obtain ⟨i, a⟩ := o
              obtain ⟨h5, h6⟩ := h3
              simp only at h5 h6
              subst h6
              cases p with
              | none => exact .omitted c i ((hs i _).2 ⟨hk, h5⟩)
              | some i => exact h2.elim
        · rw [if_neg hn]
          constructor
          · intro h
            cases h with
            | flag _ i _ os _ h hr => simp [hs, hk] at h
            | attached _ i k _ h hk' hne => rw [hs] at h; exact ⟨.cons ⟨h.2, rfl⟩ .nil, trivial⟩
            | omitted _ i h => exact absurd rfl hn
            | next _ i h => exact absurd rfl hn
          · rintro ⟨h1, h2⟩
            unfold caseAll at h1
            cases h1 with
            | cons h3 h4 =>
              rename_i o os
              cases h4
              obtain ⟨i, a⟩ := o
              obtain ⟨h5, h6⟩ := h3
              simp only at h5 h6
              subst h6
              cases p with
              | none => exact .attached c i .optional cs ((hs i _).2 ⟨hk, h5⟩) (by simp) hn
              | some i => exact h2.elim

theorem LongIs.noEq {G : List (OptDoc I)} (h : ∀ d ∈ G, ∀ n ∈ d.long, '=' ∉ n) {w : Word} {i : I} {k : HasArg} (hl : LongIs G w i k) : '=' ∉ w := by
  obtain ⟨-, d, hd, -, -, n, hn, h1⟩ := hl
  have h2 := h d hd n hn
  rcases h1 with rfl | ⟨hp, -⟩
  · exact h2
  · exact fun hh => h2 (hp.subset hh)

/-- What a long option gives: with `=`, or without. -/
inductive Longs (G : List (OptDoc I)) : Word → List (I × Option Word) → Option I → Prop
  | plain (n : Word) (i : I) (k : HasArg) : LongIs G n i k → k ≠ .required → Longs G n [(i, none)] none
  | eq (n arg : Word) (i : I) (k : HasArg) : LongIs G n i k → k ≠ .no → Longs G (n ++ '=' :: arg) [(i, some arg)] none
  | next (n : Word) (i : I) : LongIs G n i .required → Longs G n [] (some i)

theorem takeWhile_noEq (n : Word) (h : '=' ∉ n) : n.takeWhile (· ≠ '=') = n ∧ n.dropWhile (· ≠ '=') = [] := by
  have h' : ∀ x ∈ n, (decide (x ≠ '=')) = true := by
    intro x hx; simp only [ne_eq, decide_not, Bool.not_eq_true', decide_eq_false_iff_not]; rintro rfl; exact h hx
  have h1 := List.takeWhile_append_of_pos (l₂ := []) h'
  have h2 := List.dropWhile_append_of_pos (l₂ := []) h'
  simp only [List.append_nil, List.takeWhile_nil, List.dropWhile_nil] at h1 h2
  exact ⟨h1, h2⟩

theorem takeWhile_withEq (n arg : Word) (h : '=' ∉ n) : (n ++ '=' :: arg).takeWhile (· ≠ '=') = n ∧ (n ++ '=' :: arg).dropWhile (· ≠ '=') = '=' :: arg := by
  have h' : ∀ x ∈ n, (decide (x ≠ '=')) = true := by
    intro x hx; simp only [ne_eq, decide_not, Bool.not_eq_true', decide_eq_false_iff_not]; rintro rfl; exact h hx
  constructor
  · rw [List.takeWhile_append_of_pos h']; simp
  · rw [List.dropWhile_append_of_pos h']; simp

theorem split_eq (w : Word) : (w.dropWhile (· ≠ '=') = [] ∧ w.takeWhile (· ≠ '=') = w ∧ '=' ∉ w) ∨
    ∃ arg, w.dropWhile (· ≠ '=') = '=' :: arg ∧ w = w.takeWhile (· ≠ '=') ++ '=' :: arg := by
  by_cases h : '=' ∈ w
  · right
    obtain ⟨a, b, rfl, ha⟩ := List.eq_append_cons_of_mem h
    have := takeWhile_withEq a b ha
    exact ⟨b, this.2, by rw [this.1]⟩
  · left
    have := takeWhile_noEq w h
    exact ⟨this.2, this.1, h⟩

theorem longWord_iff {t : OptTable} {cases : OptVal → Option I} {G : List (OptDoc I)} (ha : OptAgree t cases G) (w : Word) (os : List (I × Option Word)) (p : Option I) :
    Longs G w os p ↔ caseAll cases (longWord t w).1 os ∧ endIs cases (longWord t w).2 p := by
  have hs : ∀ w i k, LongIs G w i k ↔ ∃ o, findLong t.long w = some o ∧ o.arg = k ∧ cases o.val = some i := fun w i k => by rw [← ha.long, modelLong_eq_some]
  constructor
  · intro h
    cases h with
    | plain n i k hl hk =>
      have hn := takeWhile_noEq w (hl.noEq ha.noEq)
      obtain ⟨o, ho, rfl, hc⟩ := (hs _ _ _).1 hl
      unfold longWord
      rw [hn.1, hn.2, ho]
      simp only [hk, if_false]
      exact ⟨.cons ⟨hc, rfl⟩ .nil, trivial⟩
    | eq n arg i k hl hk =>
      have hn := takeWhile_withEq n arg (hl.noEq ha.noEq)
      obtain ⟨o, ho, rfl, hc⟩ := (hs _ _ _).1 hl
      unfold longWord
      rw [hn.1, hn.2, ho]
      simp only [hk, if_false]
      exact ⟨.cons ⟨hc, rfl⟩ .nil, trivial⟩
    | next n i hl =>
      have hn := takeWhile_noEq w (hl.noEq ha.noEq)
      obtain ⟨o, ho, hk, hc⟩ := (hs _ _ _).1 hl
      unfold longWord
      rw [hn.1, hn.2, ho]
      simp only [hk, if_true]
      exact ⟨.nil, hc⟩
  · rintro ⟨h1, h2⟩
    unfold longWord at h1 h2
    cases ho : findLong t.long (w.takeWhile (· ≠ '=')) with
    | none => rw [ho] at h2; exact h2.elim
    | some o =>
      rw [ho] at h1 h2
      rcases split_eq w with ⟨e1, e2, e3⟩ | ⟨arg, e1, e2⟩
      · rw [e1] at h1 h2
        rw [e2] at ho
        simp only at h1 h2
        by_cases hk : o.arg = .required
        · rw [if_pos hk] at h1 h2
          cases h1
          cases p with
          | none => exact h2.elim
          | some i => exact .next w i ((hs _ _ _).2 ⟨o, ho, hk, h2⟩)
        · rw [if_neg hk] at h1 h2
          unfold caseAll at h1
          cases h1 with
          | cons h3 h4 =>
            rename_i x os
            cases h4
            obtain ⟨i, a⟩ := x
            obtain ⟨h5, h6⟩ := h3
            simp only at h5 h6
            subst h6
            cases p with
            | none => exact .plain w i _ ((hs _ _ _).2 ⟨o, ho, rfl, h5⟩) hk
            | some i => exact h2.elim
      · rw [e1] at h1 h2
        simp only at h1 h2
        by_cases hk : o.arg = .no
        · rw [if_pos hk] at h2; exact h2.elim
        · rw [if_neg hk] at h1 h2
          unfold caseAll at h1
          cases h1 with
          | cons h3 h4 =>
            rename_i x os
            cases h4
            obtain ⟨i, a⟩ := x
            obtain ⟨h5, h6⟩ := h3
            simp only at h5 h6
            subst h6
            cases p with
            | none =>
              rw [e2]
              exact .eq _ arg i _ ((hs _ _ _).2 ⟨o, ho, rfl, h5⟩) hk
            | some i => exact h2.elim

/-! ### Command lines -/

/-- A command line whose first word is the argument of an option, or any command line. -/
def CmdRest (G : List (OptDoc I)) : Option I → List Word → List (I × Option Word) → List Word → Prop
  | none, ws, os, fs => CmdLine G ws os fs
  | some i, ws, os, fs => ∃ arg ws' os', ws = arg :: ws' ∧ os = (i, some arg) :: os' ∧ CmdLine G ws' os' fs

theorem cmdLine_dash (G : List (OptDoc I)) (c : Char) (cs : List Char) (ws : List Word) (os : List (I × Option Word)) (fs : List Word) (h : c :: cs ≠ ['-']) :
    CmdLine G (('-' :: c :: cs) :: ws) os fs ↔
      ∃ o1 o2 p, os = o1 ++ o2 ∧ ((c = '-' ∧ Longs G cs o1 p) ∨ (c ≠ '-' ∧ Shorts G (c :: cs) o1 p)) ∧ CmdRest G p ws o2 fs := by
  constructor
  · intro hc
    generalize hw : ('-' :: c :: cs) :: ws = argv at hc
    cases hc with
    | nil => simp at hw
    | stop => simp only [List.cons.injEq, true_and] at hw; exact absurd (by rw [hw.1.1, hw.1.2]) h
    | file f _ _ _ hf =>
      simp only [List.cons.injEq] at hw
      obtain ⟨rfl, -⟩ := hw
      simp at hf
    | short c' cs' o1 ws' o2 _ h1 h2 h3 =>
      simp only [List.cons.injEq, true_and] at hw
      obtain ⟨⟨rfl, rfl⟩, rfl⟩ := hw
      exact ⟨o1, o2, none, rfl, .inr ⟨h1, h2⟩, h3⟩
    | shortNext c' cs' o1 i arg ws' o2 _ h1 h2 h3 =>
      simp only [List.cons.injEq, true_and] at hw
      obtain ⟨⟨rfl, rfl⟩, rfl⟩ := hw
      exact ⟨o1, _, some i, rfl, .inr ⟨h1, h2⟩, arg, ws', o2, rfl, rfl, h3⟩
    | long n i k ws' o2 _ h1 h2 h3 =>
      simp only [List.cons.injEq, true_and] at hw
      obtain ⟨⟨rfl, rfl⟩, rfl⟩ := hw
      exact ⟨[(i, none)], o2, none, rfl, .inl ⟨rfl, .plain _ i k h1 h2⟩, h3⟩
    | longEq n arg i k ws' o2 _ h1 h2 h3 =>
      simp only [List.cons_append, List.cons.injEq, true_and] at hw
      obtain ⟨⟨rfl, rfl⟩, rfl⟩ := hw
      exact ⟨[(i, some arg)], o2, none, rfl, .inl ⟨rfl, .eq n arg i k h1 h2⟩, h3⟩
    | longNext n arg i ws' o2 _ h1 h3 =>
      simp only [List.cons.injEq, true_and] at hw
      obtain ⟨⟨rfl, rfl⟩, rfl⟩ := hw
      exact ⟨[], _, some i, rfl, .inl ⟨rfl, .next _ i h1⟩, arg, ws', o2, rfl, rfl, h3⟩
  · rintro ⟨o1, o2, p, rfl, ⟨rfl, hl⟩ | ⟨hc, hs⟩, hr⟩
    · cases hl with
      | plain n i k h1 h2 => exact .long cs i k ws o2 fs h1 h2 hr
      | eq n arg i k h1 h2 => exact .longEq n arg i k ws o2 fs h1 h2 hr
      | next n i h1 =>
        obtain ⟨arg, ws', os', rfl, rfl, h3⟩ := hr
        exact .longNext cs arg i ws' os' fs h1 h3
    · cases p with
      | none => exact .short c cs o1 ws o2 fs hc hs hr
      | some i =>
        obtain ⟨arg, ws', os', rfl, rfl, h3⟩ := hr
        exact .shortNext c cs o1 i arg ws' os' fs hc hs h3

/-- The option whose argument is awaited, as a value and as a case. -/
def pendIs (cases : OptVal → Option I) : Option OptVal → Option I → Prop
  | none, none => True
  | some v, some i => cases v = some i
  | _, _ => False

theorem optWord_iff {t : OptTable} {cases : OptVal → Option I} {G : List (OptDoc I)} (ha : OptAgree t cases G) (c : Char) (cs : List Char) (os : List (I × Option Word)) (p : Option I) :
    ((c = '-' ∧ Longs G cs os p) ∨ (c ≠ '-' ∧ Shorts G (c :: cs) os p)) ↔ caseAll cases (optWord t (c :: cs)).1 os ∧ endIs cases (optWord t (c :: cs)).2 p := by
  by_cases hc : c = '-'
  · subst hc
    simp only [true_and, ne_eq, not_true_eq_false, false_and, or_false, optWord]
    exact longWord_iff ha cs os p
  · have : optWord t (c :: cs) = shortWord t (c :: cs) := by
      unfold optWord
      split
      · rename_i h; simp only [List.cons.injEq] at h; exact absurd h.1 hc
      · rfl
    rw [this]
    simp only [hc, false_and, ne_eq, not_false_eq_true, true_and, false_or]
    exact shortWord_iff ha (c :: cs) os p

theorem getopt_iff {t : OptTable} {cases : OptVal → Option I} {G : List (OptDoc I)} (ha : OptAgree t cases G) (argv : List Word) :
    ∀ (pv : Option OptVal) (p : Option I) (os : List (I × Option Word)) (fs : List Word), pendIs cases pv p →
      (CmdRest G p argv os fs ↔ caseAll cases (getoptGo t pv argv).1 os ∧ (getoptGo t pv argv).2 = some fs) := by
  induction argv with
  | nil =>
    intro pv p os fs hp
    cases pv with
    | none =>
      cases p with
      | some i => exact hp.elim
      | none =>
        simp only [CmdRest, getoptGo, caseAll, List.forall₂_nil_left_iff, Option.some.injEq]
        constructor
        · intro h; cases h; exact ⟨rfl, rfl⟩
        · rintro ⟨rfl, rfl⟩; exact .nil
    | some v =>
      cases p with
      | none => exact hp.elim
      | some i => simp [CmdRest, getoptGo]
  | cons w ws ih =>
    intro pv p os fs hp
    cases pv with
    | some v =>
      cases p with
      | none => exact hp.elim
      | some i =>
        simp only [CmdRest, getoptGo, List.cons.injEq]
        constructor
        · rintro ⟨arg, ws', os', ⟨rfl, rfl⟩, rfl, h⟩
          have := (ih none none os' fs trivial).1 h
          exact ⟨.cons ⟨hp, rfl⟩ this.1, this.2⟩
        · rintro ⟨h1, h2⟩
          unfold caseAll at h1
          cases h1 with
          | cons h3 h4 =>
            rename_i o os'
            obtain ⟨i', a⟩ := o
            obtain ⟨h5, h6⟩ := h3
            simp only at h5 h6
            subst h6
            have hp : cases v = some i := hp
            rw [hp, Option.some.injEq] at h5
            subst h5
            exact ⟨w, ws, os', ⟨rfl, rfl⟩, rfl, (ih none none os' fs trivial).2 ⟨h4, h2⟩⟩
    | none =>
      cases p with
      | some i => exact hp.elim
      | none =>
        change CmdLine G (w :: ws) os fs ↔ _
        by_cases hw : w = ['-', '-']
        · subst hw
          rw [getoptGo, if_pos rfl]
          simp only [caseAll, List.forall₂_nil_left_iff, Option.some.injEq]
          constructor
          · intro h
            generalize hw : (['-', '-'] : Word) :: ws = argv at h
            cases h with
            | nil => simp at hw
            | stop => simp only [List.cons.injEq, true_and] at hw; exact ⟨rfl, hw⟩
            | file f _ _ _ hf => simp only [List.cons.injEq] at hw; obtain ⟨rfl, -⟩ := hw; simp at hf
            | short c _ _ _ _ _ hc => simp only [List.cons.injEq, true_and] at hw; exact absurd hw.1.1.symm hc
            | shortNext c _ _ _ _ _ _ _ hc => simp only [List.cons.injEq, true_and] at hw; exact absurd hw.1.1.symm hc
            | long n _ _ _ _ _ hl => simp only [List.cons.injEq, true_and] at hw; exact absurd hw.1.symm hl.1
            | longEq n arg _ _ _ _ _ hl => simp at hw
            | longNext n _ _ _ _ _ hl => simp only [List.cons.injEq, true_and] at hw; exact absurd hw.1.symm hl.1
          · rintro ⟨rfl, rfl⟩; exact .stop _
        · by_cases hd : ∃ c cs, w = '-' :: c :: cs
          · obtain ⟨c, cs, rfl⟩ := hd
            have hne : c :: cs ≠ ['-'] := fun h => hw (by rw [h])
            rw [cmdLine_dash G c cs ws os fs hne]
            rw [getoptGo, if_neg hw]
            simp only
            cases ho : (optWord t (c :: cs)).2 with
            | bad =>
              simp only [reduceCtorEq, and_false, iff_false]
              rintro ⟨o1, o2, p, -, h, -⟩
              have := ((optWord_iff ha c cs o1 p).1 h).2
              rw [ho] at this
              cases p <;> exact this
            | done =>
              simp only
              rw [caseAll_append]
              constructor
              · rintro ⟨o1, o2, p, rfl, h, hr⟩
                have h1 := (optWord_iff ha c cs o1 p).1 h
                rw [ho] at h1
                cases p with
                | some i => exact h1.2.elim
                | none =>
                  have h2 := (ih none none o2 fs trivial).1 hr
                  exact ⟨⟨o1, o2, rfl, h1.1, h2.1⟩, h2.2⟩
              · rintro ⟨⟨o1, o2, rfl, h1, h2⟩, h3⟩
                exact ⟨o1, o2, none, rfl, (optWord_iff ha c cs o1 none).2 ⟨h1, by rw [ho]; trivial⟩, (ih none none o2 fs trivial).2 ⟨h2, h3⟩⟩
            | needs v =>
              simp only
              rw [caseAll_append]
              constructor
              · rintro ⟨o1, o2, p, rfl, h, hr⟩
                have h1 := (optWord_iff ha c cs o1 p).1 h
                rw [ho] at h1
                cases p with
                | none => exact h1.2.elim
                | some i =>
                  have h2 := (ih (some v) (some i) o2 fs h1.2).1 hr
                  exact ⟨⟨o1, o2, rfl, h1.1, h2.1⟩, h2.2⟩
              · rintro ⟨⟨o1, o2, rfl, h1, h2⟩, h3⟩
                -- the value that awaits an argument has a case, because it is the first of the values that follow
                cases ws with
                | nil => simp [getoptGo] at h3
                | cons w' ws' =>
                  have h2' := h2
                  rw [getoptGo] at h2
                  unfold caseAll at h2
                  cases h2 with
                  | cons h5 h6 =>
                    rename_i x o2'
                    refine ⟨o1, _, some x.1, rfl, (optWord_iff ha c cs o1 (some x.1)).2 ⟨h1, by rw [ho]; exact h5.1⟩, ?_⟩
                    exact (ih (some v) (some x.1) (x :: o2') fs h5.1).2 ⟨h2', h3⟩
          · have hf : w = ['-'] ∨ w.head? ≠ some '-' := by
              match w, hd with
              | [], _ => right; simp
              | ['-'], _ => left; rfl
              | '-' :: c :: cs, hd => exact absurd ⟨c, cs, rfl⟩ hd
              | [a], _ =>
                by_cases e : a = '-'
                · left; rw [e]
                · right; simpa using e
              | a :: b :: l, hd =>
                right
                simp only [List.head?_cons, ne_eq, Option.some.injEq]
                rintro rfl
                exact hd ⟨b, l, rfl⟩
            have hg : getoptGo t none (w :: ws) = ((getoptGo t none ws).1, (getoptGo t none ws).2.map (w :: ·)) := by
              rw [getoptGo, if_neg hw]
              exact fun c cs h => hd ⟨c, cs, h⟩
            rw [hg]
            constructor
            · intro h
              generalize hargv : w :: ws = argv at h
              cases h with
              | nil => simp at hargv
              | stop => simp only [List.cons.injEq] at hargv; exact absurd hargv.1 hw
              | file f _ _ fs' _ h1 =>
                simp only [List.cons.injEq] at hargv
                obtain ⟨rfl, rfl⟩ := hargv
                have h2 := (ih none none os fs' trivial).1 h1
                exact ⟨h2.1, by simp [h2.2]⟩
              | short c cs => simp only [List.cons.injEq] at hargv; exact absurd ⟨c, cs, hargv.1⟩ hd
              | shortNext c cs => simp only [List.cons.injEq] at hargv; exact absurd ⟨c, cs, hargv.1⟩ hd
              | long n => simp only [List.cons.injEq] at hargv; exact absurd ⟨'-', n, hargv.1⟩ hd
              | longEq n arg => simp only [List.cons_append, List.cons.injEq] at hargv; exact absurd ⟨'-', _, hargv.1⟩ hd
              | longNext n => simp only [List.cons.injEq] at hargv; exact absurd ⟨'-', n, hargv.1⟩ hd
            · rintro ⟨h1, h2⟩
              simp only [Option.map_eq_some_iff] at h2
              obtain ⟨fs', h3, rfl⟩ := h2
              exact .file w ws os fs' hf ((ih none none os fs' trivial).2 ⟨h1, h3⟩)

/-- The program accepts exactly the command lines of the grammar. -/
theorem cliParse_iff {t : OptTable} {cases : OptVal → Option I} {G : List (OptDoc I)} (ha : OptAgree t cases G) (argv : List Word) (os : List (I × Option Word)) (fs : List Word) :
    cliParse t cases argv = (os, .files fs) ↔ CmdLine G argv os fs := by
  unfold cliParse
  simp only
  rw [cliSwitch_ok, show CmdLine G argv os fs ↔ CmdRest G none argv os fs from Iff.rfl, getopt_iff ha argv none none os fs trivial, and_comm]
  refine and_congr_right fun _ => ?_
  cases (getoptGo t none argv).2 <;> simp

/-! ### Options before a rejection -/

/-- An argument that an option of this kind can have. -/
def argFits : HasArg → Option Word → Prop
  | .no, a => a = none
  | .required, a => a ≠ none
  | .optional, _ => True

theorem shortWord_mem (t : OptTable) (cs : List Char) (v : OptVal) (a : Option Word) (h : (v, a) ∈ (shortWord t cs).1) :
    ∃ c k, v = .ch c ∧ c ∈ cs ∧ shortKind t.short c = some k ∧ argFits k a := by
  induction cs with
  | nil => simp [shortWord] at h
  | cons c cs ih =>
    rw [shortWord] at h
    cases hk : shortKind t.short c with
    | none => rw [hk] at h; simp at h
    | some k =>
      rw [hk] at h
      cases k with
      | no =>
        simp only [List.mem_cons, Prod.mk.injEq] at h
        rcases h with ⟨rfl, rfl⟩ | h
        · exact ⟨c, .no, rfl, by simp, hk, rfl⟩
        · obtain ⟨c', k, h1, h2, h3⟩ := ih h
          exact ⟨c', k, h1, List.mem_cons_of_mem _ h2, h3⟩
      | required =>
        simp only at h
        by_cases hn : cs = []
        · rw [if_pos hn] at h; simp at h
        · rw [if_neg hn] at h
          simp only [List.mem_cons, Prod.mk.injEq, List.not_mem_nil, or_false] at h
          obtain ⟨rfl, rfl⟩ := h
          exact ⟨c, .required, rfl, by simp, hk, by simp [argFits]⟩
      | optional =>
        simp only at h
        refine ⟨c, .optional, ?_, by simp, hk, trivial⟩
        by_cases hn : cs = []
        · rw [if_pos hn] at h
          simp only [List.mem_cons, Prod.mk.injEq, List.not_mem_nil, or_false] at h
          exact h.1
        · rw [if_neg hn] at h
          simp only [List.mem_cons, Prod.mk.injEq, List.not_mem_nil, or_false] at h
          exact h.1

theorem shortWord_needs (t : OptTable) (cs : List Char) (v : OptVal) (h : (shortWord t cs).2 = .needs v) :
    ∃ c, v = .ch c ∧ c ∈ cs ∧ shortKind t.short c = some .required := by
  induction cs with
  | nil => simp [shortWord] at h
  | cons c cs ih =>
    rw [shortWord] at h
    cases hk : shortKind t.short c with
    | none => rw [hk] at h; simp at h
    | some k =>
      rw [hk] at h
      cases k with
      | no =>
        obtain ⟨c', h1, h2, h3⟩ := ih h
        exact ⟨c', h1, List.mem_cons_of_mem _ h2, h3⟩
      | required =>
        simp only at h
        by_cases hn : cs = []
        · rw [if_pos hn] at h
          simp only [WordEnd.needs.injEq] at h
          exact ⟨c, h.symm, by simp, hk⟩
        · rw [if_neg hn] at h; simp at h
      | optional =>
        simp only at h
        by_cases hn : cs = []
        · rw [if_pos hn] at h; simp at h
        · rw [if_neg hn] at h; simp at h

theorem findLong_mem (long : List LongOpt) (w : Word) (o : LongOpt) (h : findLong long w = some o) : o ∈ long := by
  unfold findLong at h
  cases hf : long.find? fun o => o.name = w with
  | some o' =>
    rw [hf] at h
    simp only [Option.some.injEq] at h
    subst h
    exact List.mem_of_find?_eq_some hf
  | none =>
    rw [hf] at h
    simp only at h
    cases hp : long.filter fun o => w.isPrefixOf o.name with
    | nil => rw [hp] at h; simp at h
    | cons x xs =>
      rw [hp] at h
      simp only at h
      split at h
      · simp only [Option.some.injEq] at h
        subst h
        exact List.mem_of_mem_filter (p := fun o => w.isPrefixOf o.name) (by rw [hp]; simp)
      · simp at h

theorem longWord_mem (t : OptTable) (w : Word) (v : OptVal) (a : Option Word) (h : (v, a) ∈ (longWord t w).1) : ∃ o ∈ t.long, v = o.val ∧ argFits o.arg a := by
  unfold longWord at h
  cases hf : findLong t.long (w.takeWhile (· ≠ '=')) with
  | none => rw [hf] at h; simp at h
  | some o =>
    rw [hf] at h
    simp only at h
    refine ⟨o, findLong_mem _ _ _ hf, ?_⟩
    cases hd : w.dropWhile (· ≠ '=') with
    | nil =>
      rw [hd] at h
      simp only at h
      by_cases hk : o.arg = .required
      · rw [if_pos hk] at h; simp at h
      · rw [if_neg hk] at h
        simp only [List.mem_cons, Prod.mk.injEq, List.not_mem_nil, or_false] at h
        obtain ⟨rfl, rfl⟩ := h
        refine ⟨rfl, ?_⟩
        cases ha : o.arg <;> simp_all [argFits]
    | cons x arg =>
      rw [hd] at h
      simp only at h
      by_cases hk : o.arg = .no
      · rw [if_pos hk] at h; simp at h
      · rw [if_neg hk] at h
        simp only [List.mem_cons, Prod.mk.injEq, List.not_mem_nil, or_false] at h
        obtain ⟨rfl, rfl⟩ := h
        refine ⟨rfl, ?_⟩
        cases ha : o.arg <;> simp_all [argFits]

theorem longWord_needs (t : OptTable) (w : Word) (v : OptVal) (h : (longWord t w).2 = .needs v) : ∃ o ∈ t.long, v = o.val ∧ o.arg = .required := by
  unfold longWord at h
  cases hf : findLong t.long (w.takeWhile (· ≠ '=')) with
  | none => rw [hf] at h; simp at h
  | some o =>
    rw [hf] at h
    simp only at h
    refine ⟨o, findLong_mem _ _ _ hf, ?_⟩
    cases hd : w.dropWhile (· ≠ '=') with
    | nil =>
      rw [hd] at h
      simp only at h
      by_cases hk : o.arg = .required
      · rw [if_pos hk] at h
        simp only [WordEnd.needs.injEq] at h
        exact ⟨h.symm, hk⟩
      · rw [if_neg hk] at h; simp at h
    | cons x arg =>
      rw [hd] at h
      simp only at h
      by_cases hk : o.arg = .no
      · rw [if_pos hk] at h; simp at h
      · rw [if_neg hk] at h; simp at h

/-- The value and the argument are those of a letter in a word of the command line, or of a long option. -/
def fromTable (t : OptTable) (argv : List Word) (v : OptVal) (a : Option Word) : Prop :=
  (∃ c k cs, v = .ch c ∧ shortKind t.short c = some k ∧ argFits k a ∧ '-' :: cs ∈ argv ∧ cs.head? ≠ some '-' ∧ c ∈ cs) ∨ (∃ o ∈ t.long, v = o.val ∧ argFits o.arg a)

theorem fromTable.cons {t : OptTable} {argv : List Word} {v : OptVal} {a : Option Word} (w : Word) (h : fromTable t argv v a) : fromTable t (w :: argv) v a := by
  rcases h with ⟨c, k, cs, h1, h2, h3, h4, h5⟩ | h
  · exact .inl ⟨c, k, cs, h1, h2, h3, List.mem_cons_of_mem _ h4, h5⟩
  · exact .inr h

theorem optWord_mem (t : OptTable) (c : Char) (cs : List Char) (ws : List Word) (v : OptVal) (a : Option Word) (h : (v, a) ∈ (optWord t (c :: cs)).1) :
    fromTable t (('-' :: c :: cs) :: ws) v a := by
  by_cases hc : c = '-'
  · subst hc
    exact .inr (longWord_mem t cs v a h)
  · have : optWord t (c :: cs) = shortWord t (c :: cs) := by
      unfold optWord
      split
      · rename_i h; simp only [List.cons.injEq] at h; exact absurd h.1 hc
      · rfl
    rw [this] at h
    obtain ⟨c', k, h1, h2, h3, h4⟩ := shortWord_mem t _ v a h
    exact .inl ⟨c', k, c :: cs, h1, h3, h4, by simp, by simpa using hc, h2⟩

theorem optWord_needs (t : OptTable) (c : Char) (cs : List Char) (ws : List Word) (v : OptVal) (w : Word) (h : (optWord t (c :: cs)).2 = .needs v) :
    fromTable t (('-' :: c :: cs) :: ws) v (some w) := by
  by_cases hc : c = '-'
  · subst hc
    obtain ⟨o, h1, h2, h3⟩ := longWord_needs t cs v h
    exact .inr ⟨o, h1, h2, by rw [h3]; simp [argFits]⟩
  · have : optWord t (c :: cs) = shortWord t (c :: cs) := by
      unfold optWord
      split
      · rename_i h; simp only [List.cons.injEq] at h; exact absurd h.1 hc
      · rfl
    rw [this] at h
    obtain ⟨c', h1, h2, h3⟩ := shortWord_needs t _ v h
    exact .inl ⟨c', .required, c :: cs, h1, h3, by simp [argFits], by simp, by simpa using hc, h2⟩

theorem getopt_mem (t : OptTable) (argv : List Word) : ∀ (pv : Option OptVal) (v : OptVal) (a : Option Word), (v, a) ∈ (getoptGo t pv argv).1 →
    fromTable t argv v a ∨ (pv = some v ∧ ∃ w, a = some w) := by
  induction argv with
  | nil => intro pv v a h; cases pv <;> simp [getoptGo] at h
  | cons w ws ih =>
    intro pv v a h
    cases pv with
    | some v' =>
      simp only [getoptGo, List.mem_cons, Prod.mk.injEq] at h
      rcases h with ⟨rfl, rfl⟩ | h
      · exact .inr ⟨rfl, w, rfl⟩
      · rcases ih none v a h with h | ⟨h, -⟩
        · exact .inl (h.cons w)
        · simp at h
    | none =>
      left
      by_cases hw : w = ['-', '-']
      · subst hw
        rw [getoptGo, if_pos rfl] at h; simp at h
      · by_cases hd : ∃ c cs, w = '-' :: c :: cs
        · obtain ⟨c, cs, rfl⟩ := hd
          rw [getoptGo, if_neg hw] at h
          simp only at h
          cases ho : (optWord t (c :: cs)).2 with
          | bad =>
            rw [ho] at h
            exact optWord_mem t c cs ws v a h
          | done =>
            rw [ho] at h
            simp only [List.mem_append] at h
            rcases h with h | h
            · exact optWord_mem t c cs ws v a h
            · rcases ih none v a h with h | ⟨h, -⟩
              · exact h.cons _
              · simp at h
          | needs v' =>
            rw [ho] at h
            simp only [List.mem_append] at h
            rcases h with h | h
            · exact optWord_mem t c cs ws v a h
            · rcases ih (some v') v a h with h | ⟨hv, w', rfl⟩
              · exact h.cons _
              · rw [Option.some.injEq] at hv
                subst hv
                exact optWord_needs t c cs ws v' w' ho
        · have hg : getoptGo t none (w :: ws) = ((getoptGo t none ws).1, (getoptGo t none ws).2.map (w :: ·)) := by
            rw [getoptGo, if_neg hw]
            exact fun c cs h => hd ⟨c, cs, h⟩
          rw [hg] at h
          rcases ih none v a h with h | ⟨h, -⟩
          · exact h.cons _
          · simp at h

theorem cliSwitch_mem (cases : OptVal → Option I) (evs : List (OptVal × Option Word)) (e : CliEnd) (i : I) (a : Option Word) (h : (i, a) ∈ (cliSwitch cases evs e).1) :
    ∃ v, (v, a) ∈ evs ∧ cases v = some i := by
  induction evs with
  | nil => simp [cliSwitch] at h
  | cons x evs ih =>
    obtain ⟨v, arg⟩ := x
    rw [cliSwitch] at h
    cases hv : cases v with
    | none => rw [hv] at h; simp at h
    | some j =>
      rw [hv] at h
      simp only [List.mem_cons, Prod.mk.injEq] at h
      rcases h with ⟨rfl, rfl⟩ | h
      · exact ⟨v, by simp, hv⟩
      · obtain ⟨v', h1, h2⟩ := ih h
        exact ⟨v', List.mem_cons_of_mem _ h1, h2⟩

theorem cliSwitch_abort (cases : OptVal → Option I) (evs : List (OptVal × Option Word)) (e : CliEnd) (he : e ≠ .abort) :
    (cliSwitch cases evs e).2 = .abort ↔ ∃ v a, (v, a) ∈ evs ∧ cases v = none := by
  induction evs with
  | nil => simp [cliSwitch, he]
  | cons x evs ih =>
    obtain ⟨v, arg⟩ := x
    rw [cliSwitch]
    cases hv : cases v with
    | none => simp only [true_iff]; exact ⟨v, arg, by simp, hv⟩
    | some j =>
      simp only [ih]
      constructor
      · rintro ⟨v', a, h1, h2⟩; exact ⟨v', a, List.mem_cons_of_mem _ h1, h2⟩
      · rintro ⟨v', a, h1, h2⟩
        rcases List.mem_cons.1 h1 with h1 | h1
        · rw [Prod.mk.injEq] at h1; rw [h1.1, hv] at h2; simp at h2
        · exact ⟨v', a, h1, h2⟩

/-- The letters and long options of the table that have no case. -/
def noCase (t : OptTable) (cases : OptVal → Option I) : List Char := t.short.filter fun c => (shortKind t.short c).isSome ∧ (cases (.ch c)).isNone

theorem shortKind_mem (os : List Char) (c : Char) (k : HasArg) (h : shortKind os c = some k) : c ∈ os := by
  by_contra hc
  rw [shortKind_none os c hc] at h
  simp at h

/-- A program that comes to `abort()` was given a letter without a case. -/
theorem cliParse_abort (t : OptTable) (cases : OptVal → Option I) (hl : (t.long.all fun o => (cases o.val).isSome) = true) (argv : List Word) (h : (cliParse t cases argv).2 = .abort) :
    ∃ c ∈ noCase t cases, ∃ cs, '-' :: cs ∈ argv ∧ cs.head? ≠ some '-' ∧ c ∈ cs := by
  unfold cliParse at h
  simp only at h
  rw [cliSwitch_abort _ _ _ (by cases (getoptGo t none argv).2 <;> simp)] at h
  obtain ⟨v, a, h1, h2⟩ := h
  rcases getopt_mem t argv none v a h1 with h | ⟨h, -⟩
  · rcases h with ⟨c, k, cs, rfl, h3, h4, h5, h6, h7⟩ | ⟨o, h3, rfl, h4⟩
    · refine ⟨c, ?_, cs, h5, h6, h7⟩
      unfold noCase
      rw [List.mem_filter]
      exact ⟨shortKind_mem _ _ _ h3, by simp [h2, h3]⟩
    · simp only [List.all_eq_true] at hl
      have := hl o h3
      rw [h2] at this
      simp at this
  · simp at h

theorem cliParse_arg {t : OptTable} {cases : OptVal → Option I} (G : List (OptDoc I)) (hs : ∀ c k i, shortKind t.short c = some k → cases (.ch c) = some i → ∃ d ∈ G, d.id = i ∧ d.arg = k)
    (hl : ∀ o ∈ t.long, ∀ i, cases o.val = some i → ∃ d ∈ G, d.id = i ∧ d.arg = o.arg) (argv : List Word) (i : I) (a : Option Word) (h : (i, a) ∈ (cliParse t cases argv).1) :
    ∃ d ∈ G, d.id = i ∧ argFits d.arg a := by
  unfold cliParse at h
  obtain ⟨v, h1, h2⟩ := cliSwitch_mem _ _ _ _ _ h
  rcases getopt_mem t argv none v a h1 with h | ⟨h, -⟩
  · rcases h with ⟨c, k, cs, rfl, h3, h4, -⟩ | ⟨o, h3, rfl, h4⟩
    · obtain ⟨d, hd, e1, e2⟩ := hs c k i h3 h2
      exact ⟨d, hd, e1, e2 ▸ h4⟩
    · obtain ⟨d, hd, e1, e2⟩ := hl o h3 i h2
      exact ⟨d, hd, e1, e2 ▸ h4⟩
  · simp at h

/-! ### A command line in two parts -/

theorem getopt_append (t : OptTable) (pre rest : List Word) : ∀ (pv : Option OptVal) (evs : List (OptVal × Option Word)) (fs : List Word),
    (∀ w ∈ pre, w ≠ ['-', '-']) → getoptGo t pv pre = (evs, some fs) →
      getoptGo t pv (pre ++ rest) = (evs ++ (getoptGo t none rest).1, (getoptGo t none rest).2.map (fs ++ ·)) := by
  induction pre with
  | nil =>
    intro pv evs fs _ h
    cases pv with
    | some v => simp [getoptGo] at h
    | none =>
      simp only [getoptGo, Prod.mk.injEq, Option.some.injEq] at h
      obtain ⟨rfl, rfl⟩ := h
      simp
  | cons w ws ih =>
    intro pv evs fs hn h
    have hn' : ∀ w ∈ ws, w ≠ ['-', '-'] := fun w hw => hn w (List.mem_cons_of_mem _ hw)
    have hw := hn w (by simp)
    cases pv with
    | some v =>
      simp only [getoptGo, Prod.mk.injEq] at h
      obtain ⟨rfl, h2⟩ := h
      have := ih none (getoptGo t none ws).1 fs hn' (by rw [← h2])
      rw [List.cons_append, getoptGo, this]
      rfl
    | none =>
      by_cases hd : ∃ c cs, w = '-' :: c :: cs
      · obtain ⟨c, cs, rfl⟩ := hd
        rw [getoptGo, if_neg hw] at h
        rw [List.cons_append, getoptGo, if_neg hw]
        simp only at h ⊢
        cases ho : (optWord t (c :: cs)).2 with
        | bad => rw [ho] at h; simp at h
        | done =>
          rw [ho] at h
          simp only [Prod.mk.injEq] at h ⊢
          obtain ⟨rfl, h2⟩ := h
          have := ih none (getoptGo t none ws).1 fs hn' (by rw [← h2])
          rw [this]
          simp
        | needs v =>
          rw [ho] at h
          simp only [Prod.mk.injEq] at h ⊢
          obtain ⟨rfl, h2⟩ := h
          have := ih (some v) (getoptGo t (some v) ws).1 fs hn' (by rw [← h2])
          rw [this]
          simp
      · have hg : ∀ ws, getoptGo t none (w :: ws) = ((getoptGo t none ws).1, (getoptGo t none ws).2.map (w :: ·)) := by
          intro ws
          rw [getoptGo, if_neg hw]
          exact fun c cs h => hd ⟨c, cs, h⟩
        rw [hg] at h
        rw [List.cons_append, hg]
        simp only [Prod.mk.injEq, Option.map_eq_some_iff] at h ⊢
        obtain ⟨rfl, fs', h2, rfl⟩ := h
        have := ih none (getoptGo t none ws).1 fs' hn' (by rw [← h2])
        rw [this]
        cases (getoptGo t none rest).2 <;> simp

theorem cliSwitch_append (cases : OptVal → Option I) (a b : List (OptVal × Option Word)) (e : CliEnd) (os : List (I × Option Word)) (h : caseAll cases a os) :
    cliSwitch cases (a ++ b) e = (os ++ (cliSwitch cases b e).1, (cliSwitch cases b e).2) := by
  unfold caseAll at h
  induction h with
  | nil => simp
  | cons h1 _ ih =>
    rename_i x o a os _
    obtain ⟨v, arg⟩ := x
    obtain ⟨i, arg'⟩ := o
    simp only at h1
    obtain ⟨h1, rfl⟩ := h1
    rw [List.cons_append, cliSwitch, h1]
    simp only [ih, List.cons_append]

/-- The file names of the first part come first. -/
def addFiles (fs : List Word) : CliEnd → CliEnd
  | .files fs' => .files (fs ++ fs')
  | e => e

theorem cliSwitch_end (cases : OptVal → Option I) (evs : List (OptVal × Option Word)) (fs : List Word) (e : CliEnd) :
    cliSwitch cases evs (addFiles fs e) = ((cliSwitch cases evs e).1, addFiles fs (cliSwitch cases evs e).2) := by
  induction evs with
  | nil => rfl
  | cons x evs ih =>
    obtain ⟨v, arg⟩ := x
    rw [cliSwitch, cliSwitch]
    cases cases v with
    | none => rfl
    | some i => simp only [ih]

theorem cliParse_append {t : OptTable} {cases : OptVal → Option I} {G : List (OptDoc I)} (ha : OptAgree t cases G) (pre rest : List Word) (os : List (I × Option Word)) (fs : List Word)
    (hn : ∀ w ∈ pre, w ≠ ['-', '-']) (h : CmdLine G pre os fs) :
    cliParse t cases (pre ++ rest) = (os ++ (cliParse t cases rest).1, addFiles fs (cliParse t cases rest).2) := by
  have h1 := (getopt_iff ha pre none none os fs trivial).1 h
  have h2 := getopt_append t pre rest none (getoptGo t none pre).1 fs hn (by rw [← h1.2])
  unfold cliParse
  rw [h2]
  simp only
  rw [cliSwitch_append _ _ _ _ _ h1.1]
  cases (getoptGo t none rest).2 with
  | none =>
    have := cliSwitch_end cases (getoptGo t none rest).1 fs .bad
    simp only [Option.map_none]
    simp only [addFiles] at this ⊢
    rw [Prod.ext_iff] at this
    exact Prod.ext rfl this.2
  | some fs' =>
    have := cliSwitch_end cases (getoptGo t none rest).1 fs (.files fs')
    simp only [Option.map_some]
    have e : addFiles fs (.files fs') = .files (fs ++ fs') := rfl
    rw [e] at this
    rw [this]

end Moo
