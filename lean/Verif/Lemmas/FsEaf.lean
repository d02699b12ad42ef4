import Verif.Model.FsEaf
import Verif.Lemmas.FsMain

/-!
# Lemmas for C118
-/

set_option autoImplicit false
set_option linter.unusedSectionVars false

namespace Moo

variable {K : Type*}

/-! ### Streams -/

section
variable {T : Type*} (fmt : T → List Char)

theorem streamText_cons (s : OutStream) (p : OutStream × T) (w : List (OutStream × T)) :
    streamText fmt s (p :: w) = (if p.1 = s then fmt p.2 else []) ++ streamText fmt s w := by
  unfold streamText
  by_cases h : p.1 = s <;> simp [h]

theorem emitAll_stdout (w : List (OutStream × T)) : ∀ out : List Char × Files, (emitAll fmt w out).1 = out.1 ++ streamText fmt .stdout w := by
  induction w with
  | nil => intro out; simp [emitAll, streamText]
  | cons p w ih =>
    intro out
    obtain ⟨s, x⟩ := p
    rw [streamText_cons]
    cases s <;> simp [emitAll, ih]

theorem emitAll_opened (n : Word) (w : List (OutStream × T)) : ∀ (out : List Char × Files) (t : List Char), out.2 n = some t →
    (emitAll fmt w out).2 n = some (t ++ streamText fmt (.file n) w) := by
  induction w with
  | nil => intro out t h; simpa [emitAll, streamText] using h
  | cons p w ih =>
    intro out t h
    obtain ⟨s, x⟩ := p
    rw [streamText_cons]
    cases s with
    | stdin => simpa [emitAll] using ih _ _ h
    | stdout => simpa [emitAll] using ih (out.1 ++ fmt x, out.2) t h
    | file m =>
      rw [emitAll]
      by_cases hm : m = n
      · subst hm
        rw [ih _ (t ++ fmt x) (by simp [putFile, h])]
        simp
      · rw [ih _ t (by simp [putFile, Ne.symm hm, h])]
        simp [hm]

theorem emitAll_other (n : Word) (w : List (OutStream × T)) : ∀ (out : List Char × Files), (∀ p ∈ w, p.1 ≠ .file n) → (emitAll fmt w out).2 n = out.2 n := by
  induction w with
  | nil => intro out h; rfl
  | cons p w ih =>
    intro out h
    obtain ⟨s, x⟩ := p
    have h1 := h _ (List.mem_cons_self ..)
    have h2 : ∀ p ∈ w, p.1 ≠ .file n := fun p hp => h p (List.mem_cons_of_mem _ hp)
    cases s with
    | stdin => rw [emitAll]; exact ih _ h2
    | stdout => rw [emitAll]; exact ih _ h2
    | file m =>
      rw [emitAll, ih _ h2]
      have : n ≠ m := fun e => h1 (by rw [e])
      simp [putFile, this]

end

theorem openAll_apply (names : List Word) : ∀ (files : Files) (n : Word), openAll files names n = if n ∈ names then some [] else files n := by
  induction names with
  | nil => intro files n; simp [openAll]
  | cons m names ih =>
    intro files n
    have : openAll files (m :: names) = openAll (putFile files m []) names := rfl
    rw [this, ih]
    by_cases h : n ∈ names
    · simp [h]
    · by_cases hm : n = m <;> simp [h, hm, putFile]

theorem eafPrintLine_streams (co : OutStream) (ind dif : Option OutStream) (x : List K) (m : List (BitVec 64)) (b n : ℕ) (w : List (OutStream × EafTok K))
    (h : eafPrintLine co ind dif x m b n = some w) : ∀ p ∈ w, p.1 = co ∨ some p.1 = ind ∨ some p.1 = dif := by
  unfold eafPrintLine at h
  intro p hp
  cases ind with
  | none =>
    cases dif with
    | none =>
      simp only [Option.some.injEq] at h
      subst h
      simp at hp
      rcases hp with rfl | rfl <;> simp
    | some d =>
      simp only [Option.map_eq_some_iff] at h
      obtain ⟨c, -, rfl⟩ := h
      simp at hp
      rcases hp with rfl | rfl | rfl | rfl <;> simp
  | some i =>
    simp only at h
    split at h
    · cases dif with
      | none =>
        simp only [Option.some.injEq] at h
        subst h
        simp at hp
        rcases hp with rfl | rfl | rfl | rfl <;> simp
      | some d =>
        simp only [Option.some.injEq] at h
        subst h
        simp at hp
        rcases hp with rfl | rfl | rfl | rfl | rfl | rfl <;> simp
    · exact absurd h (by simp)

theorem mapM_option_mem {α β : Type*} (f : α → Option β) (l : List α) : ∀ (l' : List β), l.mapM f = some l' → ∀ y ∈ l', ∃ x ∈ l, f x = some y := by
  induction l with
  | nil => intro l' h y hy; simp at h; subst h; simp at hy
  | cons a l ih =>
    intro l' h y hy
    rw [List.mapM_cons] at h
    cases ha : f a with
    | none => rw [ha] at h; simp at h
    | some b =>
      cases hl : l.mapM f with
      | none => rw [ha, hl] at h; simp at h
      | some l'' =>
        rw [ha, hl] at h
        simp at h
        subst h
        rcases List.mem_cons.1 hy with rfl | hy
        · exact ⟨a, by simp, ha⟩
        · obtain ⟨x, hx, hxy⟩ := ih l'' hl y hy
          exact ⟨x, by simp [hx], hxy⟩

theorem eafPrint_streams (nobj : ℕ) (co : OutStream) (ind dif : Option OutStream) (es : List (EafT K)) : ∀ w, eafPrint nobj co ind dif es = some w →
    ∀ p ∈ w, p.1 = co ∨ some p.1 = ind ∨ some p.1 = dif := by
  induction es with
  | nil => intro w h p hp; simp [eafPrint] at h; subst h; simp at hp
  | cons e es ih =>
    intro w h p hp
    rw [eafPrint] at h
    cases h1 : eafPrintAttsurf e nobj co ind dif with
    | none => rw [h1] at h; simp at h
    | some l =>
      cases h2 : eafPrint nobj co ind dif es with
      | none => rw [h1, h2] at h; simp at h
      | some ls =>
        rw [h1, h2] at h
        simp only [Option.some.injEq] at h
        subst h
        rw [List.mem_append, List.mem_append] at hp
        rcases hp with (hp | hp) | hp
        · unfold eafPrintAttsurf at h1
          rw [Option.map_eq_some_iff] at h1
          obtain ⟨ll, h3, rfl⟩ := h1
          obtain ⟨y, hy, hpy⟩ := List.mem_flatten.1 hp
          obtain ⟨i, -, h4⟩ := mapM_option_mem _ _ _ h3 y hy
          split at h4
          · simp at h4
          · exact eafPrintLine_streams _ _ _ _ _ _ _ _ h4 p hpy
        · simp at hp; subst hp; simp
        · exact ih ls h2 p hp

theorem eafPrintPolygon_streams [LinearOrder K] (inf ninf : K) (co : OutStream) (es : List (EafT K)) (w : List (OutStream × PolyTok K)) (h : eafPrintPolygon inf ninf co es = some w) :
    ∀ p ∈ w, p.1 = co := by
  unfold eafPrintPolygon at h
  intro p hp
  split at h
  · simp at h
  · simp only [Option.some.injEq] at h
    subst h
    rcases List.mem_append.1 hp with hp | hp
    · obtain ⟨v, -, rfl⟩ := List.mem_map.1 hp
      rfl
    · simp at hp; subst hp; rfl

/-! ### The options of `eaf` -/

theorem eafOptions_cons (env : EafMainEnv K) (st : EafMainSt K) (a : EafArg) (args : List EafArg) :
    eafOptions env st (a :: args) = match eafOptions env st [a] with
      | .ok st => eafOptions env st args
      | .exit s => .exit s
      | .undefined => .undefined := by
  cases a with
  | best => simp [eafOptions]
  | median => simp [eafOptions]
  | worst => simp [eafOptions]
  | quiet => simp [eafOptions]
  | verbose => simp [eafOptions]
  | output name => simp [eafOptions]
  | indices a => cases a <;> simp [eafOptions]
  | diff a => cases a <;> simp [eafOptions]
  | level str =>
    simp only [eafOptions]
    by_cases h : ¬ st.levels.length < maxLevels
    · simp [h]
    · rw [if_neg h, if_neg h]
      rcases readNums env.scanInt (maxLevels - st.levels.length) str with _ | _ | vs <;> rfl
  | percentile str =>
    simp only [eafOptions]
    by_cases h : ¬ st.percentiles.length < maxLevels
    · simp [h]
    · rw [if_neg h, if_neg h]
      rcases readNums env.scan (maxLevels - st.percentiles.length) str with _ | _ | vs <;> rfl

theorem eafOptions_append (env : EafMainEnv K) (l l' : List EafArg) : ∀ st : EafMainSt K,
    eafOptions env st (l ++ l') = match eafOptions env st l with
      | .ok st => eafOptions env st l'
      | .exit s => .exit s
      | .undefined => .undefined := by
  induction l with
  | nil => intro st; simp [eafOptions]
  | cons a l ih =>
    intro st
    rw [List.cons_append, eafOptions_cons, eafOptions_cons env st a l]
    rcases eafOptions env st [a] with s | _ | st'
    · rfl
    · rfl
    · exact ih st'

/-- What `file` and `name` of `-i` or `-d` are after an option with this argument was the last one. -/
def StreamVars (file : Option OutStream) (name : Option Word) : Option (Option Word) → Prop
  | none => file = none ∧ name = none
  | some none => file = some .stdin ∧ name = none
  | some (some f) => if f = ['-'] then file = some .stdout ∧ name = none else name = some f

theorem eafOptions_names (env : EafMainEnv K) (args : List EafArg) : ∀ st : EafMainSt K,
    eafOptions env ⟨true, false, false, false, [], [], none, none, none, none, none⟩ args = .ok st →
    st.coordName = (args.filterMap EafArg.output?).getLast?.bind (fun f => if f = ['-'] then none else some f) ∧
      StreamVars st.indFile st.indName (args.filterMap EafArg.indices?).getLast? ∧ StreamVars st.diffFile st.diffName (args.filterMap EafArg.diff?).getLast? := by
  induction args using List.reverseRecOn with
  | nil => intro st h; simp [eafOptions] at h; subst h; simp [StreamVars]
  | append_singleton args a ih =>
    intro st h
    rw [eafOptions_append] at h
    rcases h0 : eafOptions env ⟨true, false, false, false, [], [], none, none, none, none, none⟩ args with s | _ | st'
    · rw [h0] at h; simp at h
    · rw [h0] at h; simp at h
    · rw [h0] at h
      simp only at h
      obtain ⟨h1, h2, h3⟩ := ih st' h0
      simp only [List.filterMap_append, List.filterMap_cons, List.filterMap_nil]
      cases a with
      | best => simp [eafOptions] at h; subst h; simpa [-List.getLast?_filterMap, EafArg.output?, EafArg.indices?, EafArg.diff?] using ⟨h1, h2, h3⟩
      | median => simp [eafOptions] at h; subst h; simpa [-List.getLast?_filterMap, EafArg.output?, EafArg.indices?, EafArg.diff?] using ⟨h1, h2, h3⟩
      | worst => simp [eafOptions] at h; subst h; simpa [-List.getLast?_filterMap, EafArg.output?, EafArg.indices?, EafArg.diff?] using ⟨h1, h2, h3⟩
      | quiet => simp [eafOptions] at h; subst h; simpa [-List.getLast?_filterMap, EafArg.output?, EafArg.indices?, EafArg.diff?] using ⟨h1, h2, h3⟩
      | verbose => simp [eafOptions] at h; subst h; simpa [-List.getLast?_filterMap, EafArg.output?, EafArg.indices?, EafArg.diff?] using ⟨h1, h2, h3⟩
      | level str =>
        simp only [eafOptions] at h
        split_ifs at h
        split at h
        · simp at h
        · simp at h
        · simp only [EafOptRes.ok.injEq] at h; subst h
          simpa [-List.getLast?_filterMap, EafArg.output?, EafArg.indices?, EafArg.diff?] using ⟨h1, h2, h3⟩
      | percentile str =>
        simp only [eafOptions] at h
        split_ifs at h
        split at h
        · simp at h
        · simp at h
        · simp only [EafOptRes.ok.injEq] at h; subst h
          simpa [-List.getLast?_filterMap, EafArg.output?, EafArg.indices?, EafArg.diff?] using ⟨h1, h2, h3⟩
      | output name =>
        simp [eafOptions] at h; subst h
        simpa [-List.getLast?_filterMap, EafArg.output?, EafArg.indices?, EafArg.diff?] using ⟨h2, h3⟩
      | indices a =>
        cases a with
        | none => simp [eafOptions] at h; subst h; simpa [-List.getLast?_filterMap, EafArg.output?, EafArg.indices?, EafArg.diff?, StreamVars] using ⟨h1, h3⟩
        | some f =>
          simp only [eafOptions, EafOptRes.ok.injEq] at h; subst h
          by_cases hf : f = ['-']
          · simpa [-List.getLast?_filterMap, EafArg.output?, EafArg.indices?, EafArg.diff?, StreamVars, hf] using ⟨h1, h3⟩
          · simpa [-List.getLast?_filterMap, EafArg.output?, EafArg.indices?, EafArg.diff?, StreamVars, hf] using ⟨h1, h3⟩
      | diff a =>
        cases a with
        | none => simp [eafOptions] at h; subst h; simpa [-List.getLast?_filterMap, EafArg.output?, EafArg.indices?, EafArg.diff?, StreamVars] using ⟨h1, h2⟩
        | some f =>
          simp only [eafOptions, EafOptRes.ok.injEq] at h; subst h
          by_cases hf : f = ['-']
          · simpa [-List.getLast?_filterMap, EafArg.output?, EafArg.indices?, EafArg.diff?, StreamVars, hf] using ⟨h1, h2⟩
          · simpa [-List.getLast?_filterMap, EafArg.output?, EafArg.indices?, EafArg.diff?, StreamVars, hf] using ⟨h1, h2⟩

theorem eafOptions_noFile (env : EafMainEnv K) (args : List EafArg) : ∀ st : EafMainSt K,
    eafOptions env ⟨true, false, false, false, [], [], none, none, none, none, none⟩ args = .ok st → ∀ f, st.indFile ≠ some (.file f) ∧ st.diffFile ≠ some (.file f) := by
  induction args using List.reverseRecOn with
  | nil => intro st h; simp [eafOptions] at h; subst h; simp
  | append_singleton args a ih =>
    intro st h
    rw [eafOptions_append] at h
    rcases h0 : eafOptions env ⟨true, false, false, false, [], [], none, none, none, none, none⟩ args with s | _ | st'
    · rw [h0] at h; simp at h
    · rw [h0] at h; simp at h
    · rw [h0] at h
      simp only at h
      have h1 := ih st' h0
      intro f
      have h1 := h1 f
      cases a with
      | best => simp [eafOptions] at h; subst h; exact h1
      | median => simp [eafOptions] at h; subst h; exact h1
      | worst => simp [eafOptions] at h; subst h; exact h1
      | quiet => simp [eafOptions] at h; subst h; exact h1
      | verbose => simp [eafOptions] at h; subst h; exact h1
      | level str =>
        simp only [eafOptions] at h
        split_ifs at h
        split at h
        · simp at h
        · simp at h
        · simp only [EafOptRes.ok.injEq] at h; subst h; exact h1
      | percentile str =>
        simp only [eafOptions] at h
        split_ifs at h
        split at h
        · simp at h
        · simp at h
        · simp only [EafOptRes.ok.injEq] at h; subst h; exact h1
      | output name => simp [eafOptions] at h; subst h; exact h1
      | indices a =>
        cases a with
        | none => simp [eafOptions] at h; subst h; exact ⟨by simp, h1.2⟩
        | some g =>
          simp only [eafOptions, EafOptRes.ok.injEq] at h; subst h
          split_ifs
          · exact ⟨by simp, h1.2⟩
          · exact h1
      | diff a =>
        cases a with
        | none => simp [eafOptions] at h; subst h; exact ⟨h1.1, by simp⟩
        | some g =>
          simp only [eafOptions, EafOptRes.ok.injEq] at h; subst h
          split_ifs
          · exact ⟨h1.1, by simp⟩
          · exact h1

theorem streamOf_file (f n : Word) : streamOf f = .file n ↔ f ≠ ['-'] ∧ f = n := by
  unfold streamOf
  split_ifs with h <;> simp [h]

/-- The name after the settings of `-o` were taken over. -/
theorem takeOver_name (args : List EafArg) (coordName : Option Word) (file : Option OutStream) (name : Option Word) (l : Option (Option Word)) (n : Word)
    (hc : pointsTo args = .file n ↔ coordName = some n) (h : StreamVars file name l) :
    (if file ≠ none ∧ file ≠ some .stdout ∧ name = none then coordName else name) = some n ↔ optionTo args l = some (.file n) := by
  rcases l with _ | _ | f
  · obtain ⟨rfl, rfl⟩ := h
    simp [optionTo]
  · obtain ⟨rfl, rfl⟩ := h
    simp [optionTo, hc]
  · simp only [StreamVars] at h
    simp only [optionTo, Option.some.injEq, streamOf_file]
    split_ifs at h with hf
    · obtain ⟨rfl, rfl⟩ := h
      simp [hf]
    · subst h
      simp [hf]

theorem pointsTo_file (args : List EafArg) (coordName : Option Word) (h : coordName = (args.filterMap EafArg.output?).getLast?.bind (fun f => if f = ['-'] then none else some f)) (n : Word) :
    pointsTo args = .file n ↔ coordName = some n := by
  subst h
  unfold pointsTo
  rcases (args.filterMap EafArg.output?).getLast? with _ | f
  · simp
  · simp only [Option.map_some, Option.getD_some, Option.bind_some, streamOf_file]
    split_ifs with hf
    · simp [hf]
    · simp [hf]

/-- The files that are opened are those that the options name. -/
theorem eafOpens_iff (env : EafMainEnv K) (args : List EafArg) (st : EafMainSt K)
    (h : eafOptions env ⟨true, false, false, false, [], [], none, none, none, none, none⟩ args = .ok st) (n : Word) : n ∈ eafOpens st ↔ IsOutput args n := by
  obtain ⟨h1, h2, h3⟩ := eafOptions_names env args st h
  have hc := pointsTo_file args st.coordName h1 n
  have hi := takeOver_name args st.coordName st.indFile st.indName _ n hc h2
  have hd := takeOver_name args st.coordName st.diffFile st.diffName _ n hc h3
  unfold IsOutput indicesTo countsTo
  rw [hc, ← hi, ← hd]
  unfold eafOpens
  simp only
  generalize (if st.indFile ≠ none ∧ st.indFile ≠ some .stdout ∧ st.indName = none then st.coordName else st.indName) = a
  generalize (if st.diffFile ≠ none ∧ st.diffFile ≠ some .stdout ∧ st.diffName = none then st.coordName else st.diffName) = b
  generalize st.coordName = c
  simp only [List.mem_append]
  have e1 : n ∈ c.toList ↔ c = some n := by cases c <;> simp [eq_comm]
  rw [e1]
  constructor
  · rintro ((h | h) | h)
    · exact Or.inl h
    · cases a with
      | none => simp at h
      | some f => simp only at h; split_ifs at h <;> simp at h; exact Or.inr (Or.inl (by rw [h]))
    · cases b with
      | none => simp at h
      | some f => simp only at h; split_ifs at h <;> simp at h; exact Or.inr (Or.inr (by rw [h]))
  · intro h
    by_cases hcn : c = some n
    · exact Or.inl (Or.inl hcn)
    · by_cases han : a = some n
      · subst han
        refine Or.inl (Or.inr ?_)
        simp [hcn]
      · rcases h with h | h | h
        · exact absurd h hcn
        · exact absurd h han
        · subst h
          refine Or.inr ?_
          simp [hcn, han]

/-- What is written goes to files that are opened. -/
theorem eafStreams_opens (env : EafMainEnv K) (args : List EafArg) (st : EafMainSt K)
    (h : eafOptions env ⟨true, false, false, false, [], [], none, none, none, none, none⟩ args = .ok st) (n : Word) :
    (eafStreams st).1 = .file n ∨ some (.file n) = (eafStreams st).2.1 ∨ some (.file n) = (eafStreams st).2.2 → n ∈ eafOpens st := by
  obtain ⟨f1, f2⟩ := eafOptions_noFile env args st h n
  unfold eafStreams eafOpens
  simp only
  generalize hA : (if st.indFile ≠ none ∧ st.indFile ≠ some .stdout ∧ st.indName = none then st.coordName else st.indName) = a
  generalize hB : (if st.diffFile ≠ none ∧ st.diffFile ≠ some .stdout ∧ st.diffName = none then st.coordName else st.diffName) = b
  have key : ∀ (same : Prop) [Decidable same] (file : Option OutStream), file ≠ some (.file n) →
      some (OutStream.file n) = (if same then some (match st.coordName with | some f => OutStream.file f | none => .stdout) else file) → st.coordName = some n := by
    intro same _ file hf hh
    split_ifs at hh
    · cases hcn : st.coordName with
      | none => rw [hcn] at hh; simp at hh
      | some g => rw [hcn] at hh; simp at hh; rw [hh]
    · exact absurd hh.symm hf
  have hco : st.coordName = some n → n ∈ st.coordName.toList := by intro hh; rw [hh]; simp
  simp only [List.mem_append]
  rintro (hh | hh | hh)
  · refine Or.inl (Or.inl (hco ?_))
    cases hcn : st.coordName with
    | none => rw [hcn] at hh; simp at hh
    | some g => rw [hcn] at hh; simp at hh; rw [hh]
  · cases a with
    | none => exact Or.inl (Or.inl (hco (key _ _ f1 hh)))
    | some g =>
      simp only at hh ⊢
      split_ifs at hh with h5
      · simp at hh; subst hh
        rw [if_pos h5]
        exact Or.inl (Or.inr (by simp))
      all_goals first
        | exact absurd hh.symm f1
        | (refine Or.inl (Or.inl (hco ?_))
           cases hcn : st.coordName with
           | none => rw [hcn] at hh; simp at hh
           | some g => rw [hcn] at hh; simp at hh; rw [hh])
  · cases b with
    | none => exact Or.inl (Or.inl (hco (key _ _ f2 hh)))
    | some g =>
      simp only at hh ⊢
      split_ifs at hh with h5
      · simp at hh; subst hh
        rw [if_pos h5]
        exact Or.inr (by simp)
      all_goals first
        | exact absurd hh.symm f2
        | (refine Or.inl (Or.inl (hco ?_))
           cases hcn : st.coordName with
           | none => rw [hcn] at hh; simp at hh
           | some g => rw [hcn] at hh; simp at hh; rw [hh])

/-! ### Reading -/

theorem eafReadFs_eq (scan : NumScan K) (files : Files) (stdin : List Char) (names : List Word) (texts : List (List Char)) (h : InputTexts files stdin names texts) :
    ∀ (nobj : ℕ) (cum : List ℕ) (data : List K), eafReadFs scan files nobj cum data stdin names = eafRead scan nobj cum data texts := by
  induction h with
  | nil stdin => intro nobj cum data; rfl
  | stdin stdin names texts _ ih =>
    intro nobj cum data
    rw [eafReadFs, eafRead]
    simp only [if_true]
    cases readData scan (stdin.length + 3) nobj cum data stdin with
    | none => rfl
    | some out =>
      simp only
      split_ifs
      · exact ih _ _ _
      · rfl
  | file stdin name text names texts hn hf _ ih =>
    intro nobj cum data
    rw [eafReadFs, eafRead]
    simp only [if_neg hn, hf]
    cases readData scan (text.length + 3) nobj cum data text with
    | none => rfl
    | some out =>
      simp only
      split_ifs
      · exact ih _ _ _
      · rfl

theorem eafReadFs_missing (scan : NumScan K) (files : Files) (missing : Word) (hm : files missing = none) (hd : missing ≠ ['-']) (names : List Word) :
    ∀ (stdin : List Char) (nobj : ℕ) (cum : List ℕ) (data : List K), missing ∈ names →
    eafReadFs scan files nobj cum data stdin names = none ∨ eafReadFs scan files nobj cum data stdin names = some none := by
  induction names with
  | nil => intro stdin nobj cum data h; simp at h
  | cons name names ih =>
    intro stdin nobj cum data h
    rw [eafReadFs]
    cases hf : (if name = ['-'] then some stdin else files name) with
    | none => simp
    | some text =>
      simp only
      rcases readData scan (text.length + 3) nobj cum data text with _ | out
      · simp
      · simp only
        split_ifs
        · refine ih _ _ _ _ ?_
          rcases List.mem_cons.1 h with rfl | h
          · rw [if_neg hd, hm] at hf; cases hf
          · exact h
        · refine ih _ _ _ _ ?_
          rcases List.mem_cons.1 h with rfl | h
          · rw [if_neg hd, hm] at hf; cases hf
          · exact h
        · simp

theorem dsReadFs_eq [Zero K] (scan : NumScan K) (files : Files) (names : List Word) : ∀ (texts : List (List Char)) (dim : ℕ), Contents files names texts →
    dsReadFs scan files dim names = dsRead scan dim texts := by
  induction names with
  | nil => intro texts dim h; cases h; rfl
  | cons name names ih =>
    intro texts dim h
    cases h with
    | @cons _ text _ texts h1 h2 =>
      rw [dsReadFs, dsRead, h1]
      simp only
      rcases readFile scan dim text with _ | _ | out
      · rfl
      · rfl
      · simp only [ih texts out.nobjs h2]
        rfl

theorem dsReadFs_missing [Zero K] (scan : NumScan K) (files : Files) (missing : Word) (hm : files missing = none) (names : List Word) : ∀ (dim : ℕ), missing ∈ names →
    dsReadFs scan files dim names = none ∨ dsReadFs scan files dim names = some none := by
  induction names with
  | nil => intro dim h; simp at h
  | cons name names ih =>
    intro dim h
    rw [dsReadFs]
    cases hf : files name with
    | none => simp
    | some text =>
      simp only
      rcases readFile scan dim text with _ | _ | out
      · simp
      · simp
      · have : missing ∈ names := by
          rcases List.mem_cons.1 h with rfl | h
          · rw [hm] at hf; cases hf
          · exact h
        rcases ih out.nobjs this with e | e <;> simp [e]

end Moo
