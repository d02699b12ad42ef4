import Verif.Model.EafMain
import Verif.Lemmas.Cli

/-!
# Lemmas for the program `eaf`: options and streams
-/

set_option autoImplicit false
set_option linter.unusedSectionVars false

namespace Moo

section nums
variable {V : Type*}

theorem scan_blank {scan : NumScan V} (hs : ScanOk scan) {l : List Char} (hl : ∀ c ∈ l, isSpaceC c = true) : scan (l.dropWhile isSpaceC) = none := by
  have h0 : l.dropWhile isSpaceC = [] := by
    induction l with
    | nil => rfl
    | cons c l ih => rw [List.dropWhile_cons, if_pos (hl c (by simp))]; exact ih (fun c hc => hl c (by simp [hc]))
  rw [h0]
  cases hsc : scan [] with
  | none => rfl
  | some q =>
    have := (hs.suffix _ _ _ hsc).2
    simp at this

theorem not_space_sep {c : Char} (h : c = ',' ∨ c = ';') : isSpaceC c = false := by
  rcases h with rfl | rfl <;> decide

theorem dropWhile_sep {c : Char} (h : c = ',' ∨ c = ';') (l : List Char) : (c :: l).dropWhile isSpaceC = c :: l := by
  rw [List.dropWhile_cons, if_neg (by rw [not_space_sep h]; simp)]

theorem head_blank {l : List Char} (hl : ∀ c ∈ l, isSpaceC c = true) : ¬ (l.head? = some ',' ∨ l.head? = some ';') := by
  cases l with
  | nil => simp
  | cons c l =>
    intro h
    have h1 := hl c (by simp)
    have : c = ',' ∨ c = ';' := by simpa using h
    rw [not_space_sep this] at h1
    exact absurd h1 (by simp)

theorem readNumsLoop_ok {scan : NumScan V} (hs : ScanOk scan) {room : ℕ} {str : List Char} {vs : List V} (h : SepNumbers scan str vs) :
    ∀ (fuel : ℕ) (p : List V), str.length < fuel → p.length + vs.length < room → p ++ vs ≠ [] → readNumsLoop scan room fuel p str = some (some (p ++ vs)) := by
  induction h with
  | nil l hl =>
    intro fuel p hf hr hne
    obtain ⟨fuel, rfl⟩ : ∃ f, fuel = f + 1 := ⟨fuel - 1, by omega⟩
    rw [readNumsLoop, if_neg (by simp at hr; omega), scan_blank hs hl]
    dsimp only
    rw [if_neg (head_blank hl), if_pos ⟨List.all_eq_true.2 hl, by simpa using hne⟩, List.append_nil]
  | num l r v vs h1 h2 ih =>
    intro fuel p hf hr hne
    obtain ⟨fuel, rfl⟩ : ∃ f, fuel = f + 1 := ⟨fuel - 1, by omega⟩
    rw [List.length_cons] at hr
    rw [readNumsLoop, if_neg (by omega), h1]
    dsimp only
    have hlen := (hs.suffix _ _ _ h1).2
    have hl2 := dropWhile_length_le isSpaceC l
    rw [ih fuel (p ++ [v]) (by omega) (by rw [List.length_append, List.length_singleton]; omega) (by simp)]
    simp
  | sep c l vs hc h1 h2 ih =>
    intro fuel p hf hr hne
    obtain ⟨fuel, rfl⟩ : ∃ f, fuel = f + 1 := ⟨fuel - 1, by omega⟩
    rw [List.length_cons] at hf
    rw [readNumsLoop, if_neg (by omega), dropWhile_sep hc, h1]
    dsimp only
    rw [if_pos (by simpa using hc), List.tail_cons, ih fuel p (by omega) hr hne]

/-- The numbers of an argument are read. -/
theorem readNums_ok {scan : NumScan V} (hs : ScanOk scan) {room : ℕ} {str : List Char} {vs : List V} (h : SepNumbers scan str vs) (hr : vs.length < room) (hne : vs ≠ []) :
    readNums scan room str = some (some vs) := by
  unfold readNums
  rw [readNumsLoop_ok hs h _ [] (by omega) (by simpa using hr) (by simpa using hne), List.nil_append]

/-- As many numbers as the array has elements, or more, overflow it. -/
theorem readNums_overflow {scan : NumScan V} {room : ℕ} {str : List Char} {vs : List V} (h : SepNumbers scan str vs) (hr : room ≤ vs.length) :
    readNums scan room str = none := by
  have key : ∀ (str : List Char) (vs : List V), SepNumbers scan str vs → ∀ (fuel : ℕ) (p : List V), room ≤ p.length + vs.length → readNumsLoop scan room fuel p str = none := by
    intro str vs h
    induction h with
    | nil l hl =>
      intro fuel p hr
      cases fuel with
      | zero => rfl
      | succ fuel => rw [readNumsLoop, if_pos (by simp at hr; omega)]
    | num l r v vs h1 h2 ih =>
      intro fuel p hr
      cases fuel with
      | zero => rfl
      | succ fuel =>
        rw [readNumsLoop]
        by_cases hlt : p.length < room
        · rw [if_neg (by omega), h1]
          dsimp only
          exact ih fuel (p ++ [v]) (by simp at hr ⊢; omega)
        · rw [if_pos hlt]
    | sep c l vs hc h1 h2 ih =>
      intro fuel p hr
      cases fuel with
      | zero => rfl
      | succ fuel =>
        rw [readNumsLoop]
        by_cases hlt : p.length < room
        · rw [if_neg (by omega), dropWhile_sep hc, h1]
          dsimp only
          rw [if_pos (by simpa using hc), List.tail_cons, ih fuel p hr]
        · rw [if_pos hlt]
  exact key str vs h _ [] (by simpa using hr)

/-- Anything else makes the program exit, if the text is short enough not to overflow the array. -/
theorem readNums_err {scan : NumScan V} (hs : ScanOk scan) {room : ℕ} {str : List Char} (h : ¬ ∃ vs, vs ≠ [] ∧ SepNumbers scan str vs) (hr : str.length < room) :
    readNums scan room str = some none := by
  have key : ∀ (fuel : ℕ) (p : List V) (str : List Char), str.length < fuel → p.length + str.length < room → (¬ ∃ vs, p ++ vs ≠ [] ∧ SepNumbers scan str vs) →
      readNumsLoop scan room fuel p str = some none := by
    intro fuel
    induction fuel with
    | zero => intro p str hf; omega
    | succ fuel ih =>
      intro p str hf hr hno
      rw [readNumsLoop, if_neg (by omega)]
      cases hsc : scan (str.dropWhile isSpaceC) with
      | none =>
        dsimp only
        split_ifs with h1 h2
        · cases str with
          | nil => simp at h1
          | cons c l =>
            have hc : c = ',' ∨ c = ';' := by simpa using h1
            rw [dropWhile_sep hc] at hsc
            rw [List.length_cons] at hf hr
            rw [List.tail_cons]
            refine ih p l (by omega) (by omega) ?_
            rintro ⟨vs, g1, g2⟩
            exact hno ⟨vs, g1, .sep c l vs hc hsc g2⟩
        · exact absurd ⟨[], by simpa using h2.2, .nil _ (List.all_eq_true.1 h2.1)⟩ hno
        · rfl
      | some q =>
        obtain ⟨v, r⟩ := q
        dsimp only
        have hlen := (hs.suffix _ _ _ hsc).2
        have hl2 := dropWhile_length_le isSpaceC str
        refine ih _ _ (by omega) (by rw [List.length_append, List.length_singleton]; omega) ?_
        rintro ⟨vs, _, h2⟩
        exact hno ⟨v :: vs, by simp, .num _ _ _ _ hsc h2⟩
  exact key _ [] str (by omega) (by simpa using hr) (by simpa using h)

end nums

section options
variable {K : Type*}

/-- What an option `-i` or `-d` does to the stream and the name. -/
def nameStep (s : Option OutStream × Option (List Char)) : Option (List Char) → Option OutStream × Option (List Char)
  | none => (some .stdin, none)
  | some f => if f = ['-'] then (some .stdout, none) else (s.1, some f)

def verboseStep (b : Bool) : EafArg → Bool
  | .quiet => false
  | .verbose => true
  | _ => b

def coordStep (_ : Option (List Char)) (f : List Char) : Option (List Char) := if f = ['-'] then none else some f

/-- The state after the options. -/
def eafFinal (st : EafMainSt K) (args : List EafArg) (ps : List K) (ls : List ℤ) : EafMainSt K where
  verbose := args.foldl verboseStep st.verbose
  best := st.best || decide (EafArg.best ∈ args)
  median := st.median || decide (EafArg.median ∈ args)
  worst := st.worst || decide (EafArg.worst ∈ args)
  levels := st.levels ++ ls
  percentiles := st.percentiles ++ ps
  coordName := (args.filterMap EafArg.output?).foldl coordStep st.coordName
  indFile := ((args.filterMap EafArg.indices?).foldl nameStep (st.indFile, st.indName)).1
  indName := ((args.filterMap EafArg.indices?).foldl nameStep (st.indFile, st.indName)).2
  diffFile := ((args.filterMap EafArg.diff?).foldl nameStep (st.diffFile, st.diffName)).1
  diffName := ((args.filterMap EafArg.diff?).foldl nameStep (st.diffFile, st.diffName)).2

theorem eafOptions_ok (env : EafMainEnv K) (hs : ScanOk env.scan) (hi : ScanOk env.scanInt) : ∀ (args : List EafArg) (st : EafMainSt K) (ps : List K) (ls : List ℤ),
    ArgNumbers env.scan (args.filterMap EafArg.percentile?) ps → ArgNumbers env.scanInt (args.filterMap EafArg.level?) ls →
    st.percentiles.length + ps.length < maxLevels → st.levels.length + ls.length < maxLevels → eafOptions env st args = .ok (eafFinal st args ps ls) := by
  intro args
  induction args with
  | nil =>
    intro st ps ls hp hl _ _
    cases hp
    cases hl
    rw [eafOptions]
    simp [eafFinal]
  | cons a args ih =>
    intro st ps ls hp hl hpl hll
    cases a with
    | best =>
      rw [eafOptions, ih _ ps ls hp hl (by exact hpl) (by exact hll)]
      simp [eafFinal, verboseStep, EafArg.output?, EafArg.indices?, EafArg.diff?, List.filterMap_cons]
    | median =>
      rw [eafOptions, ih _ ps ls hp hl (by exact hpl) (by exact hll)]
      simp [eafFinal, verboseStep, EafArg.output?, EafArg.indices?, EafArg.diff?, List.filterMap_cons]
    | worst =>
      rw [eafOptions, ih _ ps ls hp hl (by exact hpl) (by exact hll)]
      simp [eafFinal, verboseStep, EafArg.output?, EafArg.indices?, EafArg.diff?, List.filterMap_cons]
    | quiet =>
      rw [eafOptions, ih _ ps ls hp hl (by exact hpl) (by exact hll)]
      simp [eafFinal, verboseStep, EafArg.output?, EafArg.indices?, EafArg.diff?, List.filterMap_cons]
    | verbose =>
      rw [eafOptions, ih _ ps ls hp hl (by exact hpl) (by exact hll)]
      simp [eafFinal, verboseStep, EafArg.output?, EafArg.indices?, EafArg.diff?, List.filterMap_cons]
    | percentile str =>
      rw [show (EafArg.percentile str :: args).filterMap EafArg.percentile? = str :: args.filterMap EafArg.percentile? from by simp [EafArg.percentile?]] at hp
      cases hp with
      | cons _ _ vs ws h1 h2 h3 =>
        rw [List.length_append] at hpl
        rw [eafOptions, if_neg (by omega), readNums_ok hs h1 (by omega) h2]
        dsimp only
        rw [ih _ ws ls h3 hl (by simp; omega) (by exact hll)]
        simp [eafFinal, verboseStep, EafArg.output?, EafArg.indices?, EafArg.diff?, List.filterMap_cons]
    | level str =>
      rw [show (EafArg.level str :: args).filterMap EafArg.level? = str :: args.filterMap EafArg.level? from by simp [EafArg.level?]] at hl
      cases hl with
      | cons _ _ vs ws h1 h2 h3 =>
        rw [List.length_append] at hll
        rw [eafOptions, if_neg (by omega), readNums_ok hi h1 (by omega) h2]
        dsimp only
        rw [ih _ ps ws hp h3 (by exact hpl) (by simp; omega)]
        simp [eafFinal, verboseStep, EafArg.output?, EafArg.indices?, EafArg.diff?, List.filterMap_cons]
    | output name =>
      rw [eafOptions, ih _ ps ls hp hl (by exact hpl) (by exact hll)]
      simp [eafFinal, verboseStep, EafArg.output?, EafArg.indices?, EafArg.diff?, List.filterMap_cons, coordStep]
    | indices name =>
      cases name with
      | none =>
        rw [eafOptions, ih _ ps ls hp hl (by exact hpl) (by exact hll)]
        simp [eafFinal, verboseStep, EafArg.output?, EafArg.indices?, EafArg.diff?, List.filterMap_cons, nameStep]
      | some f =>
        rw [eafOptions, ih _ ps ls hp hl (by split_ifs <;> exact hpl) (by split_ifs <;> exact hll)]
        by_cases hf : f = ['-'] <;> simp [eafFinal, verboseStep, EafArg.output?, EafArg.indices?, EafArg.diff?, List.filterMap_cons, nameStep, hf]
    | diff name =>
      cases name with
      | none =>
        rw [eafOptions, ih _ ps ls hp hl (by exact hpl) (by exact hll)]
        simp [eafFinal, verboseStep, EafArg.output?, EafArg.indices?, EafArg.diff?, List.filterMap_cons, nameStep]
      | some f =>
        rw [eafOptions, ih _ ps ls hp hl (by split_ifs <;> exact hpl) (by split_ifs <;> exact hll)]
        by_cases hf : f = ['-'] <;> simp [eafFinal, verboseStep, EafArg.output?, EafArg.indices?, EafArg.diff?, List.filterMap_cons, nameStep, hf]

/-- The total length of the arguments of `-p` and `-l`. -/
def argLength (args : List EafArg) : ℕ := ((args.filterMap EafArg.percentile?).map List.length).sum + ((args.filterMap EafArg.level?).map List.length).sum

theorem SepNumbers.length_le {V : Type*} {scan : NumScan V} (hs : ScanOk scan) {str : List Char} {vs : List V} (h : SepNumbers scan str vs) : vs.length ≤ str.length := by
  induction h with
  | nil l _ => simp
  | num l r v vs h1 _ ih =>
    have hlen := (hs.suffix _ _ _ h1).2
    have hl2 := dropWhile_length_le isSpaceC l
    rw [List.length_cons]
    omega
  | sep c l vs _ _ _ ih => rw [List.length_cons]; omega

/-- An argument that is not a list of numbers makes the program exit. -/
theorem eafOptions_err (env : EafMainEnv K) (hs : ScanOk env.scan) (hi : ScanOk env.scanInt) : ∀ (args : List EafArg) (st : EafMainSt K),
    st.percentiles.length + argLength args < maxLevels → st.levels.length + argLength args < maxLevels →
    ((∃ str, EafArg.percentile str ∈ args ∧ ¬ ∃ vs, vs ≠ [] ∧ SepNumbers env.scan str vs) ∨ ∃ str, EafArg.level str ∈ args ∧ ¬ ∃ vs, vs ≠ [] ∧ SepNumbers env.scanInt str vs) →
    eafOptions env st args = .exit 1 := by
  intro args
  induction args with
  | nil => rintro st _ _ (⟨str, h, _⟩ | ⟨str, h, _⟩) <;> simp at h
  | cons a args ih =>
    intro st hp hl h
    have hsum : ∀ b : EafArg, argLength (b :: args) = (match b with | .percentile s => s.length | .level s => s.length | _ => 0) + argLength args := by
      intro b
      cases b <;> simp [argLength, EafArg.percentile?, EafArg.level?, List.filterMap_cons] <;> omega
    rw [hsum] at hp hl
    cases a with
    | percentile str =>
      dsimp only at hp hl
      rw [eafOptions, if_neg (by omega)]
      by_cases hgood : ∃ vs, vs ≠ [] ∧ SepNumbers env.scan str vs
      · obtain ⟨vs, g1, g2⟩ := hgood
        have := g2.length_le hs
        rw [readNums_ok hs g2 (by omega) g1]
        dsimp only
        refine ih _ (by simp; omega) (by simp; omega) ?_
        rcases h with ⟨s, h, hb⟩ | ⟨s, h, hb⟩
        · rcases List.mem_cons.1 h with h | h
          · cases h
            exact absurd ⟨vs, g1, g2⟩ hb
          · exact Or.inl ⟨s, h, hb⟩
        · exact Or.inr ⟨s, by simpa using h, hb⟩
      · rw [readNums_err hs hgood (by omega)]
    | level str =>
      dsimp only at hp hl
      rw [eafOptions, if_neg (by omega)]
      by_cases hgood : ∃ vs, vs ≠ [] ∧ SepNumbers env.scanInt str vs
      · obtain ⟨vs, g1, g2⟩ := hgood
        have := g2.length_le hi
        rw [readNums_ok hi g2 (by omega) g1]
        dsimp only
        refine ih _ (by simp; omega) (by simp; omega) ?_
        rcases h with ⟨s, h, hb⟩ | ⟨s, h, hb⟩
        · exact Or.inl ⟨s, by simpa using h, hb⟩
        · rcases List.mem_cons.1 h with h | h
          · cases h
            exact absurd ⟨vs, g1, g2⟩ hb
          · exact Or.inr ⟨s, h, hb⟩
      · rw [readNums_err hi hgood (by omega)]
    | best => rw [eafOptions]; exact ih _ (by simpa using hp) (by simpa using hl) (by simpa using h)
    | median => rw [eafOptions]; exact ih _ (by simpa using hp) (by simpa using hl) (by simpa using h)
    | worst => rw [eafOptions]; exact ih _ (by simpa using hp) (by simpa using hl) (by simpa using h)
    | quiet => rw [eafOptions]; exact ih _ (by simpa using hp) (by simpa using hl) (by simpa using h)
    | verbose => rw [eafOptions]; exact ih _ (by simpa using hp) (by simpa using hl) (by simpa using h)
    | output name => rw [eafOptions]; exact ih _ (by simpa using hp) (by simpa using hl) (by simpa using h)
    | indices name =>
      cases name with
      | none => rw [eafOptions]; exact ih _ (by simpa using hp) (by simpa using hl) (by simpa using h)
      | some f => rw [eafOptions]; exact ih _ (by split_ifs <;> simpa using hp) (by split_ifs <;> simpa using hl) (by simpa using h)
    | diff name =>
      cases name with
      | none => rw [eafOptions]; exact ih _ (by simpa using hp) (by simpa using hl) (by simpa using h)
      | some f => rw [eafOptions]; exact ih _ (by split_ifs <;> simpa using hp) (by split_ifs <;> simpa using hl) (by simpa using h)

theorem nameStep_last (l : List (Option (List Char))) :
    (l.getLast? = none → l.foldl nameStep (none, none) = (none, none)) ∧ (l.getLast? = some none → l.foldl nameStep (none, none) = (some .stdin, none)) ∧
    (l.getLast? = some (some ['-']) → l.foldl nameStep (none, none) = (some .stdout, none)) ∧
    ∀ f, l.getLast? = some (some f) → f ≠ ['-'] → ∃ x, l.foldl nameStep (none, none) = (x, some f) := by
  rcases List.eq_nil_or_concat l with rfl | ⟨l', a, rfl⟩
  · simp
  · simp only [List.concat_eq_append, List.getLast?_append, List.getLast?_singleton, Option.some_or, List.foldl_append, List.foldl_cons, List.foldl_nil, reduceCtorEq, false_implies, true_and,
      Option.some.injEq]
    refine ⟨?_, ?_, ?_⟩
    · rintro rfl; rfl
    · rintro rfl; rfl
    · rintro f rfl hf
      exact ⟨_, by rw [nameStep, if_neg hf]⟩

theorem coordStep_last (l : List (List Char)) : l.foldl coordStep none = l.getLast?.bind fun f => if f = ['-'] then none else some f := by
  rcases List.eq_nil_or_concat l with rfl | ⟨l', a, rfl⟩
  · rfl
  · simp [coordStep]

/-- The streams are those that the options ask for. -/
theorem eafStreams_eq (args : List EafArg) (hd : NamesDiffer args) (ps : List K) (ls : List ℤ) :
    eafStreams (eafFinal ⟨true, false, false, false, [], [], none, none, none, none, none⟩ args ps ls) = (pointsTo args, indicesTo args, countsTo args) := by
  obtain ⟨hd1, hd2⟩ := hd
  have hco : (match (args.filterMap EafArg.output?).foldl coordStep none with | some f => OutStream.file f | none => .stdout) = pointsTo args := by
    rw [coordStep_last]
    unfold pointsTo
    cases (args.filterMap EafArg.output?).getLast? with
    | none => rfl
    | some f => by_cases hf : f = ['-'] <;> simp [streamOf, hf]
  have hcf : ∀ f, pointsTo args ≠ .file f → (args.filterMap EafArg.output?).foldl coordStep none ≠ some f := by
    intro f h1 h2
    rw [h2] at hco
    exact h1 hco.symm
  unfold eafStreams eafFinal
  dsimp only
  unfold indicesTo countsTo
  obtain ⟨i1, i2, i3, i4⟩ := nameStep_last (args.filterMap EafArg.indices?)
  obtain ⟨d1, d2, d3, d4⟩ := nameStep_last (args.filterMap EafArg.diff?)
  have ho : ∀ x, optionTo args x = (match x with | none => none | some none => some (pointsTo args) | some (some name) => some (streamOf name)) := by
    intro x; cases x with
    | none => rfl
    | some y => cases y <;> rfl
  rw [ho, ho]
  generalize (args.filterMap EafArg.output?).foldl coordStep none = co at *
  generalize (args.filterMap EafArg.indices?).foldl nameStep (none, none) = I at *
  generalize (args.filterMap EafArg.diff?).foldl nameStep (none, none) = D at *
  generalize (args.filterMap EafArg.indices?).getLast? = il at *
  generalize (args.filterMap EafArg.diff?).getLast? = dl at *
  generalize pointsTo args = P at *
  clear ho
  have hI : il = none ∧ I = (none, none) ∨ il = some none ∧ I = (some .stdin, none) ∨ il = some (some ['-']) ∧ I = (some .stdout, none) ∨
      ∃ f x, f ≠ ['-'] ∧ il = some (some f) ∧ I = (x, some f) := by
    rcases il with _ | _ | f
    · exact Or.inl ⟨rfl, i1 rfl⟩
    · exact Or.inr (Or.inl ⟨rfl, i2 rfl⟩)
    · by_cases hf : f = ['-']
      · subst hf; exact Or.inr (Or.inr (Or.inl ⟨rfl, i3 rfl⟩))
      · obtain ⟨x, hx⟩ := i4 f rfl hf
        exact Or.inr (Or.inr (Or.inr ⟨f, x, hf, rfl, hx⟩))
  have hD : dl = none ∧ D = (none, none) ∨ dl = some none ∧ D = (some .stdin, none) ∨ dl = some (some ['-']) ∧ D = (some .stdout, none) ∨
      ∃ f x, f ≠ ['-'] ∧ dl = some (some f) ∧ D = (x, some f) := by
    rcases dl with _ | _ | f
    · exact Or.inl ⟨rfl, d1 rfl⟩
    · exact Or.inr (Or.inl ⟨rfl, d2 rfl⟩)
    · by_cases hf : f = ['-']
      · subst hf; exact Or.inr (Or.inr (Or.inl ⟨rfl, d3 rfl⟩))
      · obtain ⟨x, hx⟩ := d4 f rfl hf
        exact Or.inr (Or.inr (Or.inr ⟨f, x, hf, rfl, hx⟩))
  clear i1 i2 i3 i4 d1 d2 d3 d4
  have h1 : ∀ f, f ≠ ['-'] → il = some (some f) → co ≠ some f := fun f hf h => hcf f (hd1 f h hf)
  have h2 : ∀ f, f ≠ ['-'] → dl = some (some f) → co ≠ some f := fun f hf h => hcf f (hd2 f h hf).1
  have h3 : ∀ f, f ≠ ['-'] → dl = some (some f) → il ≠ some (some f) := fun f hf h => (hd2 f h hf).2
  clear hd1 hd2 hcf
  subst hco
  rcases hI with ⟨rfl, rfl⟩ | ⟨rfl, rfl⟩ | ⟨rfl, rfl⟩ | ⟨f, x, hf, rfl, rfl⟩ <;> rcases hD with ⟨rfl, rfl⟩ | ⟨rfl, rfl⟩ | ⟨rfl, rfl⟩ | ⟨g, y, hg, rfl, rfl⟩
  all_goals first
    | (have e1 := h2 g hg rfl
       have e2 := h3 g hg rfl
       first
         | (have e3 := h1 f hf rfl
            simp only [ne_eq, Option.some.injEq] at e2
            cases co <;> simp_all [streamOf])
         | (cases co <;> simp_all [streamOf]))
    | (have e3 := h1 f hf rfl
       cases co <;> simp_all [streamOf])
    | (cases co <;> simp_all [streamOf])

end options

end Moo
