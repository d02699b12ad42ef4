import Verif.Lemmas.FsMain
import Verif.Props.CommandLine

/-!
# C94: the program `nondominated` with its files
-/

set_option autoImplicit false
set_option linter.unusedSectionVars false

namespace Moo

/-- The texts of the files, each with its destination. -/
def tagTexts (dest : ℕ → Option ℕ) : ℕ → List (Option (List Char)) → List (Option ℕ × List Char)
  | _, [] => []
  | k, w :: ws => (w.toList.map fun t => (dest k, t)) ++ tagTexts dest (k + 1) ws

theorem tagTexts_lookup_lt (ws : List (Option (List Char))) : ∀ (k j : ℕ), j < k → (tagTexts some k ws).lookup (some j) = none := by
  induction ws with
  | nil => intro k j _; rfl
  | cons w ws ih =>
    intro k j h
    have hne : j ≠ k := by omega
    cases w with
    | none => simpa [tagTexts] using ih (k + 1) j (by omega)
    | some t =>
      have hb : ((some j : Option ℕ) == some k) = false := by simp [hne]
      show List.lookup (some j) ((some k, t) :: tagTexts some (k + 1) ws) = none
      rw [List.lookup_cons, hb]
      exact ih (k + 1) j (by omega)

theorem tagTexts_lookup (ws : List (Option (List Char))) : ∀ (k j : ℕ), (tagTexts some k ws).lookup (some (k + j)) = ws[j]?.join := by
  induction ws with
  | nil => intro k j; rfl
  | cons w ws ih =>
    intro k j
    cases j with
    | zero =>
      cases w with
      | none => simpa [tagTexts] using tagTexts_lookup_lt ws (k + 1) k (by omega)
      | some t => simp [tagTexts]
    | succ j =>
      have hih := ih (k + 1) j
      rw [show k + 1 + j = k + (j + 1) by omega] at hih
      cases w with
      | none => simpa [tagTexts] using hih
      | some t =>
        have hb : ((some (k + (j + 1)) : Option ℕ) == some k) = false := by simp
        show List.lookup (some (k + (j + 1))) ((some k, t) :: tagTexts some (k + 1) ws) = _
        rw [List.lookup_cons, hb]
        simpa using hih

/-- The loop over the files for a program that writes texts. -/
theorem runFiles_texts {σ : Type*} (step : σ → List Char → FileStep σ (List Char)) (final : σ → ℕ) (suffix : Word) (names : List Word) (texts : List (List Char)) (s : σ) (files : Files)
    (hc : Contents files names texts) (hn : names.Nodup) (hs : NoClobber names suffix) (p : ProgOut (Option ℕ × List Char))
    (h : p = match pureFiles step final s texts with
      | none => .undefined
      | some (status, ws) => .exit status (tagTexts some 0 ws)) :
    TextsOutcome names suffix files p (runFiles step final id (fun name => some (name ++ suffix)) s names ([], files)) := by
  subst h
  have hpw : names.Pairwise fun f g => (fun name : Word => some (name ++ suffix)) f ≠ some g := by
    refine hs.imp ?_
    intro f g hfg e
    exact hfg (Option.some.inj e)
  rw [runFiles_eq step final id _ names texts s ([], files) hc hpw]
  rcases pureFiles step final s texts with _ | ⟨status, ws⟩
  · rfl
  · refine ⟨_, by simp only; rw [emits_stdout_none], ?_⟩
    have h1 := emits_written id suffix names ws ([], files) hn
    have h2 : (fun k => (tagTexts some 0 ws).lookup (some k)) = fun k => (ws[k]?.join).map id := by
      funext k
      have := tagTexts_lookup ws 0 k
      simpa using this
    simp only [h2]
    exact h1

/-- If the program writes nothing for any file, no file changes. -/
theorem runFiles_silent {σ : Type*} (step : σ → List Char → FileStep σ (List Char)) (final : σ → ℕ) (dest : Word → Option Word)
    (hw : ∀ s t x, step s t ≠ .exit (some x) ∧ ∀ s', step s t ≠ .done s' (some x)) (names : List Word) : ∀ (s : σ) (out : List Char × Files) (status : ℕ) (stdout : List Char) (files : Files),
    runFiles step final id dest s names out = .exit status stdout files → stdout = out.1 ∧ files = out.2 := by
  induction names with
  | nil => intro s out status stdout files h; simp only [runFiles, RunOut.exit.injEq] at h; exact ⟨h.2.1.symm, h.2.2.symm⟩
  | cons name names ih =>
    intro s out status stdout files h
    rw [runFiles] at h
    cases hf : out.2 name with
    | none => rw [hf] at h; simp only [RunOut.exit.injEq] at h; exact ⟨h.2.1.symm, h.2.2.symm⟩
    | some text =>
      rw [hf] at h
      simp only at h
      cases hst : step s text with
      | undefined => rw [hst] at h; simp at h
      | exit w =>
        rw [hst] at h
        cases w with
        | none => simp only [emit, RunOut.exit.injEq] at h; exact ⟨h.2.1.symm, h.2.2.symm⟩
        | some x => exact absurd hst (hw s text x).1
      | done s' w =>
        rw [hst] at h
        cases w with
        | none => exact ih s' out status stdout files h
        | some x => exact absurd hst ((hw s text x).2 s')

section
variable {K : Type*} [Field K] [LinearOrder K]

theorem ndFiles_pure (env : NdEnv K) (st : NdSt K) (lbound ubound : Option (ℕ → K)) (cmin cmax : Bool) (dest : ℕ → Option ℕ) (texts : List (List Char)) : ∀ (dominated : Bool) (dim k : ℕ),
    ndFiles env st lbound ubound cmin cmax dest dominated dim k texts =
      match pureFiles (ndStep env st lbound ubound cmin cmax dest) (fun s => if s.1 then 1 else 0) (dominated, dim, k) texts with
      | none => .undefined
      | some (status, ws) => .exit status (tagTexts dest k ws) := by
  induction texts with
  | nil => intro dominated dim k; rfl
  | cons text texts ih =>
    intro dominated dim k
    rw [ndFiles, pureFiles, ndStep]
    cases ndFile env st lbound ubound cmin cmax dim (dest k) text with
    | undefined => rfl
    | exit => rfl
    | done d written dim =>
      simp only [ih]
      rcases pureFiles (ndStep env st lbound ubound cmin cmax dest) (fun s => if s.1 then 1 else 0) (d || dominated, dim, k + 1) texts with _ | ⟨status, ws⟩ <;> rfl

theorem ndFileBoundsFs_eq (env : NdEnv K) (files : Files) (names : List Word) (texts : List (List Char)) (h : Contents files names texts) : ∀ minimum maximum dim,
    ndFileBoundsFs env files minimum maximum dim names = ndFileBounds env minimum maximum dim texts := by
  induction h with
  | nil => intro minimum maximum dim; rfl
  | @cons name text names texts h1 h2 ih =>
    intro minimum maximum dim
    rw [ndFileBoundsFs, ndFileBounds, h1]
    simp only
    rcases readFile env.scan dim text with _ | _ | out
    · rfl
    · rfl
    · exact ih _ _ _

theorem ndFileBoundsFs_reads (env : NdEnv K) (files files' : Files) (names : List Word) (h : ∀ n ∈ names, files n = files' n) : ∀ minimum maximum dim,
    ndFileBoundsFs env files minimum maximum dim names = ndFileBoundsFs env files' minimum maximum dim names := by
  induction names with
  | nil => intro minimum maximum dim; rfl
  | cons name names ih =>
    intro minimum maximum dim
    rw [ndFileBoundsFs, ndFileBoundsFs, h name (by simp)]
    cases files' name with
    | none => rfl
    | some text =>
      simp only
      rcases readFile env.scan dim text with _ | _ | out
      · rfl
      · rfl
      · exact ih (fun n hn => h n (by simp [hn])) _ _ _

theorem ndFileBoundsFs_missing (env : NdEnv K) (files : Files) (missing : Word) (hm : files missing = none) (names : List Word) (hmem : missing ∈ names) : ∀ minimum maximum dim r,
    ndFileBoundsFs env files minimum maximum dim names ≠ some (some r) := by
  induction names with
  | nil => simp at hmem
  | cons name names ih =>
    intro minimum maximum dim r h
    rw [ndFileBoundsFs] at h
    cases hf : files name with
    | none => rw [hf] at h; simp at h
    | some text =>
      rw [hf] at h
      simp only at h
      have hmem' : missing ∈ names := by
        rcases List.mem_cons.1 hmem with rfl | h1
        · rw [hm] at hf; simp at hf
        · exact h1
      rcases hr : readFile env.scan dim text with _ | _ | out
      · rw [hr] at h; simp at h
      · rw [hr] at h; simp at h
      · rw [hr] at h; exact ih hmem' _ _ _ _ h

theorem ndRunFs_eq (env : NdEnv K) (st : NdSt K) (suffix : Word) (lower upper : Option (ℕ → K)) (stdin : List Char) (files : Files) (names : List Word) (hn : names ≠ []) (texts : List (List Char))
    (hc : Contents files names texts) (hd : names.Nodup) (hs : NoClobber names suffix) :
    TextsOutcome names suffix files (ndRun env st lower upper stdin texts) (ndRunFs env st suffix lower upper stdin files names) := by
  have key : ∀ lo up cmin cmax dim, TextsOutcome names suffix files (ndFiles env st lo up cmin cmax some false dim 0 texts)
      (runFiles (ndStep env st lo up cmin cmax some) (fun s => if s.1 then 1 else 0) id (fun name => some (name ++ suffix)) (false, dim, 0) names ([], files)) := by
    intro lo up cmin cmax dim
    exact runFiles_texts _ _ suffix names texts _ files hc hd hs _ (ndFiles_pure env st lo up cmin cmax some texts false dim 0)
  cases hc with
  | nil => exact absurd rfl hn
  | @cons name text names texts h1 h2 =>
    cases h2 with
    | nil => exact key _ _ _ _ _
    | @cons name' text' names texts h3 h4 =>
      unfold ndRunFs ndRun
      simp only
      by_cases hb : (lower.isNone || upper.isNone) = true
      · rw [if_pos hb, if_pos hb, ndFileBoundsFs_eq env files _ (text :: text' :: texts) (.cons h1 (.cons h3 h4))]
        rcases ndFileBounds env none none st.dim (text :: text' :: texts) with _ | _ | ⟨mn, mx, dim⟩
        · rfl
        · exact ⟨files, rfl, ⟨by simp, by simp⟩⟩
        · exact key _ _ _ _ _
      · rw [if_neg hb, if_neg hb]
        exact key _ _ _ _ _

theorem ndRunFs_stdin (env : NdEnv K) (st : NdSt K) (suffix : Word) (lower upper : Option (ℕ → K)) (stdin : List Char) (files : Files) :
    ndRunFs env st suffix lower upper stdin files [] = textsRun files (ndRun env st lower upper stdin []) := by
  rw [ndRunFs, ndRun, ndFiles_pure]
  simp only [pureFiles, runStdin]
  cases ndStep env st lower upper true true (fun _ => none) (false, st.dim, 0) stdin with
  | undefined => rfl
  | exit w => cases w <;> simp [textsRun, tagTexts, emit]
  | done s w => cases w <;> simp [textsRun, tagTexts, emit]

theorem ndRunFs_cases (env : NdEnv K) (st : NdSt K) (suffix : Word) (lower upper : Option (ℕ → K)) (stdin : List Char) (files : Files) (names : List Word) (status : ℕ) (out : List Char) (files' : Files)
    (h : ndRunFs env st suffix lower upper stdin files names = .exit status out files') :
    (names = [] ∧ runStdin (ndStep env st lower upper true true fun _ => none) (fun s => if s.1 then 1 else 0) id (false, st.dim, 0) stdin files = .exit status out files') ∨
      (status = 1 ∧ out = [] ∧ files' = files) ∨
      ∃ lo up cmin cmax dim, runFiles (ndStep env st lo up cmin cmax some) (fun s => if s.1 then 1 else 0) id (fun name => some (name ++ suffix)) (false, dim, 0) names ([], files) =
        .exit status out files' := by
  match names, h with
  | [], h => exact Or.inl ⟨rfl, h⟩
  | [name], h => exact Or.inr (Or.inr ⟨_, _, _, _, _, h⟩)
  | name :: name' :: names, h =>
    unfold ndRunFs at h
    simp only at h
    by_cases hb : (lower.isNone || upper.isNone) = true
    · rw [if_pos hb] at h
      rcases hf : ndFileBoundsFs env files none none st.dim (name :: name' :: names) with _ | _ | ⟨mn, mx, dim⟩
      · rw [hf] at h; simp at h
      · rw [hf] at h
        simp only [RunOut.exit.injEq] at h
        exact Or.inr (Or.inl ⟨h.1.symm, h.2.1.symm, h.2.2.symm⟩)
      · rw [hf] at h; exact Or.inr (Or.inr ⟨_, _, _, _, _, h⟩)
    · rw [if_neg hb] at h
      exact Or.inr (Or.inr ⟨_, _, _, _, _, h⟩)

theorem ndRunFs_reads (env : NdEnv K) (st : NdSt K) (suffix : Word) (lower upper : Option (ℕ → K)) (stdin stdin' : List Char) (files files' : Files) (names : List Word)
    (h1 : names = [] → stdin = stdin') (h2 : ∀ n ∈ names, files n = files' n) :
    SameRun (ndRunFs env st suffix lower upper stdin files names) (ndRunFs env st suffix lower upper stdin' files' names) := by
  match names, h1, h2 with
  | [], h1, _ => rw [h1 rfl]; exact runStdin_reads _ _ _ _ _ _ _
  | [name], _, h2 => exact runFiles_reads _ _ _ _ (fun n => n ∈ [name]) _ _ _ _ rfl (fun n hn => hn) h2
  | name :: name' :: names, _, h2 =>
    unfold ndRunFs
    simp only
    by_cases hb : (lower.isNone || upper.isNone) = true
    · rw [if_pos hb, if_pos hb, ndFileBoundsFs_reads env files files' _ h2]
      rcases ndFileBoundsFs env files' none none st.dim (name :: name' :: names) with _ | _ | ⟨mn, mx, dim⟩
      · trivial
      · exact ⟨rfl, rfl⟩
      · exact runFiles_reads _ _ _ _ (fun n => n ∈ name :: name' :: names) _ _ _ _ rfl (fun n hn => hn) h2
    · rw [if_neg hb, if_neg hb]
      exact runFiles_reads _ _ _ _ (fun n => n ∈ name :: name' :: names) _ _ _ _ rfl (fun n hn => hn) h2

/-! ### The options -/

/-- The options of `nondominated` that have a meaning for its `main` on contents. -/
def ndArgs (os : List (NdOpt × Option Word)) : List NdArg := os.filterMap fun o =>
  match o with
  | (.noCheck, _) => some .noCheck
  | (.filter, _) => some .filter
  | (.forceBounds, _) => some .forceBounds
  | (.union, _) => some .union
  | (.maximise, _) => some .maximise
  | (.obj, some str) => some (.obj str)
  | (.agree, some str) => some (.agree str)
  | (.normalise, some str) => some (.normalise str)
  | (.upper, some str) => some (.upper str)
  | (.lower, some str) => some (.lower str)
  | (.log, some str) => some (.log str)
  | _ => none

/-- The suffix of the output files. -/
def ndSuffix (os : List (NdOpt × Option Word)) : Word := (lastArg .suffix os).getD "_dat".toList

theorem ndOptions_snoc (env : NdEnv K) (args : List NdArg) (a : NdArg) : ∀ st, ndOptions env st (args ++ [a]) = match ndOptions env st args with
    | .undefined => .undefined
    | .exit status => .exit status
    | .ok st => ndOptions env st [a] := by
  induction args with
  | nil => intro st; rfl
  | cons b args ih =>
    intro st
    cases b with
    | noCheck => exact ih _
    | filter => exact ih _
    | forceBounds => exact ih _
    | union => exact ih _
    | maximise => exact ih _
    | obj str =>
      rw [List.cons_append, ndOptions, ndOptions]
      cases readMinmax env.junk str st.dim with
      | null => rfl
      | exit => rfl
      | ok minmax nobj => exact ih _
    | agree str =>
      rw [List.cons_append, ndOptions, ndOptions]
      by_cases h1 : str = ['m', 'a', 'x']
      · rw [if_pos h1, if_pos h1]; exact ih _
      · rw [if_neg h1, if_neg h1]
        by_cases h2 : str = ['m', 'i', 'n']
        · rw [if_pos h2, if_pos h2]; exact ih _
        · rw [if_neg h2, if_neg h2]
    | normalise str =>
      rw [List.cons_append, ndOptions, ndOptions]
      rcases readRange env.scan str with _ | ⟨lower, upper⟩
      · rfl
      · simp only
        by_cases h : lower ≥ upper
        · rw [if_pos h, if_pos h]
        · rw [if_neg h, if_neg h]; exact ih _
    | upper str =>
      rw [List.cons_append, ndOptions, ndOptions]
      rcases readPoint env.scan str with _ | _ | point
      · rfl
      · rfl
      · exact ih _
    | lower str =>
      rw [List.cons_append, ndOptions, ndOptions]
      rcases readPoint env.scan str with _ | _ | point
      · rfl
      · rfl
      · exact ih _
    | log str =>
      rw [List.cons_append, ndOptions, ndOptions]
      rcases readBitvector str with _ | bits
      · rfl
      · exact ih _

/-- The state after the options. -/
def ndCliEnd (suffix : Word) : NdRes K → CliStep (NdCli K)
  | .undefined => .undefined
  | .exit status => .exit status []
  | .ok st => .next ⟨st, suffix⟩

theorem ndCli_flag (step : NdCli K → NdOpt × Option Word → CliStep (NdCli K)) (o : NdOpt × Option Word) (suf suf' : Word) (h : ∀ st, step ⟨st, suf⟩ o = .next ⟨st, suf'⟩) (R : NdRes K) :
    (andThen (ndCliEnd suf R) fun s => cliSteps step s [o]) = ndCliEnd suf' R := by
  cases R with
  | undefined => rfl
  | exit status => rfl
  | ok st => simp [ndCliEnd, andThen, cliSteps, h]

theorem ndCli_arg (env : NdEnv K) (step : NdCli K → NdOpt × Option Word → CliStep (NdCli K)) (o : NdOpt × Option Word) (suf : Word) (b : NdArg) (h : ∀ st, step ⟨st, suf⟩ o = ndCliArg env ⟨st, suf⟩ b)
    (st₀ : NdSt K) (args : List NdArg) : (andThen (ndCliEnd suf (ndOptions env st₀ args)) fun s => cliSteps step s [o]) = ndCliEnd suf (ndOptions env st₀ (args ++ [b])) := by
  rw [ndOptions_snoc]
  cases ndOptions env st₀ args with
  | undefined => rfl
  | exit status => rfl
  | ok st =>
    simp only [ndCliEnd, andThen, cliSteps, h, ndCliArg]
    cases ndOptions env st [b] <;> rfl

/-- Every option that must have an argument has one. -/
def NdArgsGiven (os : List (NdOpt × Option Word)) : Prop :=
  ∀ i, i = NdOpt.obj ∨ i = NdOpt.agree ∨ i = NdOpt.normalise ∨ i = NdOpt.upper ∨ i = NdOpt.lower ∨ i = NdOpt.log ∨ i = NdOpt.suffix → (i, none) ∉ os

theorem nd_required : ∀ d ∈ withoutLetters ['m', 'L'] ndUsage ++ ndExtra,
    d.id = NdOpt.obj ∨ d.id = NdOpt.agree ∨ d.id = NdOpt.normalise ∨ d.id = NdOpt.upper ∨ d.id = NdOpt.lower ∨ d.id = NdOpt.log ∨ d.id = NdOpt.suffix → d.arg = .required := by decide +kernel

theorem nd_given (argv : List Word) : NdArgsGiven (cliParse ndTable ndCases argv).1 := by
  intro i hi h
  obtain ⟨d, hd, h1, h2, -⟩ := C93_nondominated_args argv i none h
  exact h2 (nd_required d hd (by rw [h1]; exact hi)) rfl

theorem ndCli_steps (env : NdEnv K) (t : CliTexts) (os : List (NdOpt × Option Word)) (hh : hasOpt .help os = false) (hv : hasOpt .version os = false) (hg : NdArgsGiven os) :
    cliSteps (ndCliStep env t) ⟨ndInit, "_dat".toList⟩ os = ndCliEnd (ndSuffix os) (ndOptions env ndInit (ndArgs os)) := by
  induction os using List.reverseRecOn with
  | nil => rfl
  | append_singleton os o ih =>
    obtain ⟨i, a⟩ := o
    rw [hasOpt_append, Bool.or_eq_false_iff] at hh hv
    have h1 := ih hh.1 hv.1 (fun i hi h => hg i hi (by simp [h]))
    have hsuf : i ≠ .suffix → ndSuffix (os ++ [(i, a)]) = ndSuffix os := by
      intro hi
      rw [ndSuffix, lastArg_append, if_neg hi, ndSuffix]
    rw [cliSteps_append, h1]
    have hargs : ndArgs (os ++ [(i, a)]) = ndArgs os ++ ndArgs [(i, a)] := by simp [ndArgs]
    rw [hargs]
    have hflag : i ≠ .suffix → (∀ c, ndCliStep env t c (i, a) = .next c) → ndArgs [(i, a)] = [] →
        (andThen (ndCliEnd (ndSuffix os) (ndOptions env ndInit (ndArgs os))) fun s => cliSteps (ndCliStep env t) s [(i, a)]) =
          ndCliEnd (ndSuffix (os ++ [(i, a)])) (ndOptions env ndInit (ndArgs os ++ ndArgs [(i, a)])) := by
      intro hi hc ha
      rw [hsuf hi, ha, List.append_nil]
      exact ndCli_flag _ _ _ _ (fun st => hc _) _
    have harg : ∀ b, i ≠ .suffix → (∀ c, ndCliStep env t c (i, a) = ndCliArg env c b) → ndArgs [(i, a)] = [b] →
        (andThen (ndCliEnd (ndSuffix os) (ndOptions env ndInit (ndArgs os))) fun s => cliSteps (ndCliStep env t) s [(i, a)]) =
          ndCliEnd (ndSuffix (os ++ [(i, a)])) (ndOptions env ndInit (ndArgs os ++ ndArgs [(i, a)])) := by
      intro b hi hc ha
      rw [hsuf hi, ha]
      exact ndCli_arg env _ _ _ b (fun st => hc _) _ _
    have hnone : ∀ j, i = j → (j = NdOpt.obj ∨ j = NdOpt.agree ∨ j = NdOpt.normalise ∨ j = NdOpt.upper ∨ j = NdOpt.lower ∨ j = NdOpt.log ∨ j = NdOpt.suffix) → a ≠ none := by
      rintro j rfl hj rfl
      exact hg i hj (by simp)
    cases i with
    | help => simp at hh
    | version => simp at hv
    | verbose => exact hflag (by simp) (fun c => rfl) rfl
    | quiet => exact hflag (by simp) (fun c => rfl) rfl
    | noCheck => exact harg .noCheck (by simp) (fun c => rfl) rfl
    | filter => exact harg .filter (by simp) (fun c => rfl) rfl
    | forceBounds => exact harg .forceBounds (by simp) (fun c => rfl) rfl
    | union => exact harg .union (by simp) (fun c => rfl) rfl
    | maximise => exact harg .maximise (by simp) (fun c => rfl) rfl
    | obj => cases a with | none => exact absurd rfl (hnone _ rfl (by simp)) | some str => exact harg (.obj str) (by simp) (fun c => rfl) rfl
    | agree => cases a with | none => exact absurd rfl (hnone _ rfl (by simp)) | some str => exact harg (.agree str) (by simp) (fun c => rfl) rfl
    | normalise => cases a with | none => exact absurd rfl (hnone _ rfl (by simp)) | some str => exact harg (.normalise str) (by simp) (fun c => rfl) rfl
    | upper => cases a with | none => exact absurd rfl (hnone _ rfl (by simp)) | some str => exact harg (.upper str) (by simp) (fun c => rfl) rfl
    | lower => cases a with | none => exact absurd rfl (hnone _ rfl (by simp)) | some str => exact harg (.lower str) (by simp) (fun c => rfl) rfl
    | log => cases a with | none => exact absurd rfl (hnone _ rfl (by simp)) | some str => exact harg (.log str) (by simp) (fun c => rfl) rfl
    | suffix =>
      cases a with
      | none => exact absurd rfl (hnone _ rfl (by simp))
      | some s =>
        rw [show ndArgs [(NdOpt.suffix, some s)] = [] from rfl, List.append_nil, ndSuffix, ndSuffix, lastArg_append]
        simp only [if_pos, Option.getD_some]
        exact ndCli_flag _ _ _ _ (fun st => rfl) _

/-- `main` after the options. -/
def ndTailFs (env : NdEnv K) (st : NdSt K) (suffix : Word) (names : List Word) (stdin : List Char) (files : Files) : RunOut :=
  let lower := st.lower.map arrayFn
  let upper := st.upper.map arrayFn
  if st.lower.isSome && st.upper.isSome && (st.lower.any (fun l => decide (l.length < st.dim)) || st.upper.any (fun u => decide (u.length < st.dim))) then .undefined
  else if lower.any fun l => upper.any fun u => anyLessThan u l st.dim then .exit 1 [] files
  else ndRunFs env st suffix lower upper stdin files names

theorem ndProgram_run (env : NdEnv K) (t : CliTexts) (argv : List Word) (os : List (NdOpt × Option Word)) (names : List Word) (h : CmdLine (withoutLetters ['m', 'L'] ndUsage ++ ndExtra) argv os names)
    (hh : hasOpt .help os = false) (hv : hasOpt .version os = false) (stdin : List Char) (files : Files) :
    ndProgram env t argv stdin files = match ndOptions env ndInit (ndArgs os) with
      | .undefined => .undefined
      | .exit status => .exit status [] files
      | .ok st => ndTailFs env st (ndSuffix os) names stdin files := by
  have hp := (C93_nondominated argv os names).2 h
  have hg : NdArgsGiven os := by
    have := nd_given argv
    rwa [hp] at this
  unfold ndProgram
  simp only [hp]
  rw [cliRun_end, ndCli_steps env t os hh hv hg]
  cases ndOptions env ndInit (ndArgs os) with
  | undefined => rfl
  | exit status => rfl
  | ok st => rfl

/-- `nondominated` on files is `nondominated` on their contents (C69), unless an output file is overwritten that has yet to be read. -/
theorem C94_nondominated (env : NdEnv K) (t : CliTexts) (argv : List Word) (os : List (NdOpt × Option Word)) (names : List Word)
    (h : CmdLine (withoutLetters ['m', 'L'] ndUsage ++ ndExtra) argv os names) (hh : hasOpt .help os = false) (hv : hasOpt .version os = false) (hn : names ≠ []) (stdin : List Char) (files : Files)
    (texts : List (List Char)) (hc : Contents files names texts) (hd : names.Nodup) (hs : NoClobber names (ndSuffix os)) :
    TextsOutcome names (ndSuffix os) files (ndMain env (ndArgs os) stdin texts) (ndProgram env t argv stdin files) := by
  rw [ndProgram_run env t argv os names h hh hv stdin files, ndMain]
  cases ndOptions env ndInit (ndArgs os) with
  | undefined => rfl
  | exit status => exact ⟨files, rfl, ⟨by simp, by simp⟩⟩
  | ok st =>
    simp only [ndTailFs]
    split
    · rfl
    · split
      · exact ⟨files, rfl, ⟨by simp, by simp⟩⟩
      · exact ndRunFs_eq env st _ _ _ stdin files names hn texts hc hd hs

/-- Without file names `nondominated` reads the standard input and writes to the standard output; no file changes. -/
theorem C94_nondominated_stdin (env : NdEnv K) (t : CliTexts) (argv : List Word) (os : List (NdOpt × Option Word))
    (h : CmdLine (withoutLetters ['m', 'L'] ndUsage ++ ndExtra) argv os []) (hh : hasOpt .help os = false) (hv : hasOpt .version os = false) (stdin : List Char) (files : Files) :
    ndProgram env t argv stdin files = textsRun files (ndMain env (ndArgs os) stdin []) := by
  rw [ndProgram_run env t argv os [] h hh hv stdin files, ndMain]
  cases ndOptions env ndInit (ndArgs os) with
  | undefined => rfl
  | exit status => rfl
  | ok st =>
    simp only [ndTailFs]
    split
    · rfl
    · split
      · rfl
      · exact ndRunFs_stdin env st _ _ _ stdin files

/-- What precedes `--help` (or `--version`) is read; what follows it is not, and no file changes. -/
theorem C94_nondominated_help (env : NdEnv K) (t : CliTexts) (pre rest : List Word) (os : List (NdOpt × Option Word)) (fs : List Word) (hd : ∀ w ∈ pre, w ≠ ['-', '-'])
    (i : NdOpt) (hi : i = .help ∨ i = .version) (h : CmdLine (withoutLetters ['m', 'L'] ndUsage ++ ndExtra) pre (os ++ [(i, none)]) fs) (hh : hasOpt .help os = false) (hv : hasOpt .version os = false)
    (stdin : List Char) (files : Files) (st : NdSt K) (hok : ndOptions env ndInit (ndArgs os) = .ok st) :
    ndProgram env t (pre ++ rest) stdin files = .exit 0 (if i = .help then t.usage else t.version) files := by
  have hp := C93_nondominated_append pre rest _ fs hd h
  have hg : NdArgsGiven os := by
    have := nd_given pre
    rw [(C93_nondominated pre _ fs).2 h] at this
    exact fun i hi h => this i hi (by simp [h])
  unfold ndProgram
  simp only [hp]
  rw [List.append_assoc, cliRun_append, ndCli_steps env t os hh hv hg, hok]
  rcases hi with rfl | rfl <;> rfl

/-- What holds of the state after the options. -/
structure NdCliInv (os : List (NdOpt × Option Word)) (c : NdCli K) : Prop where
  suffix : c.suffix = ndSuffix os
  filter : hasOpt .filter os = false → c.st.filter = false
  force : hasOpt .forceBounds os = false → c.st.force = false
  agree : hasOpt .agree os = false → c.st.agree = 0
  range : hasOpt .normalise os = false → c.st.range = none
  log : hasOpt .log os = false → c.st.logarithm = none
  lower : hasOpt .lower os = false → c.st.lower = none
  upper : hasOpt .upper os = false → c.st.upper = none

theorem ndOptions_one (env : NdEnv K) (st st' : NdSt K) (b : NdArg) (h : ndOptions env st [b] = .ok st') :
    (b = .filter ∨ st'.filter = st.filter) ∧ (b = .forceBounds ∨ st'.force = st.force) ∧ ((∃ str, b = .agree str) ∨ st'.agree = st.agree) ∧
      ((∃ str, b = .normalise str) ∨ st'.range = st.range) ∧ ((∃ str, b = .log str) ∨ st'.logarithm = st.logarithm) ∧ ((∃ str, b = .lower str) ∨ st'.lower = st.lower) ∧
      ((∃ str, b = .upper str) ∨ st'.upper = st.upper) := by
  cases b with
  | noCheck => simp only [ndOptions, NdRes.ok.injEq] at h; subst h; simp
  | filter => simp only [ndOptions, NdRes.ok.injEq] at h; subst h; simp
  | forceBounds => simp only [ndOptions, NdRes.ok.injEq] at h; subst h; simp
  | union => simp only [ndOptions, NdRes.ok.injEq] at h; subst h; simp
  | maximise => simp only [ndOptions, NdRes.ok.injEq] at h; subst h; simp
  | obj str =>
    rw [ndOptions] at h
    cases hr : readMinmax env.junk str st.dim with
    | null => rw [hr] at h; simp at h
    | exit => rw [hr] at h; simp at h
    | ok minmax nobj => rw [hr] at h; simp only [ndOptions, NdRes.ok.injEq] at h; subst h; simp
  | agree str =>
    rw [ndOptions] at h
    by_cases h1 : str = ['m', 'a', 'x']
    · rw [if_pos h1] at h; simp only [ndOptions, NdRes.ok.injEq] at h; subst h; simp
    · rw [if_neg h1] at h
      by_cases h2 : str = ['m', 'i', 'n']
      · rw [if_pos h2] at h; simp only [ndOptions, NdRes.ok.injEq] at h; subst h; simp
      · rw [if_neg h2] at h; simp at h
  | normalise str =>
    rw [ndOptions] at h
    rcases hr : readRange env.scan str with _ | ⟨lower, upper⟩
    · rw [hr] at h; simp at h
    · rw [hr] at h
      simp only at h
      by_cases h1 : lower ≥ upper
      · rw [if_pos h1] at h; simp at h
      · rw [if_neg h1] at h; simp only [ndOptions, NdRes.ok.injEq] at h; subst h; simp
  | upper str =>
    rw [ndOptions] at h
    rcases hr : readPoint env.scan str with _ | _ | point
    · rw [hr] at h; simp at h
    · rw [hr] at h; simp at h
    · rw [hr] at h; simp only [ndOptions, NdRes.ok.injEq] at h; subst h; simp
  | lower str =>
    rw [ndOptions] at h
    rcases hr : readPoint env.scan str with _ | _ | point
    · rw [hr] at h; simp at h
    · rw [hr] at h; simp at h
    · rw [hr] at h; simp only [ndOptions, NdRes.ok.injEq] at h; subst h; simp
  | log str =>
    rw [ndOptions] at h
    rcases hr : readBitvector str with _ | bits
    · rw [hr] at h; simp at h
    · rw [hr] at h; simp only [ndOptions, NdRes.ok.injEq] at h; subst h; simp

theorem ndCli_inv (env : NdEnv K) (t : CliTexts) (os : List (NdOpt × Option Word)) (c : NdCli K) (h : cliSteps (ndCliStep env t) ⟨ndInit, "_dat".toList⟩ os = .next c) : NdCliInv os c := by
  refine cliSteps_inv (ndCliStep env t) (fun os c => NdCliInv os c) _ ⟨rfl, by simp [ndInit], by simp [ndInit], by simp [ndInit], by simp [ndInit], by simp [ndInit], by simp [ndInit], by simp [ndInit]⟩ ?_ os c h
  rintro os ⟨i, a⟩ c c' h1 h2
  have hsuf : i ≠ .suffix → ndSuffix (os ++ [(i, a)]) = ndSuffix os := by
    intro hi
    rw [ndSuffix, lastArg_append, if_neg hi, ndSuffix]
  have hnext : ∀ b, ndCliArg env c b = .next c' → i ≠ .suffix → (b = .filter → i = .filter) → (b = .forceBounds → i = .forceBounds) → ((∃ str, b = .agree str) → i = .agree) →
      ((∃ str, b = .normalise str) → i = .normalise) → ((∃ str, b = .log str) → i = .log) → ((∃ str, b = .lower str) → i = .lower) → ((∃ str, b = .upper str) → i = .upper) →
      NdCliInv (os ++ [(i, a)]) c' := by
    intro b hb hi e1 e2 e3 e4 e5 e6 e7
    unfold ndCliArg at hb
    cases h3 : ndOptions env c.st [b] with
    | undefined => rw [h3] at hb; simp at hb
    | exit status => rw [h3] at hb; simp at hb
    | ok st =>
      rw [h3] at hb
      simp only [CliStep.next.injEq] at hb
      subst hb
      obtain ⟨f1, f2, f3, f4, f5, f6, f7⟩ := ndOptions_one env c.st st b h3
      refine ⟨by rw [hsuf hi]; exact h1.suffix, ?_, ?_, ?_, ?_, ?_, ?_, ?_⟩
      · intro hf
        rw [hasOpt_append, Bool.or_eq_false_iff] at hf
        rcases f1 with f1 | f1
        · exact absurd (e1 f1) (by simpa using hf.2)
        · exact f1.trans (h1.filter hf.1)
      · intro hf
        rw [hasOpt_append, Bool.or_eq_false_iff] at hf
        rcases f2 with f1 | f1
        · exact absurd (e2 f1) (by simpa using hf.2)
        · exact f1.trans (h1.force hf.1)
      · intro hf
        rw [hasOpt_append, Bool.or_eq_false_iff] at hf
        rcases f3 with f1 | f1
        · exact absurd (e3 f1) (by simpa using hf.2)
        · exact f1.trans (h1.agree hf.1)
      · intro hf
        rw [hasOpt_append, Bool.or_eq_false_iff] at hf
        rcases f4 with f1 | f1
        · exact absurd (e4 f1) (by simpa using hf.2)
        · exact f1.trans (h1.range hf.1)
      · intro hf
        rw [hasOpt_append, Bool.or_eq_false_iff] at hf
        rcases f5 with f1 | f1
        · exact absurd (e5 f1) (by simpa using hf.2)
        · exact f1.trans (h1.log hf.1)
      · intro hf
        rw [hasOpt_append, Bool.or_eq_false_iff] at hf
        rcases f6 with f1 | f1
        · exact absurd (e6 f1) (by simpa using hf.2)
        · exact f1.trans (h1.lower hf.1)
      · intro hf
        rw [hasOpt_append, Bool.or_eq_false_iff] at hf
        rcases f7 with f1 | f1
        · exact absurd (e7 f1) (by simpa using hf.2)
        · exact f1.trans (h1.upper hf.1)
  have hsame : ∀ suf : Word, suf = ndSuffix (os ++ [(i, a)]) → NdCliInv (os ++ [(i, a)]) ⟨c.st, suf⟩ := by
    intro suf hs
    refine ⟨hs, ?_, ?_, ?_, ?_, ?_, ?_, ?_⟩ <;> intro hf <;> rw [hasOpt_append, Bool.or_eq_false_iff] at hf
    · exact h1.filter hf.1
    · exact h1.force hf.1
    · exact h1.agree hf.1
    · exact h1.range hf.1
    · exact h1.log hf.1
    · exact h1.lower hf.1
    · exact h1.upper hf.1
  cases i with
  | help => simp [ndCliStep] at h2
  | version => simp [ndCliStep] at h2
  | verbose => simp only [ndCliStep, CliStep.next.injEq] at h2; rw [← h2]; exact hsame _ (by rw [hsuf (by simp)]; exact h1.suffix)
  | quiet => simp only [ndCliStep, CliStep.next.injEq] at h2; rw [← h2]; exact hsame _ (by rw [hsuf (by simp)]; exact h1.suffix)
  | noCheck => exact hnext .noCheck h2 (by simp) (by simp) (by simp) (by simp) (by simp) (by simp) (by simp) (by simp)
  | filter => exact hnext .filter h2 (by simp) (by simp) (by simp) (by simp) (by simp) (by simp) (by simp) (by simp)
  | forceBounds => exact hnext .forceBounds h2 (by simp) (by simp) (by simp) (by simp) (by simp) (by simp) (by simp) (by simp)
  | union => exact hnext .union h2 (by simp) (by simp) (by simp) (by simp) (by simp) (by simp) (by simp) (by simp)
  | maximise => exact hnext .maximise h2 (by simp) (by simp) (by simp) (by simp) (by simp) (by simp) (by simp) (by simp)
  | obj => cases a with | none => simp [ndCliStep] at h2 | some str => exact hnext (.obj str) h2 (by simp) (by simp) (by simp) (by simp) (by simp) (by simp) (by simp) (by simp)
  | agree => cases a with | none => simp [ndCliStep] at h2 | some str => exact hnext (.agree str) h2 (by simp) (by simp) (by simp) (by simp) (by simp) (by simp) (by simp) (by simp)
  | normalise => cases a with | none => simp [ndCliStep] at h2 | some str => exact hnext (.normalise str) h2 (by simp) (by simp) (by simp) (by simp) (by simp) (by simp) (by simp) (by simp)
  | upper => cases a with | none => simp [ndCliStep] at h2 | some str => exact hnext (.upper str) h2 (by simp) (by simp) (by simp) (by simp) (by simp) (by simp) (by simp) (by simp)
  | lower => cases a with | none => simp [ndCliStep] at h2 | some str => exact hnext (.lower str) h2 (by simp) (by simp) (by simp) (by simp) (by simp) (by simp) (by simp) (by simp)
  | log => cases a with | none => simp [ndCliStep] at h2 | some str => exact hnext (.log str) h2 (by simp) (by simp) (by simp) (by simp) (by simp) (by simp) (by simp) (by simp)
  | suffix =>
    cases a with
    | none => simp [ndCliStep] at h2
    | some s =>
      simp only [ndCliStep, CliStep.next.injEq] at h2
      rw [← h2]
      exact hsame _ (by simp [ndSuffix, lastArg_append])

theorem ndProgram_cases (env : NdEnv K) (t : CliTexts) (argv : List Word) (stdin : List Char) (files : Files) :
    ndProgram env t argv stdin files = .undefined ∨ ndProgram env t argv stdin files = .abort ∨ (∃ status out, ndProgram env t argv stdin files = .exit status out files) ∨
      ∃ c os names, CmdLine (withoutLetters ['m', 'L'] ndUsage ++ ndExtra) argv os names ∧ NdCliInv os c ∧ ndProgram env t argv stdin files = ndTailFs env c.st c.suffix names stdin files := by
  unfold ndProgram
  simp only
  rcases cliRun_cases (ndCliStep env t) (cliParse ndTable ndCases argv).2 (cliParse ndTable ndCases argv).1 ⟨ndInit, "_dat".toList⟩ with
    ⟨o, s, -, -, h3⟩ | ⟨o, s, status, out, -, -, h3⟩ | ⟨c, h1, h2⟩
  · rw [h3]; exact Or.inl rfl
  · rw [h3]; exact Or.inr (Or.inr (Or.inl ⟨status, out, rfl⟩))
  · rw [h2]
    cases he : (cliParse ndTable ndCases argv).2 with
    | bad => exact Or.inr (Or.inr (Or.inl ⟨1, [], rfl⟩))
    | abort => exact Or.inr (Or.inl rfl)
    | files names =>
      exact Or.inr (Or.inr (Or.inr ⟨c, (cliParse ndTable ndCases argv).1, names, (C93_nondominated argv _ names).1 (by rw [← he]), ndCli_inv env t _ c h1, rfl⟩))

theorem ndTailFs_cases (env : NdEnv K) (st : NdSt K) (suffix : Word) (names : List Word) (stdin : List Char) (files : Files) (status : ℕ) (out : List Char) (files' : Files)
    (h : ndTailFs env st suffix names stdin files = .exit status out files') :
    (status = 1 ∧ out = [] ∧ files' = files) ∨ ndRunFs env st suffix (st.lower.map arrayFn) (st.upper.map arrayFn) stdin files names = .exit status out files' := by
  simp only [ndTailFs] at h
  split at h
  · simp at h
  · split at h
    · simp only [RunOut.exit.injEq] at h
      exact Or.inl ⟨h.1.symm, h.2.1.symm, h.2.2.symm⟩
    · exact Or.inr h

/-- Whatever the command line is, `nondominated` changes only output files of the files it is given, named with the suffix. -/
theorem C94_nondominated_frame (env : NdEnv K) (t : CliTexts) (argv : List Word) (stdin : List Char) (files : Files) (status : ℕ) (out : List Char) (files' : Files)
    (h : ndProgram env t argv stdin files = .exit status out files') (n : Word) (hn : files' n ≠ files n) :
    ∃ os names, CmdLine (withoutLetters ['m', 'L'] ndUsage ++ ndExtra) argv os names ∧ ∃ f ∈ names, n = f ++ ndSuffix os := by
  rcases ndProgram_cases env t argv stdin files with h1 | h1 | ⟨status', out', h1⟩ | ⟨c, os, names, h2, h3, h1⟩
  · rw [h1] at h; simp at h
  · rw [h1] at h; simp at h
  · rw [h1] at h
    simp only [RunOut.exit.injEq] at h
    exact absurd (by rw [← h.2.2]) hn
  · rw [h1] at h
    refine ⟨os, names, h2, ?_⟩
    rcases ndTailFs_cases env _ _ _ _ _ _ _ _ h with ⟨-, -, h4⟩ | h4
    · exact absurd (by rw [h4]) hn
    · rcases ndRunFs_cases env _ _ _ _ _ _ _ _ _ _ h4 with ⟨-, h5⟩ | ⟨-, -, h5⟩ | ⟨_, _, _, _, _, h5⟩
      · exact absurd (by rw [runStdin_files _ _ _ _ _ _ _ _ _ h5]) hn
      · exact absurd (by rw [h5]) hn
      · by_contra hno
        refine hn (runFiles_frame _ _ _ _ names _ _ _ _ _ h5 n ?_)
        intro f hf e
        exact hno ⟨f, hf, by rw [← h3.suffix]; exact (Option.some.inj e).symm⟩

theorem ndProcess_silent (env : NdEnv K) (st : NdSt K) (h1 : st.filter = false) (h2 : st.force = false) (h3 : st.agree = 0) (h4 : st.range = none) (h5 : st.logarithm = none) (dim : ℕ) (minmax : ℕ → ℤ)
    (points : ℕ → ℕ → K) (cs : List ℕ) (lo up : ℕ → K) (dest : Option ℕ) (d : Bool) (w : Option (List Char)) (dim' : ℕ) (h : ndProcess env st dim minmax points cs lo up dest = .done d w dim') : w = none := by
  have hlog : st.logFlag dim = false := by simp [NdSt.logFlag, NdSt.logs, h5]
  unfold ndProcess at h
  split at h
  · simp at h
  · simp only at h
    generalize (if (st.check || st.filter) = true then _ else _ : NdCheck) = chk at h
    cases chk with
    | assertFail => simp at h
    | fatal => simp at h
    | done dominated nondom =>
      simp only [h1, h2, h3, h4, hlog, NdFileOut.done.injEq] at h
      simpa using h.2.1.symm

theorem ndStep_silent (env : NdEnv K) (st : NdSt K) (h1 : st.filter = false) (h2 : st.force = false) (h3 : st.agree = 0) (h4 : st.range = none) (h5 : st.logarithm = none) (lo up : Option (ℕ → K))
    (cmin cmax : Bool) (dest : ℕ → Option ℕ) (s : Bool × ℕ × ℕ) (text : List Char) (x : List Char) :
    ndStep env st lo up cmin cmax dest s text ≠ .exit (some x) ∧ ∀ s', ndStep env st lo up cmin cmax dest s text ≠ .done s' (some x) := by
  have hw : ∀ d w dim, ndFile env st lo up cmin cmax s.2.1 (dest s.2.2) text = .done d w dim → w = none := by
    intro d w dim h
    unfold ndFile at h
    rcases hr : readFile env.scan s.2.1 text with _ | _ | r
    · rw [hr] at h; simp at h
    · rw [hr] at h; simp at h
    · rw [hr] at h
      simp only at h
      generalize (if st.union = true then [r.cum.getLastD 0] else r.cum) = cs at h
      split at h
      · simp at h
      · split at h
        · simp at h
        · split at h
          · simp at h
          · exact ndProcess_silent env st h1 h2 h3 h4 h5 _ _ _ _ _ _ _ _ _ _ h
  unfold ndStep
  cases h : ndFile env st lo up cmin cmax s.2.1 (dest s.2.2) text with
  | undefined => simp
  | exit => simp
  | done d w dim => simp [hw d w dim h]

/-- Without an option that asks for an output, `nondominated` only checks: nothing is written, and no file changes. -/
theorem C94_nondominated_check (env : NdEnv K) (t : CliTexts) (argv : List Word) (os : List (NdOpt × Option Word)) (names : List Word)
    (hcl : CmdLine (withoutLetters ['m', 'L'] ndUsage ++ ndExtra) argv os names) (hh : hasOpt .help os = false) (hv : hasOpt .version os = false) (h1 : hasOpt .filter os = false)
    (h2 : hasOpt .forceBounds os = false) (h3 : hasOpt .agree os = false) (h4 : hasOpt .normalise os = false) (h5 : hasOpt .log os = false) (stdin : List Char) (files : Files) (status : ℕ)
    (out : List Char) (files' : Files) (h : ndProgram env t argv stdin files = .exit status out files') : out = [] ∧ files' = files := by
  have hp := (C93_nondominated argv os names).2 hcl
  have hg : NdArgsGiven os := by
    have := nd_given argv
    rwa [hp] at this
  have hst := ndCli_steps env t os hh hv hg
  rw [ndProgram_run env t argv os names hcl hh hv stdin files] at h
  cases ho : ndOptions env ndInit (ndArgs os) with
  | undefined => rw [ho] at h; simp at h
  | exit status' =>
    rw [ho] at h
    simp only [RunOut.exit.injEq] at h
    exact ⟨h.2.1.symm, h.2.2.symm⟩
  | ok st =>
    rw [ho] at h hst
    have hinv := ndCli_inv env t os _ hst
    have hsil := fun lo up cmin cmax dest => ndStep_silent env st (hinv.filter h1) (hinv.force h2) (hinv.agree h3) (hinv.range h4) (hinv.log h5) lo up cmin cmax dest
    rcases ndTailFs_cases env _ _ _ _ _ _ _ _ h with ⟨-, h6, h7⟩ | h6
    · exact ⟨h6, h7⟩
    · rcases ndRunFs_cases env _ _ _ _ _ _ _ _ _ _ h6 with ⟨-, h7⟩ | ⟨-, h7, h8⟩ | ⟨_, _, _, _, _, h7⟩
      · refine ⟨?_, runStdin_files _ _ _ _ _ _ _ _ _ h7⟩
        unfold runStdin at h7
        cases hs : ndStep env st (st.lower.map arrayFn) (st.upper.map arrayFn) true true (fun _ => none) (false, st.dim, 0) stdin with
        | undefined => rw [hs] at h7; simp at h7
        | exit w =>
          rw [hs] at h7
          cases w with
          | none => simp only [emit, RunOut.exit.injEq] at h7; exact h7.2.1.symm
          | some x => exact absurd hs (hsil _ _ _ _ _ _ _ x).1
        | done s w =>
          rw [hs] at h7
          cases w with
          | none => simp only [emit, RunOut.exit.injEq] at h7; exact h7.2.1.symm
          | some x => exact absurd hs ((hsil _ _ _ _ _ _ _ x).2 s)
      · exact ⟨h7, h8⟩
      · exact runFiles_silent _ _ _ (hsil _ _ _ _ _) names _ _ _ _ _ h7

/-- `nondominated` reads only the files it is given, and the standard input only if it is given no file. -/
theorem C94_nondominated_reads (env : NdEnv K) (t : CliTexts) (argv : List Word) (os : List (NdOpt × Option Word)) (names : List Word)
    (hcl : CmdLine (withoutLetters ['m', 'L'] ndUsage ++ ndExtra) argv os names) (stdin stdin' : List Char) (files files' : Files) (h1 : names = [] → stdin = stdin') (h2 : ∀ n ∈ names, files n = files' n) :
    SameRun (ndProgram env t argv stdin files) (ndProgram env t argv stdin' files') := by
  have hp := (C93_nondominated argv os names).2 hcl
  unfold ndProgram
  simp only [hp]
  rcases cliRun_cases (ndCliStep env t) (.files names) os ⟨ndInit, "_dat".toList⟩ with ⟨o, s, -, -, h⟩ | ⟨o, s, status, out, -, -, h⟩ | ⟨c, -, h⟩
  · rw [h]; trivial
  · rw [h]; exact ⟨rfl, rfl⟩
  · rw [h]
    simp only [cliRun]
    split
    · trivial
    · split
      · exact ⟨rfl, rfl⟩
      · exact ndRunFs_reads env _ _ _ _ _ _ _ _ _ h1 h2

/-- A file that does not exist (and is not made by the program itself) makes `nondominated` fail, unless an option has already ended it.  If there are several files and a bound is not given, all files
are read before the first output is written: then no file changes. -/
theorem C94_nondominated_missing (env : NdEnv K) (t : CliTexts) (argv : List Word) (os : List (NdOpt × Option Word)) (names : List Word)
    (hcl : CmdLine (withoutLetters ['m', 'L'] ndUsage ++ ndExtra) argv os names) (hh : hasOpt .help os = false) (hv : hasOpt .version os = false) (stdin : List Char) (files : Files)
    (st : NdSt K) (hok : ndOptions env ndInit (ndArgs os) = .ok st) (missing : Word) (hmem : missing ∈ names) (hm : files missing = none) (hsuf : ∀ f ∈ names, f ++ ndSuffix os ≠ missing)
    (status : ℕ) (out : List Char) (files' : Files) (h : ndProgram env t argv stdin files = .exit status out files') :
    status = 1 ∧ (hasOpt .lower os = false ∨ hasOpt .upper os = false → out = [] ∧ files' = files) := by
  have hp := (C93_nondominated argv os names).2 hcl
  have hg : NdArgsGiven os := by
    have := nd_given argv
    rwa [hp] at this
  have hst := ndCli_steps env t os hh hv hg
  rw [hok] at hst
  have hinv := ndCli_inv env t os _ hst
  rw [ndProgram_run env t argv os names hcl hh hv stdin files, hok] at h
  rcases ndTailFs_cases env _ _ _ _ _ _ _ _ h with ⟨h5, h6, h7⟩ | h6
  · exact ⟨h5, fun _ => ⟨h6, h7⟩⟩
  · constructor
    · rcases ndRunFs_cases env _ _ _ _ _ _ _ _ _ _ h6 with ⟨h7, -⟩ | ⟨h7, -, -⟩ | ⟨_, _, _, _, _, h7⟩
      · rw [h7] at hmem; simp at hmem
      · exact h7
      · refine runFiles_missing _ _ _ _ missing names _ _ _ _ _ hmem hm ?_ h7
        intro f hf e
        exact hsuf f hf (Option.some.inj e)
    · intro hb
      match names, hmem, h6 with
      | [name], hmem, h6 =>
        have : name = missing := (List.mem_singleton.1 hmem).symm
        subst this
        simp only [ndRunFs, runFiles, hm, RunOut.exit.injEq] at h6
        exact ⟨h6.2.1.symm, h6.2.2.symm⟩
      | name :: name' :: names, hmem, h6 =>
        have hno : ((st.lower.map arrayFn).isNone || (st.upper.map arrayFn).isNone) = true := by
          rcases hb with hb | hb
          · simp [show st.lower = none from hinv.lower hb]
          · simp [show st.upper = none from hinv.upper hb]
        unfold ndRunFs at h6
        simp only at h6
        rw [if_pos hno] at h6
        rcases hf : ndFileBoundsFs env files none none st.dim (name :: name' :: names) with _ | _ | r
        · rw [hf] at h6; simp at h6
        · rw [hf] at h6
          simp only [RunOut.exit.injEq] at h6
          exact ⟨h6.2.1.symm, h6.2.2.symm⟩
        · exact absurd hf (ndFileBoundsFs_missing env files missing hm _ hmem _ _ _ r)

end

end Moo
