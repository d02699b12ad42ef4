import Verif.Props.FsMain

/-!
# C94 for `epsilon` and `igd`
-/

set_option autoImplicit false
set_option linter.unusedSectionVars false

namespace Moo

section
variable {V W F : Type*} [Zero V] {scan : NumScan V} {junk : ℕ → ℤ} {ind : Indicator V W} {bad : W → Bool}

theorem indStep_done (minmax : Option (ℕ → ℤ)) (reference : List V × ℕ × ℕ) (s : ℕ) (t : List Char) (s' : ℕ) : indStep scan ind bad minmax reference s t ≠ .done s' none := by
  unfold indStep
  rcases readFile scan s t with _ | _ | out
  · simp
  · simp
  · simp only
    rcases indFile scan ind bad minmax reference s t with _ | ⟨ok, vs, n⟩
    · simp
    · cases ok <;> simp

theorem indStep_readable (hs : ScanOk scan) (minmax : Option (ℕ → ℤ)) (reference : List V × ℕ × ℕ) (s : ℕ) (t : List Char) (x : List W)
    (h : indStep scan ind bad minmax reference s t = .exit (some x) ∨ ∃ s', indStep scan ind bad minmax reference s t = .done s' (some x)) : ∃ n, ¬ Unreadable scan t n := by
  refine ⟨s, fun hu => ?_⟩
  unfold indStep at h
  rw [readFile_err hs hu] at h
  simp at h

theorem indFiles_pure (suffix : Bool) (minmax : Option (ℕ → ℤ)) (reference : List V × ℕ × ℕ) (texts : List (List Char)) : ∀ (nobj k : ℕ),
    indFiles scan ind bad suffix minmax reference nobj k texts = match pureFiles (indStep scan ind bad minmax reference) (fun _ => 0) nobj texts with
      | none => .undefined
      | some (status, ws) => .exit status (tagged (fun k => if suffix then some k else none) k ws) := by
  induction texts with
  | nil => intro nobj k; rfl
  | cons text texts ih =>
    intro nobj k
    rw [indFiles, pureFiles, indStep]
    cases hr : readFile scan nobj text with
    | none => simp [indFile, hr]
    | some r =>
      cases r with
      | none => simp [indFile, hr, tagged]
      | some out =>
        simp only
        rcases hf : indFile scan ind bad minmax reference nobj text with _ | ⟨ok, vs, n⟩
        · rfl
        · cases ok with
          | false => simp [tagged]
          | true =>
            simp only [if_true]
            rw [ih]
            cases hp : pureFiles (indStep scan ind bad minmax reference) (fun _ => 0) n texts with
            | none => rfl
            | some r => simp [tagged]

/-- The program on contents after the options. -/
def indTail (scan : NumScan V) (ind : Indicator V W) (bad : W → Bool) (suffix : Bool) (st : IndSt V) (stdin : List Char) (texts : List (List Char)) : ProgOut (Option ℕ × W) :=
  match st.reference with
  | none => .exit 1 []
  | some reference =>
    match texts with
    | [] => indFiles scan ind bad false st.minmax reference st.nobj 0 [stdin]
    | texts => indFiles scan ind bad suffix st.minmax reference st.nobj 0 texts

theorem indMain_tail (suffix : Bool) (args : List IndArg) (stdin : List Char) (texts : List (List Char)) :
    indMain scan junk ind bad suffix args stdin texts = match indOptions scan junk ⟨0, none, none⟩ args with
      | .undefined => .undefined
      | .exit status => .exit status []
      | .ok st => indTail scan ind bad suffix st stdin texts := by
  unfold indMain indTail
  cases indOptions scan junk ⟨0, none, none⟩ args with
  | undefined => rfl
  | exit status => rfl
  | ok st =>
    simp only
    cases st.reference with
    | none => rfl
    | some r => cases texts <;> rfl

theorem filesOutcome_exit {K : Type*} (fmt : K → List Char) (readable : List Char → Prop) (names : List Word) (texts : List (List Char)) (suffix : Option Word) (files : Files) (status : ℕ) :
    FilesOutcome fmt readable names texts suffix files (.exit status [] : ProgOut (Option ℕ × K)) (.exit status [] files) := by
  cases suffix with
  | none => rfl
  | some x => exact ⟨fun _ => false, files, rfl, ⟨by simp, by simp⟩, by simp, by simp, by simp⟩

theorem indRun_eq (hs : ScanOk scan) (indF : F → Indicator V W) (badF : F → W → Bool) (fmt : W → List Char) (c : IndCli V F)
    (names : List Word) (hn : names ≠ []) (texts : List (List Char)) (stdin : List Char) (files : Files) (hc : Contents files names texts)
    (hsuf : ∀ x, c.suffix = some x → names.Nodup ∧ NoClobber names x) :
    FilesOutcome fmt (fun text => ∃ n, ¬ Unreadable scan text n) names texts c.suffix files (indTail scan (indF c.flags) (badF c.flags) c.suffix.isSome c.st stdin texts)
      (indRun scan indF badF fmt c names stdin files) := by
  unfold indRun indTail
  cases c.st.reference with
  | none => exact filesOutcome_exit _ _ _ _ _ _ _
  | some reference =>
    cases hc with
    | nil => exact absurd rfl hn
    | @cons name text names texts h1 h2 =>
      simp only
      exact runFiles_values _ (indStep_done _ _) _ (indStep_readable hs _ _) fmt c.suffix (name :: names) (text :: texts) c.st.nobj files (.cons h1 h2) hsuf _ (indFiles_pure _ _ _ _ _ _)

theorem indRun_stdin (indF : F → Indicator V W) (badF : F → W → Bool) (fmt : W → List Char) (c : IndCli V F) (b : Bool) (stdin : List Char) (files : Files) :
    indRun scan indF badF fmt c [] stdin files = stdoutRun fmt files (indTail scan (indF c.flags) (badF c.flags) b c.st stdin []) := by
  unfold indRun indTail
  cases c.st.reference with
  | none => rfl
  | some reference => exact runStdin_values _ fmt _ stdin files _ _ (indFiles_pure _ _ _ _ _ _)

theorem indRun_frame (indF : F → Indicator V W) (badF : F → W → Bool) (fmt : W → List Char) (c : IndCli V F) (names : List Word) (stdin : List Char) (files : Files) (status : ℕ) (out : List Char)
    (files' : Files) (h : indRun scan indF badF fmt c names stdin files = .exit status out files') (n : Word) (hn : files' n ≠ files n) : ∃ s, c.suffix = some s ∧ ∃ f ∈ names, n = f ++ s := by
  unfold indRun at h
  cases hr : c.st.reference with
  | none =>
    rw [hr] at h
    simp only [RunOut.exit.injEq] at h
    exact absurd (by rw [← h.2.2]) hn
  | some reference =>
    rw [hr] at h
    cases names with
    | nil => exact absurd (by rw [runStdin_files _ _ _ _ _ _ _ _ _ h]) hn
    | cons name names =>
      by_contra hno
      refine hn (runFiles_frame _ _ _ _ (name :: names) _ _ _ _ _ h n ?_)
      intro f hf e
      cases hc : c.suffix with
      | none => rw [hc] at e; simp at e
      | some s =>
        rw [hc] at e
        exact hno ⟨s, hc, f, hf, (Option.some.inj e).symm⟩

theorem indRun_reads (indF : F → Indicator V W) (badF : F → W → Bool) (fmt : W → List Char) (c : IndCli V F) (names : List Word) (stdin stdin' : List Char) (files files' : Files)
    (h1 : names = [] → stdin = stdin') (h2 : ∀ n ∈ names, files n = files' n) : SameRun (indRun scan indF badF fmt c names stdin files) (indRun scan indF badF fmt c names stdin' files') := by
  unfold indRun
  cases hr : c.st.reference with
  | none => exact ⟨rfl, rfl⟩
  | some reference =>
    cases names with
    | nil => rw [h1 rfl]; exact runStdin_reads _ _ _ _ _ _ _
    | cons name names => exact runFiles_reads _ _ _ _ (fun n => n ∈ name :: names) _ _ _ _ rfl (fun n hn => hn) h2

theorem indRun_missing (indF : F → Indicator V W) (badF : F → W → Bool) (fmt : W → List Char) (c : IndCli V F) (names : List Word) (stdin : List Char) (files : Files) (missing : Word)
    (hmem : missing ∈ names) (hm : files missing = none) (hsuf : ∀ s, c.suffix = some s → ∀ f ∈ names, f ++ s ≠ missing) (status : ℕ) (out : List Char) (files' : Files)
    (h : indRun scan indF badF fmt c names stdin files = .exit status out files') : status = 1 := by
  unfold indRun at h
  cases hr : c.st.reference with
  | none =>
    rw [hr] at h
    simp only [RunOut.exit.injEq] at h
    exact h.1.symm
  | some reference =>
    rw [hr] at h
    cases names with
    | nil => simp at hmem
    | cons name names =>
      refine runFiles_missing _ _ _ _ missing (name :: names) _ _ _ _ _ hmem hm ?_ h
      intro f hf e
      cases hc : c.suffix with
      | none => rw [hc] at e; simp at e
      | some s =>
        rw [hc] at e
        exact hsuf s hc f hf (Option.some.inj e)

theorem indOptions_append (args : List IndArg) (a : IndArg) : ∀ st, indOptions scan junk st (args ++ [a]) = match indOptions scan junk st args with
    | .undefined => .undefined
    | .exit status => .exit status
    | .ok st => indOptions scan junk st [a] := by
  induction args with
  | nil => intro st; rfl
  | cons b args ih =>
    intro st
    cases b with
    | obj str =>
      rw [List.cons_append, indOptions, indOptions]
      cases readMinmax junk str st.nobj with
      | null => rfl
      | exit => rfl
      | ok minmax nobj => exact ih _
    | reference text =>
      rw [List.cons_append, indOptions, indOptions]
      rcases readFile scan st.nobj text with _ | _ | out
      · rfl
      · rfl
      · simp only
        by_cases hl : out.cum.length ≠ 1
        · rw [if_pos hl, if_pos hl]
        · rw [if_neg hl, if_neg hl]
          exact ih _

/-- The state after the options. -/
def indCliEnd (suffix : Option Word) (fl : F) : IndRes V → CliStep (IndCli V F)
  | .undefined => .undefined
  | .exit status => .exit status []
  | .ok st => .next ⟨st, suffix, fl⟩

theorem indCli_flag {I : Type} (step : IndCli V F → I × Option Word → CliStep (IndCli V F)) (o : I × Option Word) (suf suf' : Option Word) (fl fl' : F)
    (h : ∀ st, step ⟨st, suf, fl⟩ o = .next ⟨st, suf', fl'⟩) (R : IndRes V) : (andThen (indCliEnd suf fl R) fun s => cliSteps step s [o]) = indCliEnd suf' fl' R := by
  cases R with
  | undefined => rfl
  | exit status => rfl
  | ok st => simp [indCliEnd, andThen, cliSteps, h]

theorem indCli_arg {I : Type} (step : IndCli V F → I × Option Word → CliStep (IndCli V F)) (o : I × Option Word) (suf : Option Word) (fl : F) (b : IndArg)
    (h : ∀ st, step ⟨st, suf, fl⟩ o = indCliArg scan junk ⟨st, suf, fl⟩ b) (st₀ : IndSt V) (args : List IndArg) : (andThen (indCliEnd suf fl (indOptions scan junk st₀ args)) fun s => cliSteps step s [o]) = indCliEnd suf fl (indOptions scan junk st₀ (args ++ [b])) := by
  rw [indOptions_append]
  cases indOptions scan junk st₀ args with
  | undefined => rfl
  | exit status => rfl
  | ok st =>
    simp only [indCliEnd, andThen, cliSteps, h, indCliArg]
    cases indOptions scan junk st [b] <;> rfl

end

/-! ### `epsilon` -/

/-- The options of `epsilon` that have a meaning for its `main` on contents; a reference set is in a file. -/
def epsArgs (files : Files) (os : List (EpsOpt × Option Word)) : List IndArg := os.filterMap fun o =>
  match o with
  | (.obj, some str) => some (.obj str)
  | (.reference, some name) => (files name).map .reference
  | _ => none

/-- Additive, unless the last of `-a` and `-m` is `-m`. -/
def epsAdditive (os : List (EpsOpt × Option Word)) : Bool := ((os.filter fun o => o.1 = .additive ∨ o.1 = .multiplicative).getLast?.map fun o => decide (o.1 = .additive)).getD true

theorem epsAdditive_append (os : List (EpsOpt × Option Word)) (i : EpsOpt) (a : Option Word) :
    epsAdditive (os ++ [(i, a)]) = if i = .additive then true else if i = .multiplicative then false else epsAdditive os := by
  unfold epsAdditive
  rw [List.filter_append]
  by_cases h1 : i = .additive
  · simp [h1]
  · by_cases h2 : i = .multiplicative
    · simp [h2]
    · simp [h1, h2]

/-- Every option that must have an argument has one. -/
def EpsArgsGiven (os : List (EpsOpt × Option Word)) : Prop := (EpsOpt.obj, none) ∉ os ∧ (EpsOpt.reference, none) ∉ os

theorem eps_required : ∀ d ∈ epsUsage ++ epsExtra, d.id = EpsOpt.obj ∨ d.id = EpsOpt.reference → d.arg = .required := by decide +kernel

theorem eps_given (argv : List Word) : EpsArgsGiven (cliParse epsTable epsCases argv).1 := by
  constructor
  · intro h
    obtain ⟨d, hd, h1, h2, -⟩ := C93_epsilon_args argv .obj none h
    exact h2 (eps_required d hd (Or.inl h1)) rfl
  · intro h
    obtain ⟨d, hd, h1, h2, -⟩ := C93_epsilon_args argv .reference none h
    exact h2 (eps_required d hd (Or.inr h1)) rfl

section
variable {K : Type*} [Field K] [LinearOrder K] [IsStrictOrderedRing K] {scan : NumScan K} {junk : ℕ → ℤ}

theorem epsCli_steps (t : CliTexts) (files : Files) (os : List (EpsOpt × Option Word)) (hh : hasOpt .help os = false) (hv : hasOpt .version os = false) (hg : EpsArgsGiven os)
    (href : ∀ name, (EpsOpt.reference, some name) ∈ os → files name ≠ none) :
    cliSteps (epsCliStep scan junk t files) ⟨⟨0, none, none⟩, none, true⟩ os = indCliEnd (lastArg .suffix os) (epsAdditive os) (indOptions scan junk ⟨0, none, none⟩ (epsArgs files os)) := by
  induction os using List.reverseRecOn with
  | nil => rfl
  | append_singleton os o ih =>
    obtain ⟨i, a⟩ := o
    rw [hasOpt_append, Bool.or_eq_false_iff] at hh hv
    have h1 := ih hh.1 hv.1 ⟨fun h => hg.1 (by simp [h]), fun h => hg.2 (by simp [h])⟩ (fun b hb => href b (by simp [hb]))
    rw [cliSteps_append, h1, lastArg_append, epsAdditive_append]
    have hargs : epsArgs files (os ++ [(i, a)]) = epsArgs files os ++ epsArgs files [(i, a)] := by simp [epsArgs]
    rw [hargs]
    cases i with
    | help => simp at hh
    | version => simp at hv
    | obj =>
      cases a with
      | none => exact absurd (by simp) hg.1
      | some str => exact indCli_arg (epsCliStep scan junk t files) (.obj, some str) _ _ (.obj str) (fun st => rfl) _ _
    | reference =>
      cases a with
      | none => exact absurd (by simp) hg.2
      | some name =>
        cases hf : files name with
        | none => exact absurd hf (href name (by simp))
        | some text =>
          have : epsArgs files [(EpsOpt.reference, some name)] = [.reference text] := by simp [epsArgs, hf]
          rw [this]
          exact indCli_arg (epsCliStep scan junk t files) (.reference, some name) _ _ (.reference text) (fun c => by simp [epsCliStep, indCliRef, hf]) _ _
    | verbose => rw [indCli_flag (epsCliStep scan junk t files) (.verbose, a) _ _ _ _ (fun st => rfl)]; simp [epsArgs]
    | quiet => rw [indCli_flag (epsCliStep scan junk t files) (.quiet, a) _ _ _ _ (fun st => rfl)]; simp [epsArgs]
    | additive => rw [indCli_flag (epsCliStep scan junk t files) (.additive, a) _ _ _ true (fun st => rfl)]; simp [epsArgs]
    | multiplicative => rw [indCli_flag (epsCliStep scan junk t files) (.multiplicative, a) _ _ _ false (fun st => rfl)]; simp [epsArgs]
    | suffix => rw [indCli_flag (epsCliStep scan junk t files) (.suffix, a) _ a _ _ (fun st => rfl)]; simp [epsArgs]


theorem epsCli_suffix (t : CliTexts) (files : Files) (os : List (EpsOpt × Option Word)) (c : IndCli K Bool) (h : cliSteps (epsCliStep scan junk t files) ⟨⟨0, none, none⟩, none, true⟩ os = .next c) :
    c.suffix = lastArg .suffix os := by
  refine cliSteps_inv (epsCliStep scan junk t files) (fun os c => c.suffix = lastArg .suffix os) _ rfl ?_ os c h
  rintro os ⟨i, a⟩ c c' h1 h2
  rw [lastArg_append]
  have harg : ∀ b, indCliArg scan junk c b = .next c' → c'.suffix = c.suffix := by
    intro b hb
    unfold indCliArg at hb
    cases h3 : indOptions scan junk c.st [b] with
    | undefined => rw [h3] at hb; simp at hb
    | exit status => rw [h3] at hb; simp at hb
    | ok st => rw [h3] at hb; simp only [CliStep.next.injEq] at hb; rw [← hb]
  cases i with
  | obj =>
    cases a with
    | none => simp [epsCliStep] at h2
    | some str => simpa using (harg _ h2).trans h1
  | reference =>
    cases a with
    | none => simp [epsCliStep] at h2
    | some name =>
      simp only [epsCliStep, indCliRef] at h2
      cases hf : files name with
      | none => simp [hf] at h2
      | some text => rw [hf] at h2; simpa using (harg _ h2).trans h1
  | help => simp [epsCliStep] at h2
  | version => simp [epsCliStep] at h2
  | suffix => simp only [epsCliStep, CliStep.next.injEq] at h2; simp [← h2]
  | _ => simp only [epsCliStep, CliStep.next.injEq] at h2; subst h2; simpa using h1

theorem epsilonProgram_run (fmt : Ext K → List Char) (t : CliTexts) (argv : List Word) (os : List (EpsOpt × Option Word)) (names : List Word) (h : CmdLine (epsUsage ++ epsExtra) argv os names)
    (hh : hasOpt .help os = false) (hv : hasOpt .version os = false) (stdin : List Char) (files : Files) (href : ∀ name, (EpsOpt.reference, some name) ∈ os → files name ≠ none) :
    epsilonProgram scan junk fmt t argv stdin files = match indOptions scan junk ⟨0, none, none⟩ (epsArgs files os) with
      | .undefined => .undefined
      | .exit status => .exit status [] files
      | .ok st => indRun scan epsilonIndicator epsilonBad fmt ⟨st, lastArg .suffix os, epsAdditive os⟩ names stdin files := by
  have hp := (C93_epsilon argv os names).2 h
  have hg : EpsArgsGiven os := by
    have := eps_given argv
    rwa [hp] at this
  unfold epsilonProgram
  simp only [hp]
  rw [cliRun_end, epsCli_steps t files os hh hv hg href]
  cases indOptions scan junk ⟨0, none, none⟩ (epsArgs files os) with
  | undefined => rfl
  | exit status => rfl
  | ok st => rfl

/-- `epsilon` on files is `epsilon` on their contents (C68), unless an output file is overwritten that has yet to be read. -/
theorem C94_epsilon (hs : ScanOk scan) (fmt : Ext K → List Char) (t : CliTexts) (argv : List Word) (os : List (EpsOpt × Option Word)) (names : List Word) (h : CmdLine (epsUsage ++ epsExtra) argv os names)
    (hh : hasOpt .help os = false) (hv : hasOpt .version os = false) (hn : names ≠ []) (stdin : List Char) (files : Files) (href : ∀ name, (EpsOpt.reference, some name) ∈ os → files name ≠ none)
    (texts : List (List Char)) (hc : Contents files names texts) (hsuf : ∀ s, lastArg .suffix os = some s → names.Nodup ∧ NoClobber names s) :
    FilesOutcome fmt (fun text => ∃ n, ¬ Unreadable scan text n) names texts (lastArg .suffix os) files
      (epsilonMain scan junk (epsAdditive os) (lastArg .suffix os).isSome (epsArgs files os) stdin texts) (epsilonProgram scan junk fmt t argv stdin files) := by
  rw [epsilonProgram_run fmt t argv os names h hh hv stdin files href, epsilonMain, indMain_tail]
  cases indOptions scan junk ⟨0, none, none⟩ (epsArgs files os) with
  | undefined => cases lastArg EpsOpt.suffix os <;> rfl
  | exit status => exact filesOutcome_exit _ _ _ _ _ _ _
  | ok st => exact indRun_eq hs epsilonIndicator epsilonBad fmt ⟨st, lastArg .suffix os, epsAdditive os⟩ names hn texts stdin files hc hsuf

/-- Without file names `epsilon` reads the standard input and writes to the standard output; no file changes, even with `--suffix`. -/
theorem C94_epsilon_stdin (fmt : Ext K → List Char) (t : CliTexts) (argv : List Word) (os : List (EpsOpt × Option Word)) (h : CmdLine (epsUsage ++ epsExtra) argv os [])
    (hh : hasOpt .help os = false) (hv : hasOpt .version os = false) (stdin : List Char) (files : Files) (href : ∀ name, (EpsOpt.reference, some name) ∈ os → files name ≠ none) :
    epsilonProgram scan junk fmt t argv stdin files = stdoutRun fmt files (epsilonMain scan junk (epsAdditive os) (lastArg .suffix os).isSome (epsArgs files os) stdin []) := by
  rw [epsilonProgram_run fmt t argv os [] h hh hv stdin files href, epsilonMain, indMain_tail]
  cases indOptions scan junk ⟨0, none, none⟩ (epsArgs files os) with
  | undefined => rfl
  | exit status => rfl
  | ok st => exact indRun_stdin epsilonIndicator epsilonBad fmt ⟨st, lastArg .suffix os, epsAdditive os⟩ _ stdin files

/-- What precedes `--help` (or `--version`) is read; what follows it is not, and no file changes. -/
theorem C94_epsilon_help (fmt : Ext K → List Char) (t : CliTexts) (pre rest : List Word) (os : List (EpsOpt × Option Word)) (fs : List Word) (hd : ∀ w ∈ pre, w ≠ ['-', '-'])
    (i : EpsOpt) (hi : i = .help ∨ i = .version) (h : CmdLine (epsUsage ++ epsExtra) pre (os ++ [(i, none)]) fs) (hh : hasOpt .help os = false) (hv : hasOpt .version os = false) (stdin : List Char) (files : Files)
    (href : ∀ name, (EpsOpt.reference, some name) ∈ os → files name ≠ none) (st : IndSt K) (hok : indOptions scan junk ⟨0, none, none⟩ (epsArgs files os) = .ok st) :
    epsilonProgram scan junk fmt t (pre ++ rest) stdin files = .exit 0 (if i = .help then t.usage else t.version) files := by
  have hp := C93_epsilon_append pre rest _ fs hd h
  have hg : EpsArgsGiven os := by
    have := eps_given pre
    rw [(C93_epsilon pre _ fs).2 h] at this
    exact ⟨fun h => this.1 (by simp [h]), fun h => this.2 (by simp [h])⟩
  unfold epsilonProgram
  simp only [hp]
  rw [List.append_assoc, cliRun_append, epsCli_steps t files os hh hv hg href, hok]
  rcases hi with rfl | rfl <;> rfl

/-- The file of the reference set does not exist: the exit status is 1, whatever follows, and no file changes. -/
theorem C94_epsilon_no_reference_file (fmt : Ext K → List Char) (t : CliTexts) (pre rest : List Word) (os : List (EpsOpt × Option Word)) (fs : List Word) (hd : ∀ w ∈ pre, w ≠ ['-', '-'])
    (name : Word) (h : CmdLine (epsUsage ++ epsExtra) pre (os ++ [(.reference, some name)]) fs) (hh : hasOpt .help os = false) (hv : hasOpt .version os = false) (stdin : List Char) (files : Files)
    (hname : files name = none) (href : ∀ name, (EpsOpt.reference, some name) ∈ os → files name ≠ none) (st : IndSt K) (hok : indOptions scan junk ⟨0, none, none⟩ (epsArgs files os) = .ok st) :
    epsilonProgram scan junk fmt t (pre ++ rest) stdin files = .exit 1 [] files := by
  have hp := C93_epsilon_append pre rest _ fs hd h
  have hg : EpsArgsGiven os := by
    have := eps_given pre
    rw [(C93_epsilon pre _ fs).2 h] at this
    exact ⟨fun h => this.1 (by simp [h]), fun h => this.2 (by simp [h])⟩
  unfold epsilonProgram
  simp only [hp]
  rw [List.append_assoc, cliRun_append, epsCli_steps t files os hh hv hg href, hok]
  simp [indCliEnd, cliRun, epsCliStep, indCliRef, hname]

theorem epsilonProgram_cases (fmt : Ext K → List Char) (t : CliTexts) (argv : List Word) (stdin : List Char) (files : Files) :
    epsilonProgram scan junk fmt t argv stdin files = .undefined ∨ epsilonProgram scan junk fmt t argv stdin files = .abort ∨
      (∃ status out, epsilonProgram scan junk fmt t argv stdin files = .exit status out files) ∨
      ∃ c os names, CmdLine (epsUsage ++ epsExtra) argv os names ∧ c.suffix = lastArg .suffix os ∧
        epsilonProgram scan junk fmt t argv stdin files = indRun scan epsilonIndicator epsilonBad fmt c names stdin files := by
  unfold epsilonProgram
  simp only
  rcases cliRun_cases (epsCliStep scan junk t files) (cliParse epsTable epsCases argv).2 (cliParse epsTable epsCases argv).1 ⟨⟨0, none, none⟩, none, true⟩ with
    ⟨o, s, -, -, h3⟩ | ⟨o, s, status, out, -, -, h3⟩ | ⟨c, h1, h2⟩
  · rw [h3]; exact Or.inl rfl
  · rw [h3]; exact Or.inr (Or.inr (Or.inl ⟨status, out, rfl⟩))
  · rw [h2]
    cases he : (cliParse epsTable epsCases argv).2 with
    | bad => exact Or.inr (Or.inr (Or.inl ⟨1, [], rfl⟩))
    | abort => exact Or.inr (Or.inl rfl)
    | files names =>
      exact Or.inr (Or.inr (Or.inr ⟨c, (cliParse epsTable epsCases argv).1, names, (C93_epsilon argv _ names).1 (by rw [← he]), epsCli_suffix t files _ c h1, rfl⟩))

/-- Whatever the command line is, `epsilon` changes only output files of the files it is given, named with the suffix. -/
theorem C94_epsilon_frame (fmt : Ext K → List Char) (t : CliTexts) (argv : List Word) (stdin : List Char) (files : Files) (status : ℕ) (out : List Char) (files' : Files)
    (h : epsilonProgram scan junk fmt t argv stdin files = .exit status out files') (n : Word) (hn : files' n ≠ files n) :
    ∃ os names s, CmdLine (epsUsage ++ epsExtra) argv os names ∧ lastArg .suffix os = some s ∧ ∃ f ∈ names, n = f ++ s := by
  rcases epsilonProgram_cases (scan := scan) (junk := junk) fmt t argv stdin files with h1 | h1 | ⟨status', out', h1⟩ | ⟨c, os, names, h2, h3, h1⟩
  · rw [h1] at h; simp at h
  · rw [h1] at h; simp at h
  · rw [h1] at h
    simp only [RunOut.exit.injEq] at h
    exact absurd (by rw [← h.2.2]) hn
  · rw [h1] at h
    obtain ⟨s, h4, h5⟩ := indRun_frame _ _ _ _ _ _ _ _ _ _ h n hn
    exact ⟨os, names, s, h2, by rw [← h3, h4], h5⟩

theorem epsCli_reads (t : CliTexts) (files files' : Files) (e : CliEnd) (os : List (EpsOpt × Option Word)) (h : ∀ name, (EpsOpt.reference, some name) ∈ os → files name = files' name) : ∀ c,
    cliRun (epsCliStep scan junk t files) c os e = cliRun (epsCliStep scan junk t files') c os e := by
  induction os with
  | nil => intro c; cases e <;> rfl
  | cons o os ih =>
    intro c
    have hstep : epsCliStep scan junk t files c o = epsCliStep scan junk t files' c o := by
      obtain ⟨i, a⟩ := o
      cases i with
      | reference =>
        cases a with
        | none => rfl
        | some name => simp only [epsCliStep, indCliRef, h name (by simp)]
      | obj => cases a <;> rfl
      | _ => rfl
    rw [cliRun, cliRun, hstep]
    cases epsCliStep scan junk t files' c o with
    | undefined => rfl
    | exit status out => rfl
    | next c' => exact ih (fun name hn => h name (by simp [hn])) c'

/-- `epsilon` reads only the files it is given and the files of reference sets; the standard input only if it is given no file. -/
theorem C94_epsilon_reads (fmt : Ext K → List Char) (t : CliTexts) (argv : List Word) (os : List (EpsOpt × Option Word)) (names : List Word) (hcl : CmdLine (epsUsage ++ epsExtra) argv os names)
    (stdin stdin' : List Char) (files files' : Files) (h1 : names = [] → stdin = stdin') (h2 : ∀ n ∈ names, files n = files' n)
    (h3 : ∀ name, (EpsOpt.reference, some name) ∈ os → files name = files' name) :
    SameRun (epsilonProgram scan junk fmt t argv stdin files) (epsilonProgram scan junk fmt t argv stdin' files') := by
  have hp := (C93_epsilon argv os names).2 hcl
  unfold epsilonProgram
  simp only [hp]
  rw [epsCli_reads t files files' _ os h3]
  rcases cliRun_cases (epsCliStep scan junk t files') (.files names) os ⟨⟨0, none, none⟩, none, true⟩ with ⟨o, s, -, -, h⟩ | ⟨o, s, status, out, -, -, h⟩ | ⟨c, -, h⟩
  · rw [h]; trivial
  · rw [h]; exact ⟨rfl, rfl⟩
  · rw [h]
    exact indRun_reads _ _ _ _ _ _ _ _ _ h1 h2

/-- A file that does not exist (and is not made by the program itself) makes `epsilon` fail, unless an option has already ended it. -/
theorem C94_epsilon_missing (fmt : Ext K → List Char) (t : CliTexts) (argv : List Word) (os : List (EpsOpt × Option Word)) (names : List Word) (h : CmdLine (epsUsage ++ epsExtra) argv os names)
    (hh : hasOpt .help os = false) (hv : hasOpt .version os = false) (stdin : List Char) (files : Files) (href : ∀ name, (EpsOpt.reference, some name) ∈ os → files name ≠ none)
    (st : IndSt K) (hok : indOptions scan junk ⟨0, none, none⟩ (epsArgs files os) = .ok st)
    (missing : Word) (hmem : missing ∈ names) (hm : files missing = none) (hsuf : ∀ s, lastArg .suffix os = some s → ∀ f ∈ names, f ++ s ≠ missing)
    (status : ℕ) (out : List Char) (files' : Files) (he : epsilonProgram scan junk fmt t argv stdin files = .exit status out files') : status = 1 := by
  rw [epsilonProgram_run fmt t argv os names h hh hv stdin files href, hok] at he
  exact indRun_missing _ _ _ _ _ _ _ missing hmem hm hsuf _ _ _ he

end

/-! ### `igd` -/

/-- The options of `igd` that have a meaning for its `main` on contents; a reference set is in a file. -/
def igdArgs (files : Files) (os : List (IgdOpt × Option Word)) : List IndArg := os.filterMap fun o =>
  match o with
  | (.obj, some str) => some (.obj str)
  | (.reference, some name) => (files name).map .reference
  | _ => none

/-- The indicators that are computed. -/
def igdFlagsOf (os : List (IgdOpt × Option Word)) : IgdFlags :=
  ⟨hasOpt .gd os || hasOpt .all os, hasOpt .igd os || hasOpt .all os, hasOpt .gdP os || hasOpt .all os, hasOpt .igdPlus os || hasOpt .all os, hasOpt .hausdorff os || hasOpt .all os⟩

/-- The exponent, 1 by default. -/
def igdExponent (atoi : Word → ℕ) (os : List (IgdOpt × Option Word)) : ℕ := ((lastArg .exponent os).map atoi).getD 1

/-- Every option that must have an argument has one. -/
def IgdArgsGiven (os : List (IgdOpt × Option Word)) : Prop := (IgdOpt.obj, none) ∉ os ∧ (IgdOpt.reference, none) ∉ os ∧ (IgdOpt.exponent, none) ∉ os

theorem igd_required : ∀ d ∈ withoutLetters ['p'] igdUsage ++ igdExtra, d.id = IgdOpt.obj ∨ d.id = IgdOpt.reference ∨ d.id = IgdOpt.exponent → d.arg = .required := by decide +kernel

theorem igd_given (argv : List Word) : IgdArgsGiven (cliParse igdTable igdCases argv).1 := by
  refine ⟨?_, ?_, ?_⟩
  · intro h
    obtain ⟨d, hd, h1, h2, -⟩ := C93_igd_args argv .obj none h
    exact h2 (igd_required d hd (Or.inl h1)) rfl
  · intro h
    obtain ⟨d, hd, h1, h2, -⟩ := C93_igd_args argv .reference none h
    exact h2 (igd_required d hd (Or.inr (Or.inl h1))) rfl
  · intro h
    obtain ⟨d, hd, h1, h2, -⟩ := C93_igd_args argv .exponent none h
    exact h2 (igd_required d hd (Or.inr (Or.inr h1))) rfl

section
variable {scan : NumScan ℝ} {junk : ℕ → ℤ} (atoi : Word → ℕ)

theorem igdCli_steps (t : CliTexts) (files : Files) (os : List (IgdOpt × Option Word)) (hh : hasOpt .help os = false) (hv : hasOpt .version os = false) (hg : IgdArgsGiven os)
    (href : ∀ name, (IgdOpt.reference, some name) ∈ os → files name ≠ none) :
    cliSteps (igdCliStep scan atoi junk t files) ⟨⟨0, none, none⟩, none, (⟨false, false, false, false, false⟩, 1)⟩ os =
      indCliEnd (lastArg .suffix os) (igdFlagsOf os, igdExponent atoi os) (indOptions scan junk ⟨0, none, none⟩ (igdArgs files os)) := by
  induction os using List.reverseRecOn with
  | nil => rfl
  | append_singleton os o ih =>
    obtain ⟨i, a⟩ := o
    rw [hasOpt_append, Bool.or_eq_false_iff] at hh hv
    have h1 := ih hh.1 hv.1 ⟨fun h => hg.1 (by simp [h]), fun h => hg.2.1 (by simp [h]), fun h => hg.2.2 (by simp [h])⟩ (fun b hb => href b (by simp [hb]))
    rw [cliSteps_append, h1, lastArg_append]
    have hargs : igdArgs files (os ++ [(i, a)]) = igdArgs files os ++ igdArgs files [(i, a)] := by simp [igdArgs]
    rw [hargs]
    cases i with
    | help => simp at hh
    | version => simp at hv
    | exponent =>
      cases a with
      | none => exact absurd (by simp) hg.2.2
      | some str =>
        rw [indCli_flag (igdCliStep scan atoi junk t files) (.exponent, some str) _ (lastArg .suffix os) _ (igdFlagsOf os, atoi str) (fun st => rfl)]
        simp [igdArgs, igdFlagsOf, igdExponent, hasOpt_append, lastArg_append]
    | obj =>
      cases a with
      | none => exact absurd (by simp) hg.1
      | some str =>
        rw [indCli_arg (igdCliStep scan atoi junk t files) (.obj, some str) _ _ (.obj str) (fun st => rfl) _ _]
        simp [igdArgs, igdFlagsOf, igdExponent, hasOpt_append, lastArg_append]
    | reference =>
      cases a with
      | none => exact absurd (by simp) hg.2.1
      | some name =>
        cases hf : files name with
        | none => exact absurd hf (href name (by simp))
        | some text =>
          have : igdArgs files [(IgdOpt.reference, some name)] = [.reference text] := by simp [igdArgs, hf]
          rw [this]
          rw [indCli_arg (igdCliStep scan atoi junk t files) (.reference, some name) _ _ (.reference text) (fun c => by simp [igdCliStep, indCliRef, hf]) _ _]
          simp [igdFlagsOf, igdExponent, hasOpt_append, lastArg_append]
    | verbose =>
      rw [indCli_flag (igdCliStep scan atoi junk t files) (.verbose, a) _ (lastArg .suffix os) _ (igdFlagsOf os, igdExponent atoi os) (fun st => rfl)]
      simp [igdArgs, igdFlagsOf, igdExponent, hasOpt_append, lastArg_append]
    | quiet =>
      rw [indCli_flag (igdCliStep scan atoi junk t files) (.quiet, a) _ (lastArg .suffix os) _ (igdFlagsOf os, igdExponent atoi os) (fun st => rfl)]
      simp [igdArgs, igdFlagsOf, igdExponent, hasOpt_append, lastArg_append]
    | suffix =>
      rw [indCli_flag (igdCliStep scan atoi junk t files) (.suffix, a) _ a _ (igdFlagsOf os, igdExponent atoi os) (fun st => rfl)]
      simp [igdArgs, igdFlagsOf, igdExponent, hasOpt_append, lastArg_append]
    | igdP =>
      rw [indCli_flag (igdCliStep scan atoi junk t files) (.igdP, a) _ (lastArg .suffix os) _ (igdFlagsOf os, igdExponent atoi os) (fun st => rfl)]
      simp [igdArgs, igdFlagsOf, igdExponent, hasOpt_append, lastArg_append]
    | all =>
      rw [indCli_flag (igdCliStep scan atoi junk t files) (.all, a) _ (lastArg .suffix os) _ (⟨true, true, true, true, true⟩, igdExponent atoi os) (fun st => rfl)]
      simp [igdArgs, igdFlagsOf, igdExponent, hasOpt_append, lastArg_append]
    | gd =>
      rw [indCli_flag (igdCliStep scan atoi junk t files) (.gd, a) _ (lastArg .suffix os) _ ({ igdFlagsOf os with gd := true }, igdExponent atoi os) (fun st => rfl)]
      simp [igdArgs, igdFlagsOf, igdExponent, hasOpt_append, lastArg_append]
    | igd =>
      rw [indCli_flag (igdCliStep scan atoi junk t files) (.igd, a) _ (lastArg .suffix os) _ ({ igdFlagsOf os with igd := true }, igdExponent atoi os) (fun st => rfl)]
      simp [igdArgs, igdFlagsOf, igdExponent, hasOpt_append, lastArg_append]
    | gdP =>
      rw [indCli_flag (igdCliStep scan atoi junk t files) (.gdP, a) _ (lastArg .suffix os) _ ({ igdFlagsOf os with gdp := true }, igdExponent atoi os) (fun st => rfl)]
      simp [igdArgs, igdFlagsOf, igdExponent, hasOpt_append, lastArg_append]
    | igdPlus =>
      rw [indCli_flag (igdCliStep scan atoi junk t files) (.igdPlus, a) _ (lastArg .suffix os) _ ({ igdFlagsOf os with igdplus := true }, igdExponent atoi os) (fun st => rfl)]
      simp [igdArgs, igdFlagsOf, igdExponent, hasOpt_append, lastArg_append]
    | hausdorff =>
      rw [indCli_flag (igdCliStep scan atoi junk t files) (.hausdorff, a) _ (lastArg .suffix os) _ ({ igdFlagsOf os with hausdorff := true }, igdExponent atoi os) (fun st => rfl)]
      simp [igdArgs, igdFlagsOf, igdExponent, hasOpt_append, lastArg_append]

theorem igdCli_suffix (t : CliTexts) (files : Files) (os : List (IgdOpt × Option Word)) (c : IndCli ℝ (IgdFlags × ℕ)) (h : cliSteps (igdCliStep scan atoi junk t files) ⟨⟨0, none, none⟩, none, (⟨false, false, false, false, false⟩, 1)⟩ os = .next c) :
    c.suffix = lastArg .suffix os := by
  refine cliSteps_inv (igdCliStep scan atoi junk t files) (fun os c => c.suffix = lastArg .suffix os) _ rfl ?_ os c h
  rintro os ⟨i, a⟩ c c' h1 h2
  rw [lastArg_append]
  have harg : ∀ b, indCliArg scan junk c b = .next c' → c'.suffix = c.suffix := by
    intro b hb
    unfold indCliArg at hb
    cases h3 : indOptions scan junk c.st [b] with
    | undefined => rw [h3] at hb; simp at hb
    | exit status => rw [h3] at hb; simp at hb
    | ok st => rw [h3] at hb; simp only [CliStep.next.injEq] at hb; rw [← hb]
  cases i with
  | obj =>
    cases a with
    | none => simp [igdCliStep] at h2
    | some str => simpa using (harg _ h2).trans h1
  | reference =>
    cases a with
    | none => simp [igdCliStep] at h2
    | some name =>
      simp only [igdCliStep, indCliRef] at h2
      cases hf : files name with
      | none => simp [hf] at h2
      | some text => rw [hf] at h2; simpa using (harg _ h2).trans h1
  | help => simp [igdCliStep] at h2
  | version => simp [igdCliStep] at h2
  | suffix => simp only [igdCliStep, CliStep.next.injEq] at h2; simp [← h2]
  | exponent =>
    cases a with
    | none => simp [igdCliStep] at h2
    | some str => simp only [igdCliStep, CliStep.next.injEq] at h2; subst h2; simpa using h1
  | _ => simp only [igdCliStep, CliStep.next.injEq] at h2; subst h2; simpa using h1

theorem igdProgram_run (fmt : List (WithTop ℝ) → List Char) (t : CliTexts) (argv : List Word) (os : List (IgdOpt × Option Word)) (names : List Word) (h : CmdLine (withoutLetters ['p'] igdUsage ++ igdExtra) argv os names)
    (hh : hasOpt .help os = false) (hv : hasOpt .version os = false) (stdin : List Char) (files : Files) (href : ∀ name, (IgdOpt.reference, some name) ∈ os → files name ≠ none) :
    igdProgram scan atoi junk fmt t argv stdin files = match indOptions scan junk ⟨0, none, none⟩ (igdArgs files os) with
      | .undefined => .undefined
      | .exit status => .exit status [] files
      | .ok st => indRun scan (fun fl : IgdFlags × ℕ => igdIndicator fl.1 fl.2) (fun _ _ => false) fmt ⟨st, lastArg .suffix os, (igdFlagsOf os, igdExponent atoi os)⟩ names stdin files := by
  have hp := (C93_igd argv os names).2 h
  have hg : IgdArgsGiven os := by
    have := igd_given argv
    rwa [hp] at this
  unfold igdProgram
  simp only [hp]
  rw [cliRun_end, igdCli_steps atoi t files os hh hv hg href]
  cases indOptions scan junk ⟨0, none, none⟩ (igdArgs files os) with
  | undefined => rfl
  | exit status => rfl
  | ok st => rfl

/-- `igd` on files is `igd` on their contents (C68), unless an output file is overwritten that has yet to be read. -/
theorem C94_igd (hs : ScanOk scan) (fmt : List (WithTop ℝ) → List Char) (t : CliTexts) (argv : List Word) (os : List (IgdOpt × Option Word)) (names : List Word) (h : CmdLine (withoutLetters ['p'] igdUsage ++ igdExtra) argv os names)
    (hh : hasOpt .help os = false) (hv : hasOpt .version os = false) (hn : names ≠ []) (stdin : List Char) (files : Files) (href : ∀ name, (IgdOpt.reference, some name) ∈ os → files name ≠ none)
    (texts : List (List Char)) (hc : Contents files names texts) (hsuf : ∀ s, lastArg .suffix os = some s → names.Nodup ∧ NoClobber names s) :
    FilesOutcome fmt (fun text => ∃ n, ¬ Unreadable scan text n) names texts (lastArg .suffix os) files
      (igdMain scan junk (igdFlagsOf os) (igdExponent atoi os) (lastArg .suffix os).isSome (igdArgs files os) stdin texts) (igdProgram scan atoi junk fmt t argv stdin files) := by
  rw [igdProgram_run atoi fmt t argv os names h hh hv stdin files href, igdMain, indMain_tail]
  cases indOptions scan junk ⟨0, none, none⟩ (igdArgs files os) with
  | undefined => cases lastArg IgdOpt.suffix os <;> rfl
  | exit status => exact filesOutcome_exit _ _ _ _ _ _ _
  | ok st => exact indRun_eq hs (fun fl : IgdFlags × ℕ => igdIndicator fl.1 fl.2) (fun _ _ => false) fmt ⟨st, lastArg .suffix os, (igdFlagsOf os, igdExponent atoi os)⟩ names hn texts stdin files hc hsuf

/-- Without file names `igd` reads the standard input and writes to the standard output; no file changes, even with `--suffix`. -/
theorem C94_igd_stdin (fmt : List (WithTop ℝ) → List Char) (t : CliTexts) (argv : List Word) (os : List (IgdOpt × Option Word)) (h : CmdLine (withoutLetters ['p'] igdUsage ++ igdExtra) argv os [])
    (hh : hasOpt .help os = false) (hv : hasOpt .version os = false) (stdin : List Char) (files : Files) (href : ∀ name, (IgdOpt.reference, some name) ∈ os → files name ≠ none) :
    igdProgram scan atoi junk fmt t argv stdin files = stdoutRun fmt files (igdMain scan junk (igdFlagsOf os) (igdExponent atoi os) (lastArg .suffix os).isSome (igdArgs files os) stdin []) := by
  rw [igdProgram_run atoi fmt t argv os [] h hh hv stdin files href, igdMain, indMain_tail]
  cases indOptions scan junk ⟨0, none, none⟩ (igdArgs files os) with
  | undefined => rfl
  | exit status => rfl
  | ok st => exact indRun_stdin (fun fl : IgdFlags × ℕ => igdIndicator fl.1 fl.2) (fun _ _ => false) fmt ⟨st, lastArg .suffix os, (igdFlagsOf os, igdExponent atoi os)⟩ _ stdin files

/-- What precedes `--help` (or `--version`) is read; what follows it is not, and no file changes. -/
theorem C94_igd_help (fmt : List (WithTop ℝ) → List Char) (t : CliTexts) (pre rest : List Word) (os : List (IgdOpt × Option Word)) (fs : List Word) (hd : ∀ w ∈ pre, w ≠ ['-', '-'])
    (i : IgdOpt) (hi : i = .help ∨ i = .version) (h : CmdLine (withoutLetters ['p'] igdUsage ++ igdExtra) pre (os ++ [(i, none)]) fs) (hh : hasOpt .help os = false) (hv : hasOpt .version os = false) (stdin : List Char) (files : Files)
    (href : ∀ name, (IgdOpt.reference, some name) ∈ os → files name ≠ none) (st : IndSt ℝ) (hok : indOptions scan junk ⟨0, none, none⟩ (igdArgs files os) = .ok st) :
    igdProgram scan atoi junk fmt t (pre ++ rest) stdin files = .exit 0 (if i = .help then t.usage else t.version) files := by
  have hp := C93_igd_append pre rest _ fs hd h
  have hg : IgdArgsGiven os := by
    have := igd_given pre
    rw [(C93_igd pre _ fs).2 h] at this
    exact ⟨fun h => this.1 (by simp [h]), fun h => this.2.1 (by simp [h]), fun h => this.2.2 (by simp [h])⟩
  unfold igdProgram
  simp only [hp]
  rw [List.append_assoc, cliRun_append, igdCli_steps atoi t files os hh hv hg href, hok]
  rcases hi with rfl | rfl <;> rfl

/-- The file of the reference set does not exist: the exit status is 1, whatever follows, and no file changes. -/
theorem C94_igd_no_reference_file (fmt : List (WithTop ℝ) → List Char) (t : CliTexts) (pre rest : List Word) (os : List (IgdOpt × Option Word)) (fs : List Word) (hd : ∀ w ∈ pre, w ≠ ['-', '-'])
    (name : Word) (h : CmdLine (withoutLetters ['p'] igdUsage ++ igdExtra) pre (os ++ [(.reference, some name)]) fs) (hh : hasOpt .help os = false) (hv : hasOpt .version os = false) (stdin : List Char) (files : Files)
    (hname : files name = none) (href : ∀ name, (IgdOpt.reference, some name) ∈ os → files name ≠ none) (st : IndSt ℝ) (hok : indOptions scan junk ⟨0, none, none⟩ (igdArgs files os) = .ok st) :
    igdProgram scan atoi junk fmt t (pre ++ rest) stdin files = .exit 1 [] files := by
  have hp := C93_igd_append pre rest _ fs hd h
  have hg : IgdArgsGiven os := by
    have := igd_given pre
    rw [(C93_igd pre _ fs).2 h] at this
    exact ⟨fun h => this.1 (by simp [h]), fun h => this.2.1 (by simp [h]), fun h => this.2.2 (by simp [h])⟩
  unfold igdProgram
  simp only [hp]
  rw [List.append_assoc, cliRun_append, igdCli_steps atoi t files os hh hv hg href, hok]
  simp [indCliEnd, cliRun, igdCliStep, indCliRef, hname]

theorem igdProgram_cases (fmt : List (WithTop ℝ) → List Char) (t : CliTexts) (argv : List Word) (stdin : List Char) (files : Files) :
    igdProgram scan atoi junk fmt t argv stdin files = .undefined ∨ igdProgram scan atoi junk fmt t argv stdin files = .abort ∨
      (∃ status out, igdProgram scan atoi junk fmt t argv stdin files = .exit status out files) ∨
      ∃ c os names, CmdLine (withoutLetters ['p'] igdUsage ++ igdExtra) argv os names ∧ c.suffix = lastArg .suffix os ∧
        igdProgram scan atoi junk fmt t argv stdin files = indRun scan (fun fl : IgdFlags × ℕ => igdIndicator fl.1 fl.2) (fun _ _ => false) fmt c names stdin files := by
  unfold igdProgram
  simp only
  rcases cliRun_cases (igdCliStep scan atoi junk t files) (cliParse igdTable igdCases argv).2 (cliParse igdTable igdCases argv).1 ⟨⟨0, none, none⟩, none, (⟨false, false, false, false, false⟩, 1)⟩ with
    ⟨o, s, -, -, h3⟩ | ⟨o, s, status, out, -, -, h3⟩ | ⟨c, h1, h2⟩
  · rw [h3]; exact Or.inl rfl
  · rw [h3]; exact Or.inr (Or.inr (Or.inl ⟨status, out, rfl⟩))
  · rw [h2]
    cases he : (cliParse igdTable igdCases argv).2 with
    | bad => exact Or.inr (Or.inr (Or.inl ⟨1, [], rfl⟩))
    | abort => exact Or.inr (Or.inl rfl)
    | files names =>
      exact Or.inr (Or.inr (Or.inr ⟨c, (cliParse igdTable igdCases argv).1, names, (C93_igd argv _ names).1 (by rw [← he]), igdCli_suffix atoi t files _ c h1, rfl⟩))

/-- Whatever the command line is, `igd` changes only output files of the files it is given, named with the suffix. -/
theorem C94_igd_frame (fmt : List (WithTop ℝ) → List Char) (t : CliTexts) (argv : List Word) (stdin : List Char) (files : Files) (status : ℕ) (out : List Char) (files' : Files)
    (h : igdProgram scan atoi junk fmt t argv stdin files = .exit status out files') (n : Word) (hn : files' n ≠ files n) :
    ∃ os names s, CmdLine (withoutLetters ['p'] igdUsage ++ igdExtra) argv os names ∧ lastArg .suffix os = some s ∧ ∃ f ∈ names, n = f ++ s := by
  rcases igdProgram_cases (scan := scan) (junk := junk) atoi fmt t argv stdin files with h1 | h1 | ⟨status', out', h1⟩ | ⟨c, os, names, h2, h3, h1⟩
  · rw [h1] at h; simp at h
  · rw [h1] at h; simp at h
  · rw [h1] at h
    simp only [RunOut.exit.injEq] at h
    exact absurd (by rw [← h.2.2]) hn
  · rw [h1] at h
    obtain ⟨s, h4, h5⟩ := indRun_frame _ _ _ _ _ _ _ _ _ _ h n hn
    exact ⟨os, names, s, h2, by rw [← h3, h4], h5⟩

theorem igdCli_reads (t : CliTexts) (files files' : Files) (e : CliEnd) (os : List (IgdOpt × Option Word)) (h : ∀ name, (IgdOpt.reference, some name) ∈ os → files name = files' name) : ∀ c,
    cliRun (igdCliStep scan atoi junk t files) c os e = cliRun (igdCliStep scan atoi junk t files') c os e := by
  induction os with
  | nil => intro c; cases e <;> rfl
  | cons o os ih =>
    intro c
    have hstep : igdCliStep scan atoi junk t files c o = igdCliStep scan atoi junk t files' c o := by
      obtain ⟨i, a⟩ := o
      cases i with
      | reference =>
        cases a with
        | none => rfl
        | some name => simp only [igdCliStep, indCliRef, h name (by simp)]
      | obj => cases a <;> rfl
      | exponent => cases a <;> rfl
      | _ => rfl
    rw [cliRun, cliRun, hstep]
    cases igdCliStep scan atoi junk t files' c o with
    | undefined => rfl
    | exit status out => rfl
    | next c' => exact ih (fun name hn => h name (by simp [hn])) c'

/-- `igd` reads only the files it is given and the files of reference sets; the standard input only if it is given no file. -/
theorem C94_igd_reads (fmt : List (WithTop ℝ) → List Char) (t : CliTexts) (argv : List Word) (os : List (IgdOpt × Option Word)) (names : List Word) (hcl : CmdLine (withoutLetters ['p'] igdUsage ++ igdExtra) argv os names)
    (stdin stdin' : List Char) (files files' : Files) (h1 : names = [] → stdin = stdin') (h2 : ∀ n ∈ names, files n = files' n)
    (h3 : ∀ name, (IgdOpt.reference, some name) ∈ os → files name = files' name) :
    SameRun (igdProgram scan atoi junk fmt t argv stdin files) (igdProgram scan atoi junk fmt t argv stdin' files') := by
  have hp := (C93_igd argv os names).2 hcl
  unfold igdProgram
  simp only [hp]
  rw [igdCli_reads atoi t files files' _ os h3]
  rcases cliRun_cases (igdCliStep scan atoi junk t files') (.files names) os ⟨⟨0, none, none⟩, none, (⟨false, false, false, false, false⟩, 1)⟩ with ⟨o, s, -, -, h⟩ | ⟨o, s, status, out, -, -, h⟩ | ⟨c, -, h⟩
  · rw [h]; trivial
  · rw [h]; exact ⟨rfl, rfl⟩
  · rw [h]
    exact indRun_reads _ _ _ _ _ _ _ _ _ h1 h2

/-- A file that does not exist (and is not made by the program itself) makes `igd` fail, unless an option has already ended it. -/
theorem C94_igd_missing (fmt : List (WithTop ℝ) → List Char) (t : CliTexts) (argv : List Word) (os : List (IgdOpt × Option Word)) (names : List Word) (h : CmdLine (withoutLetters ['p'] igdUsage ++ igdExtra) argv os names)
    (hh : hasOpt .help os = false) (hv : hasOpt .version os = false) (stdin : List Char) (files : Files) (href : ∀ name, (IgdOpt.reference, some name) ∈ os → files name ≠ none)
    (st : IndSt ℝ) (hok : indOptions scan junk ⟨0, none, none⟩ (igdArgs files os) = .ok st)
    (missing : Word) (hmem : missing ∈ names) (hm : files missing = none) (hsuf : ∀ s, lastArg .suffix os = some s → ∀ f ∈ names, f ++ s ≠ missing)
    (status : ℕ) (out : List Char) (files' : Files) (he : igdProgram scan atoi junk fmt t argv stdin files = .exit status out files') : status = 1 := by
  rw [igdProgram_run atoi fmt t argv os names h hh hv stdin files href, hok] at he
  exact indRun_missing _ _ _ _ _ _ _ missing hmem hm hsuf _ _ _ he

end

end Moo
