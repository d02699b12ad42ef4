import Verif.Lemmas.FsEaf
import Verif.Props.CommandLine
import Verif.Props.EafMain
import Verif.Props.NdSort
import Verif.Props.DsMain

/-!
# C118: what the programs `eaf`, `ndsort` and `dominatedsets` do to files
-/

set_option autoImplicit false
set_option linter.unusedSectionVars false

namespace Moo

/-! ### `eaf` -/

section
variable {K : Type*} [Field K] [LinearOrder K] [IsStrictOrderedRing K] [FloorRing K]

theorem eaf_required : ∀ d ∈ eafUsage ++ eafExtra, (d.id = EafOpt.level ∨ d.id = .percentile ∨ d.id = .output) → d.arg = .required := by decide +kernel

/-- What an option leaves behind. -/
def eafNext (p : Bool) : EafOptRes K → CliStep (EafCli K)
  | .undefined => .undefined
  | .exit s => .exit s []
  | .ok st => .next ⟨st, p⟩

theorem eafCli_steps (env : EafMainEnv K) (t : CliTexts) (os : List (EafOpt × Option Word)) : ∀ (c : EafCli K), hasOpt .help os = false → hasOpt .version os = false →
    (∀ o ∈ os, o.1 = .level ∨ o.1 = .percentile ∨ o.1 = .output → o.2 ≠ none) →
    cliSteps (eafCliStep env t) c os = eafNext (c.polygons || hasOpt .polygons os) (eafOptions env c.st (eafArgsOf os)) := by
  induction os with
  | nil => intro c _ _ _; simp [cliSteps, eafArgsOf, eafOptions, hasOpt, eafNext]
  | cons o os ih =>
    intro c hh hv hr
    obtain ⟨i, a⟩ := o
    have hh' : hasOpt EafOpt.help os = false := by simp [hasOpt] at hh ⊢; exact hh.2
    have hv' : hasOpt EafOpt.version os = false := by simp [hasOpt] at hv ⊢; exact hv.2
    have hr' : ∀ o ∈ os, o.1 = .level ∨ o.1 = .percentile ∨ o.1 = .output → o.2 ≠ none := fun o ho => hr o (List.mem_cons_of_mem _ ho)
    have hr0 := hr (i, a) (List.mem_cons_self ..)
    have arg : ∀ x : EafArg, eafCliStep env t c (i, a) = eafCliArg env c x → eafArgOf (i, a) = some x → (i ≠ .polygons) →
        cliSteps (eafCliStep env t) c ((i, a) :: os) = eafNext (c.polygons || hasOpt .polygons ((i, a) :: os)) (eafOptions env c.st (eafArgsOf ((i, a) :: os))) := by
      intro x h1 h2 h3
      have e : eafArgsOf ((i, a) :: os) = x :: eafArgsOf os := by simp [eafArgsOf, h2]
      have e2 : hasOpt EafOpt.polygons ((i, a) :: os) = hasOpt EafOpt.polygons os := by simp [hasOpt, h3]
      rw [cliSteps, h1, e, e2, eafOptions_cons, eafCliArg]
      rcases eafOptions env c.st [x] with s | _ | st
      · rfl
      · rfl
      · simp only
        rw [ih _ hh' hv' hr']
    cases i with
    | help => simp [hasOpt] at hh
    | version => simp [hasOpt] at hv
    | level =>
      cases a with
      | none => exact absurd rfl (hr0 (by simp))
      | some s => exact arg (.level s) rfl rfl (by simp)
    | percentile =>
      cases a with
      | none => exact absurd rfl (hr0 (by simp))
      | some s => exact arg (.percentile s) rfl rfl (by simp)
    | output =>
      cases a with
      | none => exact absurd rfl (hr0 (by simp))
      | some s => exact arg (.output s) rfl rfl (by simp)
    | indices => exact arg (.indices a) rfl rfl (by simp)
    | diff => exact arg (.diff a) rfl rfl (by simp)
    | best => exact arg .best rfl rfl (by simp)
    | median => exact arg .median rfl rfl (by simp)
    | worst => exact arg .worst rfl rfl (by simp)
    | quiet => exact arg .quiet rfl rfl (by simp)
    | verbose => exact arg .verbose rfl rfl (by simp)
    | polygons =>
      simp only [cliSteps, eafCliStep]
      rw [ih _ hh' hv' hr']
      have e : eafArgsOf ((EafOpt.polygons, a) :: os) = eafArgsOf os := by
        rw [eafArgsOf, List.filterMap_cons_none (by rfl)]
        rfl
      rw [e]
      simp [hasOpt]

theorem eafCli_run (env : EafMainEnv K) (t : CliTexts) (argv : List Word) (os : List (EafOpt × Option Word)) (names : List Word) (h : CmdLine (eafUsage ++ eafExtra) argv os names)
    (hh : hasOpt .help os = false) (hv : hasOpt .version os = false) :
    cliRun (eafCliStep env t) ⟨⟨true, false, false, false, [], [], none, none, none, none, none⟩, false⟩ (cliParse eafTable eafCases argv).1 (cliParse eafTable eafCases argv).2 =
      match eafOptions env ⟨true, false, false, false, [], [], none, none, none, none, none⟩ (eafArgsOf os) with
      | .undefined => .undefined
      | .exit s => .exit s []
      | .ok st => .run ⟨st, hasOpt .polygons os⟩ names := by
  have hp := (C93_eaf argv os names).2 h
  have hr : ∀ o ∈ os, o.1 = EafOpt.level ∨ o.1 = .percentile ∨ o.1 = .output → o.2 ≠ none := by
    rintro ⟨i, a⟩ ho hi
    obtain ⟨d, hd, h1, h2, -⟩ := C93_eaf_args argv i a (by rw [hp]; exact ho)
    exact h2 (eaf_required d hd (by rw [h1]; exact hi))
  rw [hp, cliRun_end, eafCli_steps env t os _ hh hv hr]
  rcases eafOptions env ⟨true, false, false, false, [], [], none, none, none, none, none⟩ (eafArgsOf os) with s | _ | st
  · rfl
  · rfl
  · simp [cliRun, eafNext]

theorem eafInputs_eq (names : List Word) : (if names = [] then [['-']] else names) = eafInputs names := rfl

/-- What both kinds of output have in common. -/
theorem streams_done {T : Type*} (fmt : T → List Char) (env : EafMainEnv K) (args : List EafArg) (st : EafMainSt K)
    (h : eafOptions env ⟨true, false, false, false, [], [], none, none, none, none, none⟩ args = .ok st) (files : Files) (w : List (OutStream × T))
    (hw : ∀ p ∈ w, ∀ n, p.1 = .file n → n ∈ eafOpens st) (opened : Prop) (ho : opened) :
    StreamsOutcome fmt args opened files (.exit 0 w) (.exit 0 (emitAll fmt w ([], openAll files (eafOpens st))).1 (emitAll fmt w ([], openAll files (eafOpens st))).2) := by
  refine ⟨_, by rw [emitAll_stdout]; rfl, fun n => ⟨fun hn => ?_, fun hn => ?_⟩, fun _ => ho, fun h => absurd rfl h⟩
  · have hm := (eafOpens_iff env args st h n).2 hn.2
    rw [emitAll_opened fmt n w _ [] (by simp [openAll_apply, hm])]
    rfl
  · have hm : n ∉ eafOpens st := fun hm => hn ⟨ho, (eafOpens_iff env args st h n).1 hm⟩
    rw [emitAll_other fmt n w _ (fun p hp e => hm (hw p hp n e))]
    simp [openAll_apply, hm]

theorem streams_fail {T : Type*} (fmt : T → List Char) (env : EafMainEnv K) (args : List EafArg) (st : EafMainSt K)
    (h : eafOptions env ⟨true, false, false, false, [], [], none, none, none, none, none⟩ args = .ok st) (files : Files) (opened : Prop) (ho : opened) :
    StreamsOutcome fmt args opened files (.exit 1 []) (.exit 1 [] (openAll files (eafOpens st))) := by
  refine ⟨_, rfl, fun n => ⟨fun hn => ?_, fun hn => ?_⟩, fun h => absurd h (by simp), fun _ => rfl⟩
  · have hm := (eafOpens_iff env args st h n).2 hn.2
    simp [openAll_apply, hm, streamText]
  · have hm : n ∉ eafOpens st := fun hm => hn ⟨ho, (eafOpens_iff env args st h n).1 hm⟩
    simp [openAll_apply, hm]

theorem streams_unopened {T : Type*} (fmt : T → List Char) (args : List EafArg) (files : Files) (opened : Prop) (ho : ¬ opened) (status : ℕ) (hs : status ≠ 0) :
    StreamsOutcome fmt args opened files (.exit status []) (.exit status [] files) :=
  ⟨files, rfl, fun _ => ⟨fun h => absurd h.1 ho, fun _ => rfl⟩, fun h => absurd h hs, fun _ => rfl⟩

theorem eafOptions_exit (env : EafMainEnv K) (args : List EafArg) : ∀ (st : EafMainSt K) (s : ℕ), eafOptions env st args = .exit s → s = 1 := by
  induction args with
  | nil => intro st s h; simp [eafOptions] at h
  | cons a args ih =>
    intro st s h
    rw [eafOptions_cons] at h
    rcases h0 : eafOptions env st [a] with s' | _ | st'
    · rw [h0] at h
      simp only [EafOptRes.exit.injEq] at h
      subst h
      cases a with
      | level str =>
        simp only [eafOptions] at h0
        split_ifs at h0
        split at h0 <;> simp at h0
        exact h0.symm
      | percentile str =>
        simp only [eafOptions] at h0
        split_ifs at h0
        split at h0 <;> simp at h0
        exact h0.symm
      | indices a => cases a <;> simp [eafOptions] at h0
      | diff a => cases a <;> simp [eafOptions] at h0
      | _ => simp [eafOptions] at h0
    · rw [h0] at h; simp at h
    · rw [h0] at h; exact ih st' s h

/-- The output files are opened: the options and all input could be read. -/
def EafOpened (env : EafMainEnv K) (args : List EafArg) (texts : List (List Char)) : Prop :=
  (∃ st, eafOptions env ⟨true, false, false, false, [], [], none, none, none, none, none⟩ args = .ok st) ∧ ∃ r, eafRead env.scan 0 [] [] texts = some (some r)

/-- **C118, `eaf`.** `eaf` on files is `eaf` on their contents (C72), whatever names are given: every output file has what was written to it and nothing else, also if it is one of the input files, and no other
file changes.  The output files are opened only after all input was read, and then also if the program fails: they are empty then. -/
theorem C118_eaf (env : EafMainEnv K) (inf ninf : K) (fuelP : ℕ) (fmt : EafTok K → List Char) (fmtP : PolyTok K → List Char) (t : CliTexts) (argv : List Word) (os : List (EafOpt × Option Word))
    (names : List Word) (h : CmdLine (eafUsage ++ eafExtra) argv os names) (hh : hasOpt .help os = false) (hv : hasOpt .version os = false) (stdin : List Char) (files : Files) (texts : List (List Char))
    (ht : InputTexts files stdin (eafInputs names) texts) (hp : hasOpt .polygons os = false) :
    StreamsOutcome fmt (eafArgsOf os) (EafOpened env (eafArgsOf os) texts) files (eafMain env fuelP (eafArgsOf os) texts) (eafProgram env inf ninf fuelP fmt fmtP t argv stdin files) := by
  unfold eafProgram
  simp only [eafCli_run env t argv os names h hh hv]
  unfold eafMain EafOpened
  rcases h0 : eafOptions env ⟨true, false, false, false, [], [], none, none, none, none, none⟩ (eafArgsOf os) with s | _ | st
  · have := eafOptions_exit env _ _ s h0
    subst this
    exact streams_unopened _ _ _ _ (by simp) 1 (by simp)
  · rfl
  · simp only [hp]
    unfold eafRun
    rw [eafInputs_eq, eafReadFs_eq env.scan files stdin _ texts ht]
    rcases eafRead env.scan 0 [] [] texts with _ | _ | ⟨nobj, cum, data⟩
    · rfl
    · exact streams_unopened _ _ _ _ (by simp) 1 (by simp)
    · simp only
      rcases eafLevels env.tol st cum.length with _ | _ | level
      · rfl
      · exact streams_fail _ env _ st h0 _ _ (by simp)
      · simp only
        by_cases hve : st.verbose = true ∧ cum = []
        · rw [if_pos hve, if_pos hve]; rfl
        · rw [if_neg hve, if_neg hve]
          rcases attsurf env fuelP (blockTable (fun j => data.getD j 0) nobj 0) nobj (fun r => cum.getD r 0) cum.length level with _ | _ | es
          · rfl
          · exact streams_fail _ env _ st h0 _ _ (by simp)
          · simp only [Bool.false_eq_true, if_false]
            cases hw : eafPrint nobj (eafStreams st).1 (eafStreams st).2.1 (eafStreams st).2.2 es with
            | none => rfl
            | some w =>
              refine streams_done fmt env _ st h0 files w ?_ _ (by simp)
              intro p hp n hn
              have := eafPrint_streams _ _ _ _ _ w hw p hp
              rw [hn] at this
              exact eafStreams_opens env _ st h0 n (this.imp Eq.symm id)

/-- **C118, `eaf`, without failure.** If `eaf` on the texts writes `w` and exits with 0, so does `eaf` on the files. -/
theorem C118_eaf_done (env : EafMainEnv K) (inf ninf : K) (fuelP : ℕ) (fmt : EafTok K → List Char) (fmtP : PolyTok K → List Char) (t : CliTexts) (argv : List Word) (os : List (EafOpt × Option Word))
    (names : List Word) (h : CmdLine (eafUsage ++ eafExtra) argv os names) (hh : hasOpt .help os = false) (hv : hasOpt .version os = false) (stdin : List Char) (files : Files) (texts : List (List Char))
    (ht : InputTexts files stdin (eafInputs names) texts) (hp : hasOpt .polygons os = false) (w : List (OutStream × EafTok K)) (hm : eafMain env fuelP (eafArgsOf os) texts = .exit 0 w) :
    ∃ files', eafProgram env inf ninf fuelP fmt fmtP t argv stdin files = .exit 0 (streamText fmt .stdout w) files' ∧
      (∀ n, IsOutput (eafArgsOf os) n → files' n = some (streamText fmt (.file n) w)) ∧ ∀ n, ¬ IsOutput (eafArgsOf os) n → files' n = files n := by
  have h := C118_eaf env inf ninf fuelP fmt fmtP t argv os names h hh hv stdin files texts ht hp
  rw [hm] at h
  obtain ⟨files', h1, h2, h3, -⟩ := h
  exact ⟨files', h1, fun n hn => (h2 n).1 ⟨h3 rfl, hn⟩, fun n hn => (h2 n).2 fun hc => hn hc.2⟩

/-- **C118, `eaf --polygons`.** The same with the option `--polygons`. -/
theorem C118_eaf_polygons (env : EafMainEnv K) (inf ninf : K) (fuelP : ℕ) (fmt : EafTok K → List Char) (fmtP : PolyTok K → List Char) (t : CliTexts) (argv : List Word)
    (os : List (EafOpt × Option Word)) (names : List Word) (h : CmdLine (eafUsage ++ eafExtra) argv os names) (hh : hasOpt .help os = false) (hv : hasOpt .version os = false) (stdin : List Char)
    (files : Files) (texts : List (List Char)) (ht : InputTexts files stdin (eafInputs names) texts) (hp : hasOpt .polygons os = true) :
    StreamsOutcome fmtP (eafArgsOf os) (EafOpened env (eafArgsOf os) texts) files (eafMainPolygons env inf ninf fuelP (eafArgsOf os) texts)
      (eafProgram env inf ninf fuelP fmt fmtP t argv stdin files) := by
  unfold eafProgram
  simp only [eafCli_run env t argv os names h hh hv]
  unfold eafMainPolygons EafOpened
  rcases h0 : eafOptions env ⟨true, false, false, false, [], [], none, none, none, none, none⟩ (eafArgsOf os) with s | _ | st
  · have := eafOptions_exit env _ _ s h0
    subst this
    exact streams_unopened _ _ _ _ (by simp) 1 (by simp)
  · rfl
  · simp only [hp]
    unfold eafRun
    rw [eafInputs_eq, eafReadFs_eq env.scan files stdin _ texts ht]
    rcases eafRead env.scan 0 [] [] texts with _ | _ | ⟨nobj, cum, data⟩
    · rfl
    · exact streams_unopened _ _ _ _ (by simp) 1 (by simp)
    · simp only
      rcases eafLevels env.tol st cum.length with _ | _ | level
      · rfl
      · exact streams_fail _ env _ st h0 _ _ (by simp)
      · simp only
        by_cases hve : st.verbose = true ∧ cum = []
        · rw [if_pos hve, if_pos hve]; rfl
        · rw [if_neg hve, if_neg hve]
          rcases attsurf env fuelP (blockTable (fun j => data.getD j 0) nobj 0) nobj (fun r => cum.getD r 0) cum.length level with _ | _ | es
          · rfl
          · exact streams_fail _ env _ st h0 _ _ (by simp)
          · simp only [if_true]
            cases hw : eafPrintPolygon inf ninf (eafStreams st).1 es with
            | none => rfl
            | some w =>
              refine streams_done fmtP env _ st h0 files w ?_ _ (by simp)
              intro p hp n hn
              have := eafPrintPolygon_streams inf ninf _ es w hw p hp
              rw [hn] at this
              exact eafStreams_opens env _ st h0 n (Or.inl this.symm)

/-- **C118, missing input.** If an input file does not exist, `eaf` fails (unless something undefined happens before that) and writes nothing: no file is created or emptied. -/
theorem C118_eaf_missing (env : EafMainEnv K) (inf ninf : K) (fuelP : ℕ) (fmt : EafTok K → List Char) (fmtP : PolyTok K → List Char) (t : CliTexts) (argv : List Word)
    (os : List (EafOpt × Option Word)) (names : List Word) (h : CmdLine (eafUsage ++ eafExtra) argv os names) (hh : hasOpt .help os = false) (hv : hasOpt .version os = false) (stdin : List Char)
    (files : Files) (missing : Word) (hmem : missing ∈ names) (hm : files missing = none) (hd : missing ≠ ['-']) :
    eafProgram env inf ninf fuelP fmt fmtP t argv stdin files = .undefined ∨ eafProgram env inf ninf fuelP fmt fmtP t argv stdin files = .exit 1 [] files := by
  unfold eafProgram
  simp only [eafCli_run env t argv os names h hh hv]
  rcases h0 : eafOptions env ⟨true, false, false, false, [], [], none, none, none, none, none⟩ (eafArgsOf os) with s | _ | st
  · have := eafOptions_exit env _ _ s h0
    subst this
    exact Or.inr rfl
  · exact Or.inl rfl
  · simp only
    unfold eafRun
    rw [eafInputs_eq]
    have hne : eafInputs names = names := by
      unfold eafInputs
      rw [if_neg (by rintro rfl; simp at hmem)]
    rw [hne]
    rcases eafReadFs_missing env.scan files missing hm hd names stdin 0 [] [] hmem with e | e
    · rw [e]; exact Or.inl rfl
    · rw [e]; exact Or.inr rfl

/-- **C118, a wrong percentile or level.** The program fails, and the output files are emptied: what they had before is lost. -/
theorem C118_eaf_emptied (env : EafMainEnv K) (he : EafEnvOk env) (inf ninf : K) (fuelP : ℕ) (fmt : EafTok K → List Char) (fmtP : PolyTok K → List Char) (t : CliTexts) (argv : List Word)
    (os : List (EafOpt × Option Word)) (names : List Word) (h : CmdLine (eafUsage ++ eafExtra) argv os names) (hh : hasOpt .help os = false) (hv : hasOpt .version os = false)
    (hpol : hasOpt .polygons os = false) (stdin : List Char) (files : Files) (texts : List (List Char)) (ht : InputTexts files stdin (eafInputs names) texts) {ps : List K} {ls : List ℤ}
    (hp : ArgNumbers env.scan ((eafArgsOf os).filterMap EafArg.percentile?) ps) (hl : ArgNumbers env.scanInt ((eafArgsOf os).filterMap EafArg.level?) ls) (hps : ps.length < 50) (hls : ls.length < 50)
    {n : ℕ} {runs : List (List (List K))} (hf : FilesRuns env.scan n texts runs) (hw : LevelsWrong runs.length (eafArgsOf os) ps ls) :
    ∃ files', eafProgram env inf ninf fuelP fmt fmtP t argv stdin files = .exit 1 [] files' ∧ (∀ f, IsOutput (eafArgsOf os) f → files' f = some []) ∧
      ∀ f, ¬ IsOutput (eafArgsOf os) f → files' f = files f := by
  have h1 := C118_eaf env inf ninf fuelP fmt fmtP t argv os names h hh hv stdin files texts ht hpol
  rw [C72_level_error he hp hl hps hls hf hw fuelP] at h1
  obtain ⟨files', g1, g2, -, -⟩ := h1
  have hop : EafOpened env (eafArgsOf os) texts := by
    refine ⟨⟨_, eafOptions_ok env he.scan he.scanInt _ _ ps ls hp hl (by simpa [maxLevels] using hps) (by simpa [maxLevels] using hls)⟩, _, eafRead_ok he.scan hf⟩
  exact ⟨files', g1, fun f hf => (g2 f).1 ⟨hop, hf⟩, fun f hf => (g2 f).2 fun hh => hf hh.2⟩

end

/-! ### `ndsort` -/

section
variable {K : Type*} [Field K] [LinearOrder K]

theorem ns_required : ∀ d ∈ nsUsage ++ nsExtra, d.id = NsOpt.obj → d.arg = .required := by decide +kernel

theorem nsOptions_cons (junk : ℕ → ℤ) (st : NsSt) (a : NsArg) (args : List NsArg) :
    nsOptions junk st (a :: args) = match nsOptions junk st [a] with
      | .ok st => nsOptions junk st args
      | .exit s => .exit s := by
  cases a with
  | rank => simp [nsOptions]
  | keepUevs => simp [nsOptions]
  | obj str =>
    simp only [nsOptions]
    rcases readMinmax junk str st.dim with _ | _ | _ <;> rfl

/-- What an option leaves behind. -/
def nsNext (v : Bool) : NsRes → CliStep NsCli
  | .exit s => .exit s []
  | .ok st => .next ⟨st, v⟩

/-- The verbosity after the options `os`, if it was `v` before. -/
def nsVerboseFrom (v : Bool) (os : List (NsOpt × Option Word)) : Bool :=
  ((os.filterMap fun o => if o.1 = .verbose then some true else if o.1 = .quiet then some false else none).getLast?).getD v

theorem nsVerboseFrom_cons (v : Bool) (o : NsOpt × Option Word) (os : List (NsOpt × Option Word)) :
    nsVerboseFrom v (o :: os) = nsVerboseFrom (if o.1 = .verbose then true else if o.1 = .quiet then false else v) os := by
  unfold nsVerboseFrom
  rw [List.filterMap_cons]
  have key : ∀ (l : List Bool) (a : Bool), ((a :: l).getLast?).getD v = l.getLast?.getD a := by
    intro l a
    rw [List.getLast?_cons]
    rfl
  split_ifs <;> simp only <;> first | rfl | exact key _ _

theorem nsCli_steps (junk : ℕ → ℤ) (t : CliTexts) (os : List (NsOpt × Option Word)) : ∀ (c : NsCli), hasOpt .help os = false → hasOpt .version os = false →
    (∀ o ∈ os, o.1 = .obj → o.2 ≠ none) →
    cliSteps (nsCliStep junk t) c os = nsNext (nsVerboseFrom c.verbose os) (nsOptions junk c.st (os.filterMap nsArgOf)) := by
  induction os with
  | nil => intro c _ _ _; simp [cliSteps, nsOptions, nsNext, nsVerboseFrom]
  | cons o os ih =>
    intro c hh hv hr
    obtain ⟨i, a⟩ := o
    have hh' : hasOpt NsOpt.help os = false := by simp [hasOpt] at hh ⊢; exact hh.2
    have hv' : hasOpt NsOpt.version os = false := by simp [hasOpt] at hv ⊢; exact hv.2
    have hr' : ∀ o ∈ os, o.1 = .obj → o.2 ≠ none := fun o ho => hr o (List.mem_cons_of_mem _ ho)
    have hr0 := hr (i, a) (List.mem_cons_self ..)
    have arg : ∀ x : NsArg, nsCliStep junk t c (i, a) = nsCliArg junk c x → nsArgOf (i, a) = some x → i ≠ .verbose → i ≠ .quiet →
        cliSteps (nsCliStep junk t) c ((i, a) :: os) = nsNext (nsVerboseFrom c.verbose ((i, a) :: os)) (nsOptions junk c.st (((i, a) :: os).filterMap nsArgOf)) := by
      intro x h1 h2 h3 h4
      rw [cliSteps, h1, List.filterMap_cons_some h2, nsOptions_cons, nsCliArg, nsVerboseFrom_cons, if_neg h3, if_neg h4]
      rcases nsOptions junk c.st [x] with s | st
      · rfl
      · exact ih _ hh' hv' hr'
    cases i with
    | help => simp [hasOpt] at hh
    | version => simp [hasOpt] at hv
    | obj =>
      cases a with
      | none => exact absurd rfl (hr0 rfl)
      | some s => exact arg (.obj s) rfl rfl (by simp) (by simp)
    | rank => exact arg .rank rfl rfl (by simp) (by simp)
    | keepUevs => exact arg .keepUevs rfl rfl (by simp) (by simp)
    | quiet =>
      simp only [cliSteps, nsCliStep]
      rw [ih _ hh' hv' hr', List.filterMap_cons_none (by rfl), nsVerboseFrom_cons]
      rfl
    | verbose =>
      simp only [cliSteps, nsCliStep]
      rw [ih _ hh' hv' hr', List.filterMap_cons_none (by rfl), nsVerboseFrom_cons]
      rfl

theorem nsProgram_run (env : NsEnv K) (head : Option Word → ℕ → List Char) (fmt : NsLine K → List Char) (t : CliTexts) (argv : List Word) (os : List (NsOpt × Option Word)) (names : List Word)
    (h : CmdLine (nsUsage ++ nsExtra) argv os names) (hh : hasOpt .help os = false) (hv : hasOpt .version os = false) (stdin : List Char) (files : Files) :
    nsProgram env head fmt t argv stdin files = match nsOptions env.junk ⟨false, 0, none⟩ (os.filterMap nsArgOf) with
      | .exit s => .exit s [] files
      | .ok st => nsRun env head fmt ⟨st, nsVerbose os⟩ names stdin files := by
  have hp := (C93_ndsort argv os names).2 h
  have hr : ∀ o ∈ os, o.1 = NsOpt.obj → o.2 ≠ none := by
    rintro ⟨i, a⟩ ho hi
    obtain ⟨d, hd, h1, h2, -⟩ := C93_ndsort_args argv i a (by rw [hp]; exact ho)
    exact h2 (ns_required d hd (by rw [h1]; exact hi))
  unfold nsProgram
  simp only [hp]
  rw [cliRun_end, nsCli_steps env.junk t os _ hh hv hr]
  have e : nsVerboseFrom false os = nsVerbose os := rfl
  simp only [e]
  rcases nsOptions env.junk ⟨false, 0, none⟩ (os.filterMap nsArgOf) with s | st
  · rfl
  · rfl

theorem nsFile_exit (env : NsEnv K) (st : NsSt) (text : List Char) (s : ℕ) (w : List (NsLine K)) (h : nsFile env st text = .exit s w) : s = 0 ∨ s = 1 ∧ w = [] := by
  unfold nsFile at h
  split at h
  · simp at h
  · simp only [ProgOut.exit.injEq] at h
    exact Or.inr ⟨h.1.symm, h.2.symm⟩
  · simp only at h
    split at h
    · split_ifs at h
      · simp only [ProgOut.exit.injEq] at h; exact Or.inl h.1.symm
      · split at h
        · simp at h
        · simp only [ProgOut.exit.injEq] at h; exact Or.inl h.1.symm
    · simp at h

/-- **C118, `ndsort`.** `ndsort` on files is `ndsort` on their contents (C70): it writes to the standard output and changes no file.  With `--verbose` it writes the name of the file and the number of points
before that. -/
theorem C118_ndsort (env : NsEnv K) (head : Option Word → ℕ → List Char) (fmt : NsLine K → List Char) (t : CliTexts) (argv : List Word) (os : List (NsOpt × Option Word)) (names : List Word)
    (h : CmdLine (nsUsage ++ nsExtra) argv os names) (hh : hasOpt .help os = false) (hv : hasOpt .version os = false) (stdin : List Char) (files : Files) (texts : List (List Char))
    (hc : Contents files names texts) (hopt : ∃ st, nsOptions env.junk ⟨false, 0, none⟩ (os.filterMap nsArgOf) = .ok st) :
    nsProgram env head fmt t argv stdin files =
      printRun (fun k => if nsVerbose os then head names.head? k else []) fmt files (nsMain env (os.filterMap nsArgOf) stdin texts) := by
  obtain ⟨st, hst⟩ := hopt
  rw [nsProgram_run env head fmt t argv os names h hh hv, nsMain, hst]
  · have hfile : ∀ name text, nsPrint head fmt (nsVerbose os) name files (nsFile env st text) =
        printRun (fun k => if nsVerbose os then head name k else []) fmt files (nsFile env st text) := by
      intro name text
      rcases hf : nsFile env st text with ⟨s, w⟩ | _
      · rcases nsFile_exit env st text s w hf with rfl | ⟨rfl, rfl⟩ <;> rfl
      · rfl
    simp only
    cases hc with
    | nil => exact hfile none stdin
    | @cons name text names texts h1 h2 =>
      cases h2 with
      | nil => simp only [nsRun, h1]; exact hfile (some name) text
      | cons h3 h4 => rfl

/-- **C118, `ndsort` and wrong options.** If the options are not accepted, nothing is read or written, and the status is that of C70. -/
theorem C118_ndsort_options (env : NsEnv K) (head : Option Word → ℕ → List Char) (fmt : NsLine K → List Char) (t : CliTexts) (argv : List Word) (os : List (NsOpt × Option Word)) (names : List Word)
    (h : CmdLine (nsUsage ++ nsExtra) argv os names) (hh : hasOpt .help os = false) (hv : hasOpt .version os = false) (stdin : List Char) (files : Files)
    (hopt : ¬ ∃ st, nsOptions env.junk ⟨false, 0, none⟩ (os.filterMap nsArgOf) = .ok st) :
    ∃ status, nsProgram env head fmt t argv stdin files = .exit status [] files ∧ ∀ texts, nsMain env (os.filterMap nsArgOf) stdin texts = .exit status [] := by
  rw [nsProgram_run env head fmt t argv os names h hh hv]
  unfold nsMain
  rcases h0 : nsOptions env.junk ⟨false, 0, none⟩ (os.filterMap nsArgOf) with s | st
  · exact ⟨s, rfl, fun _ => rfl⟩
  · exact absurd ⟨st, h0⟩ hopt

/-- **C118, `ndsort` and missing files.** A file that does not exist makes `ndsort` fail; nothing is written. -/
theorem C118_ndsort_missing (env : NsEnv K) (head : Option Word → ℕ → List Char) (fmt : NsLine K → List Char) (t : CliTexts) (argv : List Word) (os : List (NsOpt × Option Word)) (names : List Word)
    (h : CmdLine (nsUsage ++ nsExtra) argv os names) (hh : hasOpt .help os = false) (hv : hasOpt .version os = false) (stdin : List Char) (files : Files) (missing : Word)
    (hmem : missing ∈ names) (hm : files missing = none) (hopt : ∃ st, nsOptions env.junk ⟨false, 0, none⟩ (os.filterMap nsArgOf) = .ok st) :
    nsProgram env head fmt t argv stdin files = .exit 1 [] files := by
  obtain ⟨st, hst⟩ := hopt
  rw [nsProgram_run env head fmt t argv os names h hh hv, hst]
  · rcases names with _ | ⟨a, _ | ⟨b, l⟩⟩
    · simp at hmem
    · have : missing = a := by simpa using hmem
      subst this
      simp [nsRun, hm]
    · rfl

end

/-! ### `dominatedsets` -/

section
variable {K : Type*} [Field K] [LinearOrder K] [IsStrictOrderedRing K]

theorem ds_required : ∀ d ∈ dsUsage ++ dsExtra, d.id = DsOpt.obj → d.arg = .required := by decide +kernel

theorem dsOptions_cons (junk : ℕ → ℤ) (st : DsSt) (a : DsArg) (args : List DsArg) :
    dsOptions junk st (a :: args) = match dsOptions junk st [a] with
      | .ok st => dsOptions junk st args
      | .exit s => .exit s := by
  cases a with
  | percentages => simp [dsOptions]
  | noCheck => simp [dsOptions]
  | obj str =>
    simp only [dsOptions]
    rcases readMinmax junk str st.dim with _ | _ | _ <;> rfl

/-- What an option leaves behind. -/
def dsNext : DsRes → CliStep DsSt
  | .exit s => .exit s []
  | .ok st => .next st

theorem dsCli_steps (junk : ℕ → ℤ) (t : CliTexts) (os : List (DsOpt × Option Word)) : ∀ (c : DsSt), hasOpt .help os = false → hasOpt .version os = false →
    (∀ o ∈ os, o.1 = .obj → o.2 ≠ none) →
    cliSteps (dsCliStep junk t) c os = dsNext (dsOptions junk c (os.filterMap dsArgOf)) := by
  induction os with
  | nil => intro c _ _ _; simp [cliSteps, dsOptions, dsNext]
  | cons o os ih =>
    intro c hh hv hr
    obtain ⟨i, a⟩ := o
    have hh' : hasOpt DsOpt.help os = false := by simp [hasOpt] at hh ⊢; exact hh.2
    have hv' : hasOpt DsOpt.version os = false := by simp [hasOpt] at hv ⊢; exact hv.2
    have hr' : ∀ o ∈ os, o.1 = .obj → o.2 ≠ none := fun o ho => hr o (List.mem_cons_of_mem _ ho)
    have hr0 := hr (i, a) (List.mem_cons_self ..)
    have arg : ∀ x : DsArg, dsCliStep junk t c (i, a) = dsCliArg junk c x → dsArgOf (i, a) = some x →
        cliSteps (dsCliStep junk t) c ((i, a) :: os) = dsNext (dsOptions junk c (((i, a) :: os).filterMap dsArgOf)) := by
      intro x h1 h2
      rw [cliSteps, h1, List.filterMap_cons_some h2, dsOptions_cons, dsCliArg]
      rcases dsOptions junk c [x] with s | st
      · rfl
      · exact ih _ hh' hv' hr'
    cases i with
    | help => simp [hasOpt] at hh
    | version => simp [hasOpt] at hv
    | obj =>
      cases a with
      | none => exact absurd rfl (hr0 rfl)
      | some s => exact arg (.obj s) rfl rfl
    | percentages => exact arg .percentages rfl rfl
    | noCheck => exact arg .noCheck rfl rfl
    | quiet =>
      simp only [cliSteps, dsCliStep]
      rw [ih _ hh' hv' hr', List.filterMap_cons_none (by rfl)]
    | verbose =>
      simp only [cliSteps, dsCliStep]
      rw [ih _ hh' hv' hr', List.filterMap_cons_none (by rfl)]

theorem dsProgram_run (env : DsEnv K) (head : DsSt → List Word → List ((ℕ → ℕ → K) × List ℕ) → List Char) (render : List (DsLine K) → List Char) (t : CliTexts) (argv : List Word)
    (os : List (DsOpt × Option Word)) (names : List Word) (h : CmdLine (dsUsage ++ dsExtra) argv os names) (hh : hasOpt .help os = false) (hv : hasOpt .version os = false) (files : Files) :
    dsProgram env head render t argv files = match dsOptions env.junk ⟨false, true, 0, none⟩ (os.filterMap dsArgOf) with
      | .exit s => .exit s [] files
      | .ok st => dsRun env head render t st names files := by
  have hp := (C93_dominatedsets argv os names).2 h
  have hr : ∀ o ∈ os, o.1 = DsOpt.obj → o.2 ≠ none := by
    rintro ⟨i, a⟩ ho hi
    obtain ⟨d, hd, h1, h2, -⟩ := C93_dominatedsets_args argv i a (by rw [hp]; exact ho)
    exact h2 (ds_required d hd (by rw [h1]; exact hi))
  unfold dsProgram
  simp only [hp]
  rw [cliRun_end, dsCli_steps env.junk t os _ hh hv hr]
  rcases dsOptions env.junk ⟨false, true, 0, none⟩ (os.filterMap dsArgOf) with s | st
  · rfl
  · rfl

/-- **C118, `dominatedsets`.** `dominatedsets` on files is `dominatedsets` on their contents (C71): it writes the tables to the standard output, after its header, and changes no file. -/
theorem C118_dominatedsets (env : DsEnv K) (head : DsSt → List Word → List ((ℕ → ℕ → K) × List ℕ) → List Char) (render : List (DsLine K) → List Char) (t : CliTexts) (argv : List Word)
    (os : List (DsOpt × Option Word)) (names : List Word) (h : CmdLine (dsUsage ++ dsExtra) argv os names) (hh : hasOpt .help os = false) (hv : hasOpt .version os = false) (files : Files)
    (texts : List (List Char)) (hc : Contents files names texts) (hopt : ∃ st, dsOptions env.junk ⟨false, true, 0, none⟩ (os.filterMap dsArgOf) = .ok st) :
    TablesOutcome render files (dsMain env (os.filterMap dsArgOf) texts) (dsProgram env head render t argv files) := by
  obtain ⟨st, hst⟩ := hopt
  have hlen : names.length = texts.length := List.Forall₂.length_eq hc
  rw [dsProgram_run env head render t argv os names h hh hv, dsMain, hst]
  simp only
  unfold dsRun
  rw [← hlen]
  by_cases h1 : names.length ≤ 1
  · rw [if_pos h1, if_pos h1]
    exact ⟨t.usage, rfl, fun h => absurd h (by simp)⟩
  · rw [if_neg h1, if_neg h1, dsReadFs_eq env.scan files names texts st.dim hc]
    rcases dsRead env.scan st.dim texts with _ | _ | ⟨data, dim⟩
    · rfl
    · exact ⟨[], rfl, fun h => absurd h (by simp)⟩
    · simp only
      have key : ∀ (minmax : ℕ → ℤ), TablesOutcome render files
          (match dsCompare dim minmax 0 data (fun _ _ => -1) with
            | none => .undefined
            | some results => .exit 0 (dsPrint st.percentages names.length (fun k => (data.getD k (fun _ _ => 0, [])).2.length) results))
          (match dsCompare dim minmax 0 data (fun _ _ => -1) with
            | none => .undefined
            | some results => .exit 0 (head st names data ++ render (dsPrint st.percentages names.length (fun k => (data.getD k (fun _ _ => 0, [])).2.length) results)) files) := by
        intro minmax
        cases dsCompare dim minmax 0 data (fun _ _ => -1) with
        | none => rfl
        | some results => exact ⟨_, rfl, fun _ => ⟨_, rfl⟩⟩
      split_ifs
      · rcases dsCheckAll env dim (st.minmax.getD fun _ => AGREE_MINIMISE) data with _ | _ | _
        · rfl
        · exact key _
        · exact ⟨_, rfl, fun h => absurd h (by simp)⟩
      · exact key _

/-- **C118, `dominatedsets` and wrong options.** If the options are not accepted, nothing is read or written, and the status is that of C71. -/
theorem C118_dominatedsets_options (env : DsEnv K) (head : DsSt → List Word → List ((ℕ → ℕ → K) × List ℕ) → List Char) (render : List (DsLine K) → List Char) (t : CliTexts) (argv : List Word)
    (os : List (DsOpt × Option Word)) (names : List Word) (h : CmdLine (dsUsage ++ dsExtra) argv os names) (hh : hasOpt .help os = false) (hv : hasOpt .version os = false) (files : Files)
    (hopt : ¬ ∃ st, dsOptions env.junk ⟨false, true, 0, none⟩ (os.filterMap dsArgOf) = .ok st) :
    ∃ status, dsProgram env head render t argv files = .exit status [] files ∧ ∀ texts, dsMain env (os.filterMap dsArgOf) texts = .exit status [] := by
  rw [dsProgram_run env head render t argv os names h hh hv]
  unfold dsMain
  rcases h0 : dsOptions env.junk ⟨false, true, 0, none⟩ (os.filterMap dsArgOf) with s | st
  · exact ⟨s, rfl, fun _ => rfl⟩
  · exact absurd ⟨st, h0⟩ hopt

/-- **C118, `dominatedsets` and missing files.** A file that does not exist makes `dominatedsets` fail (unless something undefined happens before that), without tables; no file changes. -/
theorem C118_dominatedsets_missing (env : DsEnv K) (head : DsSt → List Word → List ((ℕ → ℕ → K) × List ℕ) → List Char) (render : List (DsLine K) → List Char) (t : CliTexts) (argv : List Word)
    (os : List (DsOpt × Option Word)) (names : List Word) (h : CmdLine (dsUsage ++ dsExtra) argv os names) (hh : hasOpt .help os = false) (hv : hasOpt .version os = false) (files : Files)
    (missing : Word) (hmem : missing ∈ names) (hm : files missing = none) (hopt : ∃ st, dsOptions env.junk ⟨false, true, 0, none⟩ (os.filterMap dsArgOf) = .ok st) :
    dsProgram env head render t argv files = .undefined ∨ ∃ out, dsProgram env head render t argv files = .exit 1 out files ∧ (out = [] ∨ out = t.usage) := by
  obtain ⟨st, hst⟩ := hopt
  rw [dsProgram_run env head render t argv os names h hh hv, hst]
  simp only
  unfold dsRun
  by_cases h1 : names.length ≤ 1
  · rw [if_pos h1]
    exact Or.inr ⟨_, rfl, Or.inr rfl⟩
  · rw [if_neg h1]
    rcases dsReadFs_missing env.scan files missing hm names st.dim hmem with e | e
    · rw [e]; exact Or.inl rfl
    · rw [e]; exact Or.inr ⟨_, rfl, Or.inl rfl⟩

end

/-! ### Every command line -/

theorem eafCli_next {K : Type*} [Field K] [LinearOrder K] [IsStrictOrderedRing K] [FloorRing K] (env : EafMainEnv K) (t : CliTexts) (os : List (EafOpt × Option Word)) : ∀ (c c' : EafCli K), cliSteps (eafCliStep env t) c os = .next c' →
    eafOptions env c.st (eafArgsOf os) = .ok c'.st := by
  induction os with
  | nil =>
    intro c c' h
    simp only [cliSteps, CliStep.next.injEq] at h
    subst h
    simp [eafArgsOf, eafOptions]
  | cons o os ih =>
    intro c c' h
    rw [cliSteps] at h
    rcases hs : eafCliStep env t c o with _ | ⟨s, w⟩ | c1
    · rw [hs] at h; simp at h
    · rw [hs] at h; simp at h
    · rw [hs] at h
      have hi := ih c1 c' h
      have arg : ∀ x : EafArg, eafCliStep env t c o = eafCliArg env c x → eafArgOf o = some x → eafOptions env c.st (eafArgsOf (o :: os)) = .ok c'.st := by
        intro x h1 h2
        have e : eafArgsOf (o :: os) = x :: eafArgsOf os := by simp [eafArgsOf, h2]
        rw [e, eafOptions_cons]
        rw [h1, eafCliArg] at hs
        rcases h0 : eafOptions env c.st [x] with s | _ | st
        · rw [h0] at hs; simp at hs
        · rw [h0] at hs; simp at hs
        · rw [h0] at hs
          simp only [CliStep.next.injEq] at hs
          subst hs
          exact hi
      obtain ⟨i, a⟩ := o
      cases i with
      | help => simp [eafCliStep] at hs
      | version => simp [eafCliStep] at hs
      | level =>
        cases a with
        | none => simp [eafCliStep] at hs
        | some s => exact arg (.level s) rfl rfl
      | percentile =>
        cases a with
        | none => simp [eafCliStep] at hs
        | some s => exact arg (.percentile s) rfl rfl
      | output =>
        cases a with
        | none => simp [eafCliStep] at hs
        | some s => exact arg (.output s) rfl rfl
      | indices => exact arg (.indices a) rfl rfl
      | diff => exact arg (.diff a) rfl rfl
      | best => exact arg .best rfl rfl
      | median => exact arg .median rfl rfl
      | worst => exact arg .worst rfl rfl
      | quiet => exact arg .quiet rfl rfl
      | verbose => exact arg .verbose rfl rfl
      | polygons =>
        simp only [eafCliStep, CliStep.next.injEq] at hs
        subst hs
        have e : eafArgsOf ((EafOpt.polygons, a) :: os) = eafArgsOf os := by
          rw [eafArgsOf, List.filterMap_cons_none (by rfl)]
          rfl
        rw [e]
        exact hi

theorem cliRun_run {σ : Type*} {I : Type} (step : σ → I × Option Word → CliStep σ) (s s' : σ) (os : List (I × Option Word)) (e : CliEnd) (names : List Word) (h : cliRun step s os e = .run s' names) :
    cliSteps step s os = .next s' := by
  rw [cliRun_end] at h
  rcases hs : cliSteps step s os with _ | ⟨_, _⟩ | s1
  · rw [hs] at h; simp at h
  · rw [hs] at h; simp at h
  · rw [hs] at h
    cases e <;> simp [cliRun] at h
    rw [h.1]

/-- **C118, `eaf`, every command line.** Whatever the arguments are, a run of `eaf` changes no file but the output files that the options before the first error name. -/
theorem C118_eaf_frame {K : Type*} [Field K] [LinearOrder K] [IsStrictOrderedRing K] [FloorRing K] (env : EafMainEnv K) (inf ninf : K) (fuelP : ℕ) (fmt : EafTok K → List Char) (fmtP : PolyTok K → List Char)
    (t : CliTexts) (argv : List Word) (stdin : List Char) (files files' : Files) (status : ℕ) (out : List Char) (h : eafProgram env inf ninf fuelP fmt fmtP t argv stdin files = .exit status out files')
    (n : Word) (hn : ¬ IsOutput (eafArgsOf (cliParse eafTable eafCases argv).1) n) : files' n = files n := by
  unfold eafProgram at h
  simp only at h
  rcases hc : cliRun (eafCliStep env t) ⟨⟨true, false, false, false, [], [], none, none, none, none, none⟩, false⟩ (cliParse eafTable eafCases argv).1 (cliParse eafTable eafCases argv).2 with _ | _ | ⟨s, w⟩ | ⟨c, names⟩
  all_goals rw [hc] at h
  all_goals simp only [RunOut.exit.injEq, reduceCtorEq] at h
  · rw [h.2.2]
  · have ho := eafCli_next env t _ _ c (cliRun_run _ _ _ _ _ _ hc)
    simp only at ho
    have hm : n ∉ eafOpens c.st := fun hm => hn ((eafOpens_iff env _ _ ho n).1 hm)
    have hopen : openAll files (eafOpens c.st) n = files n := by simp [openAll_apply, hm]
    unfold eafRun at h
    simp only at h
    split at h
    · simp at h
    · simp only [RunOut.exit.injEq] at h; rw [h.2.2]
    · split at h
      · simp at h
      · simp only [RunOut.exit.injEq] at h; rw [← h.2.2, hopen]
      · split_ifs at h
        · split at h
          · simp at h
          · simp only [RunOut.exit.injEq] at h; rw [← h.2.2, hopen]
          · split at h
            · simp at h
            · rename_i w hw
              simp only [RunOut.exit.injEq] at h
              rw [← h.2.2, emitAll_other fmtP n w _ (fun p hp e => hm ?_)]
              · exact hopen
              have := eafPrintPolygon_streams inf ninf _ _ w hw p hp
              rw [e] at this
              exact eafStreams_opens env _ c.st ho n (Or.inl this.symm)
        · split at h
          · simp at h
          · simp only [RunOut.exit.injEq] at h; rw [← h.2.2, hopen]
          · split at h
            · simp at h
            · rename_i w hw
              simp only [RunOut.exit.injEq] at h
              rw [← h.2.2, emitAll_other fmt n w _ (fun p hp e => hm ?_)]
              · exact hopen
              have := eafPrint_streams _ _ _ _ _ w hw p hp
              rw [e] at this
              exact eafStreams_opens env _ c.st ho n (this.imp Eq.symm id)

/-- **C118, `ndsort`, every command line.** A run of `ndsort` changes no file. -/
theorem C118_ndsort_frame {K : Type*} [Field K] [LinearOrder K] (env : NsEnv K) (head : Option Word → ℕ → List Char) (fmt : NsLine K → List Char) (t : CliTexts) (argv : List Word)
    (stdin : List Char) (files files' : Files) (status : ℕ) (out : List Char) (h : nsProgram env head fmt t argv stdin files = .exit status out files') : files' = files := by
  unfold nsProgram at h
  simp only at h
  split at h
  · simp at h
  · simp at h
  · simp only [RunOut.exit.injEq] at h; exact h.2.2.symm
  · rename_i c names hc
    have hp : ∀ name p, nsPrint head fmt c.verbose name files p = .exit status out files' → files' = files := by
      intro name p hp
      unfold nsPrint at hp
      split at hp
      · simp at hp
      · simp only [RunOut.exit.injEq] at hp; exact hp.2.2.symm
      · simp only [RunOut.exit.injEq] at hp; exact hp.2.2.symm
    unfold nsRun at h
    split at h
    · exact hp _ _ h
    · split at h
      · simp only [RunOut.exit.injEq] at h; exact h.2.2.symm
      · exact hp _ _ h
    · simp only [RunOut.exit.injEq] at h; exact h.2.2.symm

/-- **C118, `dominatedsets`, every command line.** A run of `dominatedsets` changes no file. -/
theorem C118_dominatedsets_frame {K : Type*} [Field K] [LinearOrder K] [IsStrictOrderedRing K] (env : DsEnv K) (head : DsSt → List Word → List ((ℕ → ℕ → K) × List ℕ) → List Char)
    (render : List (DsLine K) → List Char) (t : CliTexts) (argv : List Word) (files files' : Files) (status : ℕ) (out : List Char)
    (h : dsProgram env head render t argv files = .exit status out files') : files' = files := by
  unfold dsProgram at h
  simp only at h
  split at h
  · simp at h
  · simp at h
  · simp only [RunOut.exit.injEq] at h; exact h.2.2.symm
  · unfold dsRun at h
    simp only at h
    repeat' split at h
    all_goals first
      | (simp only [RunOut.exit.injEq] at h; exact h.2.2.symm)
      | simp at h

/-! ### Examples -/

/-- A file with two sets, and an output file that had something in it. -/
def exFiles : Files := fun n => if n = ['i', 'n'] then some "1 2\n\n1 1\n".toList else if n = ['o', 'u', 't'] then some "old".toList else none

/-- `eaf -o out -l 1,3 in`, where `in` has two sets only: the program fails and `out` is empty afterwards (defect 79). -/
theorem C118_eaf_emptied_example (fuelP : ℕ) (inf ninf : ℚ) (fmt : EafTok ℚ → List Char) (fmtP : PolyTok ℚ → List Char) (t : CliTexts) :
    exFiles "out".toList = some "old".toList ∧
    ∃ files', eafProgram eafRatEnv inf ninf fuelP fmt fmtP t ["-o".toList, "out".toList, "-l".toList, "1,3".toList, "in".toList] [] exFiles = .exit 1 [] files' ∧ files' "out".toList = some [] ∧
      files' "in".toList = exFiles "in".toList := by
  refine ⟨rfl, ?_⟩
  have hcl : CmdLine (eafUsage ++ eafExtra) ["-o".toList, "out".toList, "-l".toList, "1,3".toList, "in".toList] [(.output, some "out".toList), (.level, some "1,3".toList)] ["in".toList] :=
    (C93_eaf _ _ _).1 (by decide +kernel)
  obtain ⟨files', h1, h2, h3⟩ := C118_eaf_emptied eafRatEnv eafRatEnv_ok inf ninf fuelP fmt fmtP t _ _ _ hcl (by decide) (by decide) (by decide) [] exFiles ["1 2\n\n1 1\n".toList]
    (.file _ _ _ _ _ (by decide) rfl (.nil _)) (ps := []) (ls := [1, 3]) .nil (.cons _ _ [1, 3] [] sepNumbers_ex (by simp) .nil) (by simp) (by simp) (n := 2) (runs := [[[1, 2]], [[1, 1]]])
    (.data _ _ [[[1, 2]], [[1, 1]]] [] (checkText_sound (by decide +kernel)) .nil) ⟨by decide, by decide, by decide, Or.inr ⟨rfl, 3, by simp, by simp⟩⟩
  refine ⟨files', h1, h2 _ (Or.inl (by decide)), h3 _ ?_⟩
  rintro (h | h | h) <;> revert h <;> decide

/-- The command line of the next example. -/
theorem exCmdLine : CmdLine (eafUsage ++ eafExtra) ["-o".toList, "in".toList, "in".toList, "-".toList] [(.output, some "in".toList)] ["in".toList, "-".toList] :=
  (C93_eaf _ _ _).1 (by decide +kernel)

/-- `eaf -o in in -`: the output file is the first input file, and the second input is the standard input.  It writes the three surfaces into `in`, and nothing to the standard output. -/
example (fmt : EafTok ℚ → List Char) (fmtP : PolyTok ℚ → List Char) (t : CliTexts) :
    ∃ w files', eafMain eafRatEnv 0 [.output "in".toList] ["1 2\n\n1 1\n".toList, "3 0\n".toList] = .exit 0 w ∧ w.length = 13 ∧
      eafProgram eafRatEnv 0 0 0 fmt fmtP t ["-o".toList, "in".toList, "in".toList, "-".toList] "3 0\n".toList exFiles = .exit 0 [] files' ∧
      files' "in".toList = some (w.flatMap fun p => fmt p.2) ∧ files' "out".toList = some "old".toList := by
  have hi : InputTexts exFiles "3 0\n".toList (eafInputs ["in".toList, "-".toList]) ["1 2\n\n1 1\n".toList, "3 0\n".toList] := .file _ _ _ _ _ (by decide) rfl (.stdin _ _ _ (.nil _))
  have hw : ((eafMain eafRatEnv 0 (eafArgsOf [(.output, some "in".toList)]) ["1 2\n\n1 1\n".toList, "3 0\n".toList]).toOption.map
      fun p => (p.1, p.2.length, p.2.all fun x => x.1 = .file "in".toList)) = some (0, 13, true) := by decide +kernel
  rcases hm : eafMain eafRatEnv 0 (eafArgsOf [(.output, some "in".toList)]) ["1 2\n\n1 1\n".toList, "3 0\n".toList] with ⟨s, w⟩ | _
  · rw [hm] at hw
    simp only [ProgOut.toOption, Option.map_some, Option.some.injEq, Prod.mk.injEq, List.all_eq_true, decide_eq_true_eq] at hw
    obtain ⟨rfl, hl, ha⟩ := hw
    obtain ⟨files', h1, h2, h3⟩ := C118_eaf_done eafRatEnv 0 0 0 fmt fmtP t _ _ _ exCmdLine rfl rfl _ exFiles _ hi rfl w hm
    refine ⟨w, files', hm, hl, ?_, ?_, ?_⟩
    · rw [h1, show streamText fmt .stdout w = [] from ?_]
      unfold streamText
      rw [List.filter_eq_nil_iff.2 (fun p hp => by simp [ha p hp])]
      rfl
    · rw [h2 _ (Or.inl (by decide))]
      unfold streamText
      rw [List.filter_eq_self.2 (fun p hp => by simp [ha p hp])]
    · rw [h3 _ ?_]
      · rfl
      · rintro (h | h | h) <;> revert h <;> decide
  · rw [hm] at hw
    simp [ProgOut.toOption] at hw

/-- `ndsort -v -r in`. -/
example (env : NsEnv ℚ) (head : Option Word → ℕ → List Char) (fmt : NsLine ℚ → List Char) (t : CliTexts) (stdin : List Char) :
    nsProgram env head fmt t ["-v".toList, "-r".toList, "in".toList] stdin exFiles = printRun (head (some "in".toList)) fmt exFiles (nsMain env [.rank] stdin ["1 2\n\n1 1\n".toList]) :=
  C118_ndsort env head fmt t _ [(.verbose, none), (.rank, none)] ["in".toList] ((C93_ndsort _ _ _).1 (by decide +kernel)) (by decide) (by decide) stdin exFiles _ (.cons rfl .nil) ⟨_, rfl⟩

/-- `ndsort none`. -/
example (env : NsEnv ℚ) (head : Option Word → ℕ → List Char) (fmt : NsLine ℚ → List Char) (t : CliTexts) (stdin : List Char) :
    nsProgram env head fmt t ["none".toList] stdin exFiles = .exit 1 [] exFiles :=
  C118_ndsort_missing env head fmt t _ [] ["none".toList] ((C93_ndsort _ _ _).1 (by decide +kernel)) (by decide) (by decide) stdin exFiles "none".toList (by simp) rfl ⟨_, rfl⟩

/-- `dominatedsets -p in in`. -/
example (env : DsEnv ℚ) (head : DsSt → List Word → List ((ℕ → ℕ → ℚ) × List ℕ) → List Char) (render : List (DsLine ℚ) → List Char) (t : CliTexts) :
    TablesOutcome render exFiles (dsMain env [.percentages] ["1 2\n\n1 1\n".toList, "1 2\n\n1 1\n".toList]) (dsProgram env head render t ["-p".toList, "in".toList, "in".toList] exFiles) :=
  C118_dominatedsets env head render t _ [(.percentages, none)] ["in".toList, "in".toList] ((C93_dominatedsets _ _ _).1 (by decide +kernel)) (by decide) (by decide) exFiles _
    (.cons rfl (.cons rfl .nil)) ⟨_, rfl⟩

end Moo
