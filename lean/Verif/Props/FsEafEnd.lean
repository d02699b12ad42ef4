import Verif.Props.FsEaf

/-!
# C118, from the command line and the files to the results

The theorems of FsEaf together with those of C70, C71 and C72.
-/

set_option autoImplicit false
set_option linter.unusedSectionVars false

namespace Moo

section
variable {K : Type*} [Field K] [LinearOrder K] [IsStrictOrderedRing K] [FloorRing K]

theorem streamText_map {T : Type*} (fmt : T → List Char) (s : OutStream) (w : List (OutStream × T)) : streamText fmt s w = ((w.filter fun p => p.1 = s).map (·.2)).flatMap fmt := by
  unfold streamText
  rw [List.flatMap_map]

/-- **C118, `eaf`, from files to surfaces.** For a command line as in C72 there are levels, those asked for, and surfaces of these levels of the sets in the input files, such that the standard output and every
output file have the text of these surfaces for that stream, and no other file changes. -/
theorem C118_eaf_surfaces {env : EafMainEnv K} (he : EafEnvOk env) (inf ninf : K) (fmt : EafTok K → List Char) (fmtP : PolyTok K → List Char) (t : CliTexts) {argv : List Word}
    {os : List (EafOpt × Option Word)} {names : List Word} (h : CmdLine (eafUsage ++ eafExtra) argv os names) (hh : hasOpt .help os = false) (hv : hasOpt .version os = false)
    (hpol : hasOpt .polygons os = false) {stdin : List Char} {files : Files} {texts : List (List Char)} (ht : InputTexts files stdin (eafInputs names) texts) {args : List EafArg} (ha : args = eafArgsOf os)
    {ps : List K} {ls : List ℤ} (hp : ArgNumbers env.scan (args.filterMap EafArg.percentile?) ps) (hl : ArgNumbers env.scanInt (args.filterMap EafArg.level?) ls) (hps : ps.length < 50) (hls : ls.length < 50)
    (hd : NamesDiffer args) {n : ℕ} {runs : List (List (List K))} (hf : FilesRuns env.scan n texts runs) (hr : runs ≠ []) (hin : EafInput env n runs) (hw : ¬ LevelsWrong runs.length args ps ls)
    (hi : 2 ≤ runs.length ∨ indicesTo args = none) :
    ∃ N, ∀ fuelP ≥ N, ∃ ks surfaces files', LevelsOf env.tol runs.length args ps ls ks ∧ List.Forall₂ (IsSurface n runs) ks surfaces ∧
      eafProgram env inf ninf fuelP fmt fmtP t argv stdin files = .exit 0 ((eafText .stdout (pointsTo args) (indicesTo args) (countsTo args) surfaces).flatMap fmt) files' ∧
      (∀ f, IsOutput args f → files' f = some ((eafText (.file f) (pointsTo args) (indicesTo args) (countsTo args) surfaces).flatMap fmt)) ∧ ∀ f, ¬ IsOutput args f → files' f = files f := by
  subst ha
  obtain ⟨N, hN⟩ := C72_eaf_partial he hp hl hps hls hd hf hr hin hw hi
  refine ⟨N, fun fuelP hfp => ?_⟩
  obtain ⟨ks, surfaces, w, h1, h2, h3, h4⟩ := hN fuelP hfp
  obtain ⟨files', g1, g2, g3⟩ := C118_eaf_done env inf ninf fuelP fmt fmtP t argv os names h hh hv stdin files texts ht hpol w h1
  refine ⟨ks, surfaces, files', h2, h3, ?_, fun f hf => ?_, g3⟩
  · rw [g1, streamText_map, h4]
  · rw [g2 f hf, streamText_map, h4]

theorem eaf_unopened (env : EafMainEnv K) (inf ninf : K) (fuelP : ℕ) (fmt : EafTok K → List Char) (fmtP : PolyTok K → List Char) (t : CliTexts) (argv : List Word) (os : List (EafOpt × Option Word))
    (names : List Word) (h : CmdLine (eafUsage ++ eafExtra) argv os names) (hh : hasOpt .help os = false) (hv : hasOpt .version os = false) (hpol : hasOpt .polygons os = false) (stdin : List Char)
    (files : Files) (texts : List (List Char)) (ht : InputTexts files stdin (eafInputs names) texts) (hm : eafMain env fuelP (eafArgsOf os) texts = .exit 1 [])
    (hno : ¬ EafOpened env (eafArgsOf os) texts) : eafProgram env inf ninf fuelP fmt fmtP t argv stdin files = .exit 1 [] files := by
  have h := C118_eaf env inf ninf fuelP fmt fmtP t argv os names h hh hv stdin files texts ht hpol
  rw [hm] at h
  obtain ⟨files', h1, h2, -, -⟩ := h
  rw [h1, show files' = files from funext fun n => (h2 n).2 fun hc => hno hc.1]
  rfl

/-- **C118, a wrong argument.** If an argument of `-p` or `-l` is not a list of numbers, the program fails and no file changes. -/
theorem C118_eaf_argument {env : EafMainEnv K} (he : EafEnvOk env) (inf ninf : K) (fuelP : ℕ) (fmt : EafTok K → List Char) (fmtP : PolyTok K → List Char) (t : CliTexts) {argv : List Word}
    {os : List (EafOpt × Option Word)} {names : List Word} (h : CmdLine (eafUsage ++ eafExtra) argv os names) (hh : hasOpt .help os = false) (hv : hasOpt .version os = false)
    (hpol : hasOpt .polygons os = false) {stdin : List Char} {files : Files} {texts : List (List Char)} (ht : InputTexts files stdin (eafInputs names) texts) (hlen : argLength (eafArgsOf os) < 50)
    (hbad : (∃ str, EafArg.percentile str ∈ eafArgsOf os ∧ ¬ ∃ vs, vs ≠ [] ∧ SepNumbers env.scan str vs) ∨ ∃ str, EafArg.level str ∈ eafArgsOf os ∧ ¬ ∃ vs, vs ≠ [] ∧ SepNumbers env.scanInt str vs) :
    eafProgram env inf ninf fuelP fmt fmtP t argv stdin files = .exit 1 [] files := by
  refine eaf_unopened env inf ninf fuelP fmt fmtP t argv os names h hh hv hpol stdin files texts ht (C72_argument_error he hlen hbad fuelP texts) ?_
  rintro ⟨⟨st, hst⟩, -⟩
  rw [eafOptions_err env he.scan he.scanInt _ _ (by simpa [maxLevels] using hlen) (by simpa [maxLevels] using hlen) hbad] at hst
  simp at hst

/-- **C118, a bad input file.** If an input file has a bad line, or another number of objectives than the files before it, the program fails and no file changes. -/
theorem C118_eaf_bad_file {env : EafMainEnv K} (he : EafEnvOk env) (inf ninf : K) (fuelP : ℕ) (fmt : EafTok K → List Char) (fmtP : PolyTok K → List Char) (t : CliTexts) {argv : List Word}
    {os : List (EafOpt × Option Word)} {names : List Word} (h : CmdLine (eafUsage ++ eafExtra) argv os names) (hh : hasOpt .help os = false) (hv : hasOpt .version os = false)
    (hpol : hasOpt .polygons os = false) {stdin : List Char} {files : Files} {texts rest : List (List Char)} {bad : List Char} (ht : InputTexts files stdin (eafInputs names) (texts ++ bad :: rest))
    {ps : List K} {ls : List ℤ} (hp : ArgNumbers env.scan ((eafArgsOf os).filterMap EafArg.percentile?) ps) (hl : ArgNumbers env.scanInt ((eafArgsOf os).filterMap EafArg.level?) ls) (hps : ps.length < 50)
    (hls : ls.length < 50) {n : ℕ} {runs : List (List (List K))} (hf : FilesRuns env.scan n texts runs) (hu : Unreadable env.scan bad (if runs = [] then 0 else n)) (hno : ¬ NoData env.scan bad) :
    eafProgram env inf ninf fuelP fmt fmtP t argv stdin files = .exit 1 [] files := by
  refine eaf_unopened env inf ninf fuelP fmt fmtP t argv os names h hh hv hpol stdin files _ ht (C72_file_error he hp hl hps hls hf hu hno rest fuelP) ?_
  rintro ⟨-, r, hr⟩
  have := eafRead_files he.scan hf (bad :: rest) [] (by simp)
  simp only [List.nil_append] at this
  rw [eafRead_err he.scan hf.shape hu hno rest] at this
  rw [show eafRead env.scan 0 [] [] (texts ++ bad :: rest) = some none from this] at hr
  simp at hr

end

/-! ### `ndsort` -/

section
variable {env : NsEnv ℝ}

/-- **C118, `ndsort -r` on a file.** The standard output has the number of the front of every point of the file, one per line, and no file changes. -/
theorem C118_ndsort_ranks (hs : ScanOk env.scan) (hsort : ∀ pp m, SortedFront pp m (env.sortFn pp m)) (head : Option Word → ℕ → List Char) (fmt : NsLine ℝ → List Char) (t : CliTexts) {argv : List Word}
    {os : List (NsOpt × Option Word)} {name : Word} (h : CmdLine (nsUsage ++ nsExtra) argv os [name]) (hh : hasOpt .help os = false) (hv : hasOpt .version os = false) (stdin : List Char) {files : Files}
    {text : List Char} (hfile : files name = some text) {n : ℕ} {sets : List (List (List ℝ))} (htext : TextSets env.scan text n sets) (hargs : NsArgsOk n (os.filterMap nsArgOf))
    (hr : hasOpt .rank os = true) (hq : nsVerbose os = false) :
    ∃ ranks, nsProgram env head fmt t argv stdin files = .exit 0 (valueLines (fun k => fmt (.rank k)) ranks) files ∧ FrontsOf n (fun _ => false) sets.flatten ranks := by
  have hmem : NsArg.rank ∈ os.filterMap nsArgOf := by
    simp only [hasOpt, List.any_eq_true, decide_eq_true_eq] at hr
    obtain ⟨⟨i, a⟩, ho, e⟩ := hr
    exact List.mem_filterMap.2 ⟨_, ho, by simp only at e; subst e; rfl⟩
  obtain ⟨ranks, h1, h2⟩ := C70_rank_partial hs hsort n text sets htext _ hargs hmem stdin [text] (by simp [hvInputs])
  obtain ⟨mm, eo⟩ := nsOptions_ok env.junk _ ⟨false, 0, none⟩ hargs.1 hargs.2.1
  refine ⟨ranks, ?_, h2⟩
  rw [C118_ndsort env head fmt t argv os [name] h hh hv stdin files [text] (.cons hfile .nil) ⟨_, eo⟩, h1]
  simp [printRun, hq, valueLines, List.flatMap_map]

/-- **C118, `ndsort` on a file.** Without `-r` the standard output has the values of C70 of every point of the file, one per line, and no file changes. -/
theorem C118_ndsort_orders (hs : ScanOk env.scan) (hsort : ∀ pp m, SortedFront pp m (env.sortFn pp m)) (hlib : HvLibOk env.lib) (head : Option Word → ℕ → List Char) (fmt : NsLine ℝ → List Char)
    (t : CliTexts) {argv : List Word} {os : List (NsOpt × Option Word)} {name : Word} (h : CmdLine (nsUsage ++ nsExtra) argv os [name]) (hh : hasOpt .help os = false) (hv : hasOpt .version os = false)
    (stdin : List Char) {files : Files} {text : List Char} (hfile : files name = some text) {n : ℕ} (hn : 2 ≤ n) {sets : List (List (List ℝ))} (htext : TextSets env.scan text n sets)
    (hargs : NsArgsOk n (os.filterMap nsArgOf)) (hr : hasOpt .rank os = false) (hq : nsVerbose os = false) :
    ∃ orders x, nsProgram env head fmt t argv stdin files = .exit 0 (valueLines (fun v => fmt (.order v)) orders) files ∧ IsScaledFront n sets.flatten x ∧ OrdersOf n env.tol sets.flatten x orders := by
  have hmem : NsArg.rank ∉ os.filterMap nsArgOf := by
    intro hm
    obtain ⟨⟨i, a⟩, ho, e⟩ := List.mem_filterMap.1 hm
    have hi : i = .rank := by
      cases i <;> cases a <;> simp [nsArgOf] at e ⊢
    subst hi
    have : hasOpt NsOpt.rank os = true := by
      simp only [hasOpt, List.any_eq_true, decide_eq_true_eq]
      exact ⟨_, ho, rfl⟩
    rw [hr] at this
    simp at this
  obtain ⟨orders, x, h1, h2, h3⟩ := C70_order_partial hs hsort hlib n hn text sets htext _ hargs hmem stdin [text] (by simp [hvInputs])
  obtain ⟨mm, eo⟩ := nsOptions_ok env.junk _ ⟨false, 0, none⟩ hargs.1 hargs.2.1
  refine ⟨orders, x, ?_, h2, h3⟩
  rw [C118_ndsort env head fmt t argv os [name] h hh hv stdin files [text] (.cons hfile .nil) ⟨_, eo⟩, h1]
  simp [printRun, hq, valueLines, List.flatMap_map]

end

/-! ### `dominatedsets` -/

section
variable {K : Type*} [Field K] [LinearOrder K] [IsStrictOrderedRing K] {env : DsEnv K}

theorem dsOptions_some (junk : ℕ → ℤ) : ∀ (args : List DsArg) (st : DsSt), DsArgsOk args → ∃ st', dsOptions junk st args = .ok st' := by
  intro args
  induction args with
  | nil => intro st _; exact ⟨st, rfl⟩
  | cons a args ih =>
    intro st h
    have h' : DsArgsOk args := fun str hs => h str (by simp [hs])
    cases a with
    | percentages => rw [dsOptions]; exact ih _ h'
    | noCheck => rw [dsOptions]; exact ih _ h'
    | obj str =>
      rw [dsOptions]
      obtain ⟨g1, g2⟩ := h str (by simp)
      obtain ⟨minmax, e1, -⟩ := C44_directions junk str st.dim g1 g2
      rw [e1]
      exact ih _ h'

/-- **C118, `dominatedsets` on files.** The standard output ends with the tables of C71 for the sets in the files, and no file changes. -/
theorem C118_dominatedsets_tables (hs : ScanOk env.scan) (hsort : ∀ pp m, SortedPP2d pp m (env.sortFn pp m)) (head : DsSt → List Word → List ((ℕ → ℕ → K) × List ℕ) → List Char)
    (render : List (DsLine K) → List Char) (t : CliTexts) {argv : List Word} {os : List (DsOpt × Option Word)} {names : List Word} (h : CmdLine (dsUsage ++ dsExtra) argv os names)
    (hh : hasOpt .help os = false) (hv : hasOpt .version os = false) {files : Files} {texts : List (List Char)} (hc : Contents files names texts) {n : ℕ} {F : List (List (List (List K)))}
    (hF : List.Forall₂ (fun t s => TextSets env.scan t n s) texts F) (h2 : 2 ≤ names.length) {args : List DsArg} (ha : args = os.filterMap dsArgOf) (hargs : DsArgsOk args) {dir : ℕ → ℤ}
    (hdir : DirectionsArg n dir (args.filterMap DsArg.obj?).getLast?) (hdir' : ∀ k < n, dir k = -1 ∨ dir k = 1) (hfront : ∀ sets ∈ F, ∀ s ∈ sets, 2 ≤ s.length ∧ FrontDir n dir s) :
    ∃ header, dsProgram env head render t argv files = .exit 0 (header ++ render (dsTables n dir (decide (DsArg.percentages ∈ args)) F)) files := by
  subst ha
  have hlen : names.length = texts.length := List.Forall₂.length_eq hc
  obtain ⟨st, hst⟩ := dsOptions_some env.junk _ ⟨false, true, 0, none⟩ hargs
  have := C118_dominatedsets env head render t argv os names h hh hv files texts hc ⟨st, hst⟩
  rw [C71_counts_partial hs hsort n texts F hF (by omega) _ hargs dir hdir hdir' hfront] at this
  obtain ⟨out, g1, g2⟩ := this
  obtain ⟨header, rfl⟩ := g2 rfl
  exact ⟨header, g1⟩

end

/-! ### Examples -/

/-- `eaf -o in in -`, the command line of FsEaf: the surfaces of the three sets are written into `in`. -/
example (fmt : EafTok ℚ → List Char) (fmtP : PolyTok ℚ → List Char) (t : CliTexts) :
    ∃ N, ∀ fuelP ≥ N, ∃ ks surfaces files', LevelsOf eafRatEnv.tol [[[(1 : ℚ), 2]], [[1, 1]], [[3, 0]]].length [EafArg.output "in".toList] [] [] ks ∧ List.Forall₂ (IsSurface 2 [[[(1 : ℚ), 2]], [[1, 1]], [[3, 0]]]) ks surfaces ∧
      eafProgram eafRatEnv 0 0 fuelP fmt fmtP t ["-o".toList, "in".toList, "in".toList, "-".toList] "3 0\n".toList exFiles =
        .exit 0 ((eafText .stdout (pointsTo [EafArg.output "in".toList]) (indicesTo [EafArg.output "in".toList]) (countsTo [EafArg.output "in".toList]) surfaces).flatMap fmt) files' ∧
      (∀ f, IsOutput [EafArg.output "in".toList] f → files' f = some ((eafText (.file f) (pointsTo [EafArg.output "in".toList]) (indicesTo [EafArg.output "in".toList]) (countsTo [EafArg.output "in".toList]) surfaces).flatMap fmt)) ∧
      ∀ f, ¬ IsOutput [EafArg.output "in".toList] f → files' f = exFiles f := by
  have hi : InputTexts exFiles "3 0\n".toList (eafInputs ["in".toList, "-".toList]) ["1 2\n\n1 1\n".toList, "3 0\n".toList] := .file _ _ _ _ _ (by decide) rfl (.stdin _ _ _ (.nil _))
  have hf : FilesRuns scanRat 2 ["1 2\n\n1 1\n".toList, "3 0\n".toList] [[[1, 2]], [[1, 1]], [[3, 0]]] :=
    .data _ _ [[[1, 2]], [[1, 1]]] _ (checkText_sound (by decide +kernel)) (.data _ _ [[[3, 0]]] [] (checkText_sound (by decide +kernel)) .nil)
  have hd : NamesDiffer [EafArg.output "in".toList] := by
    refine ⟨?_, ?_⟩
    · intro f hf
      rw [show (List.filterMap EafArg.indices? [EafArg.output "in".toList]).getLast? = none from by decide] at hf
      cases hf
    · intro f hf
      rw [show (List.filterMap EafArg.diff? [EafArg.output "in".toList]).getLast? = none from by decide] at hf
      cases hf
  refine C118_eaf_surfaces (n := 2) (ps := []) (ls := []) eafRatEnv_ok 0 0 fmt fmtP t exCmdLine rfl rfl rfl hi ?_ .nil .nil (by simp) (by simp) hd hf (by simp) (Or.inl ⟨rfl, by decide⟩) ?_ (Or.inl (by simp))
  · rfl
  · rintro ⟨-, -, -, ⟨p, hp, -⟩ | ⟨-, l, hl, -⟩⟩
    · simp at hp
    · simp at hl

/-- `eaf -o in -l x in`: `in` is not touched. -/
example (fuelP : ℕ) (fmt : EafTok ℚ → List Char) (fmtP : PolyTok ℚ → List Char) (t : CliTexts) :
    eafProgram eafRatEnv 0 0 fuelP fmt fmtP t ["-o".toList, "in".toList, "-l".toList, "x".toList, "in".toList] [] exFiles = .exit 1 [] exFiles := by
  have hcl : CmdLine (eafUsage ++ eafExtra) ["-o".toList, "in".toList, "-l".toList, "x".toList, "in".toList] [(.output, some "in".toList), (.level, some "x".toList)] ["in".toList] :=
    (C93_eaf _ _ _).1 (by decide +kernel)
  refine C118_eaf_argument eafRatEnv_ok 0 0 fuelP fmt fmtP t hcl rfl rfl rfl (texts := ["1 2\n\n1 1\n".toList]) (.file _ _ _ _ _ (by decide) rfl (.nil _)) (by decide) (Or.inr ⟨"x".toList, by decide, ?_⟩)
  rintro ⟨vs, hne, h⟩
  cases h with
  | nil _ h => exact hne rfl
  | num _ r v vs h1 _ =>
    rw [show eafRatEnv.scanInt (List.dropWhile isSpaceC "x".toList) = none from by decide] at h1
    cases h1
  | sep _ _ _ h1 => revert h1; decide

/-- `ndsort -r in`. -/
example (sortFn : (ℕ → ℕ → ℝ) → ℕ → List ℕ) (hsort : ∀ pp m, SortedFront pp m (sortFn pp m)) (lib : HvLib ℝ) (head : Option Word → ℕ → List Char) (fmt : NsLine ℝ → List Char) (t : CliTexts) :
    ∃ ranks, nsProgram ⟨scanReal, fun _ => 0, sortFn, fun _ => 0, lib, 1 / 1000000⟩ head fmt t ["-r".toList, "in".toList] [] exFiles = .exit 0 (valueLines (fun k => fmt (.rank k)) ranks) exFiles ∧
      FrontsOf 2 (fun _ => false) [[1, 2], [1, 1]] ranks := by
  have hcl : CmdLine (nsUsage ++ nsExtra) ["-r".toList, "in".toList] [(.rank, none)] ["in".toList] := (C93_ndsort _ _ _).1 (by decide +kernel)
  have h1 : TextSets scanReal "1 2\n\n1 1\n".toList 2 _ := (checkText_sound (sets := [[[1, 2]], [[1, 1]]]) (by decide +kernel)).scanMap _
  have := C118_ndsort_ranks (env := ⟨scanReal, fun _ => 0, sortFn, fun _ => 0, lib, 1 / 1000000⟩) scanReal_ok hsort head fmt t hcl rfl rfl [] (files := exFiles) rfl h1
    ⟨by decide, by simp [nsArgOf], by simp [nsArgOf, NsArg.obj?]⟩ rfl rfl
  simpa using this

end Moo
