import Verif.Lemmas.FsMain
import Verif.Lemmas.Cli
import Verif.Props.CommandLine

/-!
# C94: what the programs do to files
-/

set_option autoImplicit false
set_option linter.unusedSectionVars false

namespace Moo

/-! ### `hv` -/

section
variable {K : Type*} [Field K] [LinearOrder K] {scan : NumScan K} {lib : HvLib K}

theorem hvFile_congr (o o' : HvOpts) (hu : o.union = o'.union) (hs : o.shift = o'.shift) (reference : Option (ℕ → K)) (bounds : Option ((ℕ → K) × (ℕ → K))) (nobj : ℕ) (text : List Char) :
    hvFile scan lib o reference bounds nobj text = hvFile scan lib o' reference bounds nobj text := by
  unfold hvFile
  rw [hu, hs]

theorem hvStep_congr (o o' : HvOpts) (hu : o.union = o'.union) (hs : o.shift = o'.shift) (reference : Option (ℕ → K)) (bounds : Option ((ℕ → K) × (ℕ → K))) :
    hvStep scan lib o reference bounds = hvStep scan lib o' reference bounds := by
  funext nobj text
  unfold hvStep
  rw [hvFile_congr o o' hu hs]

theorem hvStep_done (o : HvOpts) (reference : Option (ℕ → K)) (bounds : Option ((ℕ → K) × (ℕ → K))) (s : ℕ) (t : List Char) (s' : ℕ) : hvStep scan lib o reference bounds s t ≠ .done s' none := by
  unfold hvStep
  rcases readFile scan s t with _ | _ | out
  · simp
  · simp
  · simp only
    rcases hvFile scan lib o reference bounds s t with _ | ⟨ok, vs, n⟩
    · simp
    · cases ok <;> simp

theorem hvStep_readable (hs : ScanOk scan) (o : HvOpts) (reference : Option (ℕ → K)) (bounds : Option ((ℕ → K) × (ℕ → K))) (s : ℕ) (t : List Char) (x : List K)
    (h : hvStep scan lib o reference bounds s t = .exit (some x) ∨ ∃ s', hvStep scan lib o reference bounds s t = .done s' (some x)) : ∃ n, ¬ Unreadable scan t n := by
  refine ⟨s, fun hu => ?_⟩
  unfold hvStep at h
  rw [readFile_err hs hu] at h
  simp at h

theorem hvFiles_pure (o : HvOpts) (reference : Option (ℕ → K)) (bounds : Option ((ℕ → K) × (ℕ → K))) (texts : List (List Char)) : ∀ (nobj k : ℕ),
    hvFiles scan lib o reference bounds nobj k texts = match pureFiles (hvStep scan lib o reference bounds) (fun _ => 0) nobj texts with
      | none => .undefined
      | some (status, ws) => .exit status (tagged (fun k => if o.suffix then some k else none) k ws) := by
  induction texts with
  | nil => intro nobj k; rfl
  | cons text texts ih =>
    intro nobj k
    rw [hvFiles, pureFiles, hvStep]
    cases hr : readFile scan nobj text with
    | none => simp [hvFile, hr]
    | some r =>
      cases r with
      | none => simp [hvFile, hr, tagged]
      | some out =>
        simp only
        rcases hf : hvFile scan lib o reference bounds nobj text with _ | ⟨ok, vs, n⟩
        · rfl
        · cases ok with
          | false => simp [tagged]
          | true =>
            simp only [if_true]
            rw [ih]
            cases hp : pureFiles (hvStep scan lib o reference bounds) (fun _ => 0) n texts with
            | none => rfl
            | some r => simp [tagged]

theorem fileRangesFs_eq (files : Files) (names : List Word) : ∀ (texts : List (List Char)) (nobj : ℕ) (mm : Option ((ℕ → K) × (ℕ → K))), Contents files names texts →
    fileRangesFs scan files nobj mm names = fileRanges scan nobj mm texts := by
  induction names with
  | nil => intro texts nobj mm h; cases h; rfl
  | cons name names ih =>
    intro texts nobj mm h
    cases h with
    | @cons _ text _ texts h1 h2 =>
      rw [fileRangesFs, fileRanges, h1]
      simp only
      rcases readFile scan nobj text with _ | _ | out
      · rfl
      · rfl
      · exact ih _ _ _ h2

/-- The options of `hv` on its command line. -/
def hvOptsOf (os : List (HvOpt × Option Word)) : HvOpts := ⟨hasOpt .union os, hasOpt .shift os, (lastArg .suffix os).isSome, lastArg .reference os⟩

theorem hvCli_steps (t : CliTexts) (os : List (HvOpt × Option Word)) (hh : hasOpt .help os = false) (hv : hasOpt .version os = false)
    (hr : ∀ a, (HvOpt.reference, a) ∈ os → ∃ str vs, a = some str ∧ readPoint scan str = some (some vs)) :
    ∃ r, cliSteps (hvCliStep scan t) ⟨false, false, none, none⟩ os = .next ⟨hasOpt .union os, hasOpt .shift os, lastArg .suffix os, r⟩ ∧
      ((lastArg .reference os = none ∧ r = none) ∨ ∃ str vs, lastArg .reference os = some str ∧ readPoint scan str = some (some vs) ∧ r = some vs) := by
  induction os using List.reverseRecOn with
  | nil => exact ⟨none, rfl, Or.inl ⟨rfl, rfl⟩⟩
  | append_singleton os o ih =>
    obtain ⟨i, a⟩ := o
    rw [hasOpt_append, Bool.or_eq_false_iff] at hh hv
    obtain ⟨r, h1, h2⟩ := ih hh.1 hv.1 (fun b hb => hr b (by simp [hb]))
    have hlast := hr a
    rw [cliSteps_append, h1]
    simp only [hasOpt_append, lastArg_append, andThen, cliSteps]
    cases i with
    | help => simp at hh
    | version => simp at hv
    | reference =>
      obtain ⟨str, vs, rfl, h3⟩ := hlast (by simp)
      refine ⟨some vs, ?_, Or.inr ⟨str, vs, ?_, h3, rfl⟩⟩
      · simp [hvCliStep, h3]
      · simp
    | _ => exact ⟨r, by simp [hvCliStep], by simpa using h2⟩

theorem valueLines_eq {W : Type*} (fmt : W → List Char) : (fun vs : List W => vs.flatMap fun v => fmt v ++ ['\n']) = valueLines fmt := rfl

theorem hvMain_ok (o : HvOpts) (r : Option (List K)) (hr : (o.reference = none ∧ r = none) ∨ ∃ str vs, o.reference = some str ∧ readPoint scan str = some (some vs) ∧ r = some vs)
    (stdin : List Char) (texts : List (List Char)) :
    hvMain scan lib o stdin texts = match texts with
      | [] => hvFiles scan lib { o with suffix := false } (r.map fun r => (fun k => r.getD k 0)) none ((r.map List.length).getD 0) 0 [stdin]
      | [f] => hvFiles scan lib o (r.map fun r => (fun k => r.getD k 0)) none ((r.map List.length).getD 0) 0 [f]
      | texts =>
        if r.isSome then hvFiles scan lib o (r.map fun r => (fun k => r.getD k 0)) none ((r.map List.length).getD 0) 0 texts
        else
          match fileRanges scan ((r.map List.length).getD 0) none texts with
          | none => .undefined
          | some none => .exit 1 []
          | some (some (nobj, mm)) => hvFiles scan lib o (r.map fun r => (fun k => r.getD k 0)) mm nobj 0 texts := by
  unfold hvMain
  rcases hr with ⟨h1, rfl⟩ | ⟨str, vs, h1, h2, rfl⟩
  · rw [h1]
    rcases texts with _ | ⟨a, _ | ⟨b, l⟩⟩ <;> rfl
  · rw [h1]
    simp only [h2]
    rcases texts with _ | ⟨a, _ | ⟨b, l⟩⟩ <;> rfl

/-- From the options on: the program on files is the program on the contents. -/
theorem hvRun_eq (hs : ScanOk scan) (fmt : K → List Char) (u sh : Bool) (suffix : Option Word) (arg : Option (List Char)) (r : Option (List K))
    (hr : (arg = none ∧ r = none) ∨ ∃ str vs, arg = some str ∧ readPoint scan str = some (some vs) ∧ r = some vs)
    (names : List Word) (hn : names ≠ []) (texts : List (List Char)) (stdin : List Char) (files : Files) (hc : Contents files names texts)
    (hsuf : ∀ x, suffix = some x → names.Nodup ∧ NoClobber names x) :
    FilesOutcome fmt (fun text => ∃ n, ¬ Unreadable scan text n) names texts suffix files (hvMain scan lib ⟨u, sh, suffix.isSome, arg⟩ stdin texts)
      (hvRun scan lib fmt ⟨u, sh, suffix, r⟩ names stdin files) := by
  have key : ∀ bounds nobj, FilesOutcome fmt (fun text => ∃ n, ¬ Unreadable scan text n) names texts suffix files
      (hvFiles scan lib ⟨u, sh, suffix.isSome, arg⟩ (r.map fun r => (fun k => r.getD k 0)) bounds nobj 0 texts)
      (runFiles (hvStep scan lib ⟨u, sh, suffix.isSome, none⟩ (r.map fun r => (fun k => r.getD k 0)) bounds) (fun _ => 0) (valueLines fmt) (fun name => suffix.map (name ++ ·)) nobj names ([], files)) := by
    intro bounds nobj
    rw [hvFiles_pure, hvStep_congr ⟨u, sh, suffix.isSome, none⟩ ⟨u, sh, suffix.isSome, arg⟩ rfl rfl]
    exact runFiles_values _ (hvStep_done _ _ _) _ (hvStep_readable hs _ _ _) fmt suffix names texts nobj files hc hsuf _ rfl
  have hfail : FilesOutcome fmt (fun text => ∃ n, ¬ Unreadable scan text n) names texts suffix files (.exit 1 [] : ProgOut (Option ℕ × K)) (.exit 1 [] files) := by
    cases suffix with
    | none => rfl
    | some x => exact ⟨fun _ => false, files, rfl, ⟨by simp, by simp⟩, by simp, by simp, by simp⟩
  cases hc with
  | nil => exact absurd rfl hn
  | @cons name text names texts h1 h2 =>
    cases h2 with
    | nil =>
      rw [hvMain_ok _ r hr, hvRun]
      exact key none _
    | @cons name' text' names texts h3 h4 =>
      rw [hvMain_ok _ r hr]
      unfold hvRun
      simp only
      by_cases hi : r.isSome = true
      · rw [if_pos hi, if_pos hi]
        exact key none _
      · rw [if_neg hi, if_neg hi, fileRangesFs_eq files _ (text :: text' :: texts) _ _ (.cons h1 (.cons h3 h4))]
        rcases fileRanges scan ((r.map List.length).getD 0) none (text :: text' :: texts) with _ | _ | ⟨n, mm⟩
        · cases suffix <;> rfl
        · exact hfail
        · exact key mm _

theorem hv_reference_required : ∀ d ∈ hvUsage ++ hvExtra, d.id = HvOpt.reference → d.arg = .required := by decide +kernel

theorem hvProgram_run (fmt : K → List Char) (t : CliTexts) (argv : List Word) (os : List (HvOpt × Option Word)) (names : List Word) (h : CmdLine (hvUsage ++ hvExtra) argv os names)
    (hs : ScanOk scan) (hh : hasOpt .help os = false) (hv : hasOpt .version os = false) (href : ∀ str, (HvOpt.reference, some str) ∈ os → ∃ vs, vs ≠ [] ∧ NumbersArg scan str vs)
    (stdin : List Char) (files : Files) :
    ∃ r, ((lastArg .reference os = none ∧ r = none) ∨ ∃ str vs, lastArg .reference os = some str ∧ readPoint scan str = some (some vs) ∧ r = some vs) ∧
      hvProgram scan lib fmt t argv stdin files = hvRun scan lib fmt ⟨hasOpt .union os, hasOpt .shift os, lastArg .suffix os, r⟩ names stdin files := by
  have hp := (C93_hv argv os names).2 h
  have hr : ∀ a, (HvOpt.reference, a) ∈ os → ∃ str vs, a = some str ∧ readPoint scan str = some (some vs) := by
    intro a ha
    obtain ⟨d, hd, h1, h2, -⟩ := C93_hv_args argv .reference a (by rw [hp]; exact ha)
    have hk := hv_reference_required d hd h1
    cases a with
    | none => exact absurd rfl (h2 hk)
    | some str =>
      obtain ⟨vs, h3, h4⟩ := href str ha
      exact ⟨str, vs, rfl, readPoint_ok hs h4 h3⟩
  obtain ⟨r, h1, h2⟩ := hvCli_steps (scan := scan) t os hh hv hr
  refine ⟨r, h2, ?_⟩
  unfold hvProgram
  simp only [hp]
  rw [cliRun_end, h1]
  rfl

/-- `hv` on files is `hv` on their contents (C67), unless an output file is overwritten that has yet to be read: the volumes go to the standard output, or to the files that are named by
`--suffix`. -/
theorem C94_hv (hs : ScanOk scan) (fmt : K → List Char) (t : CliTexts) (argv : List Word) (os : List (HvOpt × Option Word)) (names : List Word) (h : CmdLine (hvUsage ++ hvExtra) argv os names)
    (hh : hasOpt .help os = false) (hv : hasOpt .version os = false) (href : ∀ str, (HvOpt.reference, some str) ∈ os → ∃ vs, vs ≠ [] ∧ NumbersArg scan str vs)
    (hn : names ≠ []) (stdin : List Char) (files : Files) (texts : List (List Char)) (hc : Contents files names texts)
    (hsuf : ∀ s, lastArg .suffix os = some s → names.Nodup ∧ NoClobber names s) :
    FilesOutcome fmt (fun text => ∃ n, ¬ Unreadable scan text n) names texts (lastArg .suffix os) files (hvMain scan lib (hvOptsOf os) stdin texts) (hvProgram scan lib fmt t argv stdin files) := by
  obtain ⟨r, h1, h2⟩ := hvProgram_run (lib := lib) fmt t argv os names h hs hh hv href stdin files
  rw [h2]
  exact hvRun_eq hs fmt _ _ _ _ r h1 names hn texts stdin files hc hsuf

/-- Without file names `hv` reads the standard input and writes to the standard output; no file changes, even with `--suffix`. -/
theorem C94_hv_stdin (hs : ScanOk scan) (fmt : K → List Char) (t : CliTexts) (argv : List Word) (os : List (HvOpt × Option Word)) (h : CmdLine (hvUsage ++ hvExtra) argv os [])
    (hh : hasOpt .help os = false) (hv : hasOpt .version os = false) (href : ∀ str, (HvOpt.reference, some str) ∈ os → ∃ vs, vs ≠ [] ∧ NumbersArg scan str vs) (stdin : List Char) (files : Files) :
    hvProgram scan lib fmt t argv stdin files = stdoutRun fmt files (hvMain scan lib (hvOptsOf os) stdin []) := by
  obtain ⟨r, h1, h2⟩ := hvProgram_run (lib := lib) fmt t argv os [] h hs hh hv href stdin files
  rw [h2, hvMain_ok (hvOptsOf os) r h1, hvRun]
  simp only
  rw [hvFiles_pure]
  exact runStdin_values _ fmt _ stdin files _ _ (by rw [hvStep_congr]; all_goals rfl)

/-- What precedes `--help` (or `--version`) is read; what follows it is not, and no file changes. -/
theorem C94_hv_help (hs : ScanOk scan) (fmt : K → List Char) (t : CliTexts) (pre rest : List Word) (os : List (HvOpt × Option Word)) (fs : List Word) (hd : ∀ w ∈ pre, w ≠ ['-', '-'])
    (i : HvOpt) (hi : i = .help ∨ i = .version) (h : CmdLine (hvUsage ++ hvExtra) pre (os ++ [(i, none)]) fs) (hh : hasOpt .help os = false) (hv : hasOpt .version os = false)
    (href : ∀ str, (HvOpt.reference, some str) ∈ os → ∃ vs, vs ≠ [] ∧ NumbersArg scan str vs) (stdin : List Char) (files : Files) :
    hvProgram scan lib fmt t (pre ++ rest) stdin files = .exit 0 (if i = .help then t.usage else t.version) files := by
  have hp := C93_hv_append pre rest _ fs hd h
  have hp0 := (C93_hv pre _ fs).2 h
  have hr : ∀ a, (HvOpt.reference, a) ∈ os → ∃ str vs, a = some str ∧ readPoint scan str = some (some vs) := by
    intro a ha
    obtain ⟨d, hd, h1, h2, -⟩ := C93_hv_args pre .reference a (by rw [hp0]; simp [ha])
    have hk := hv_reference_required d hd h1
    cases a with
    | none => exact absurd rfl (h2 hk)
    | some str =>
      obtain ⟨vs, h3, h4⟩ := href str ha
      exact ⟨str, vs, rfl, readPoint_ok hs h4 h3⟩
  obtain ⟨r, h1, h2⟩ := hvCli_steps (scan := scan) t os hh hv hr
  unfold hvProgram
  simp only [hp]
  rw [List.append_assoc, cliRun_append, h1]
  rcases hi with rfl | rfl <;> rfl

/-- The argument of `-r` is not a point: the exit status is 1, whatever follows, and no file changes. -/
theorem C94_hv_bad_reference (hs : ScanOk scan) (fmt : K → List Char) (t : CliTexts) (pre rest : List Word) (os : List (HvOpt × Option Word)) (fs : List Word) (hd : ∀ w ∈ pre, w ≠ ['-', '-'])
    (str : Word) (hstr : ¬ ∃ vs, vs ≠ [] ∧ NumbersArg scan str vs) (h : CmdLine (hvUsage ++ hvExtra) pre (os ++ [(.reference, some str)]) fs) (hh : hasOpt .help os = false)
    (hv : hasOpt .version os = false) (href : ∀ str, (HvOpt.reference, some str) ∈ os → ∃ vs, vs ≠ [] ∧ NumbersArg scan str vs) (stdin : List Char) (files : Files) :
    hvProgram scan lib fmt t (pre ++ rest) stdin files = .exit 1 [] files := by
  have hp := C93_hv_append pre rest _ fs hd h
  have hp0 := (C93_hv pre _ fs).2 h
  have hr : ∀ a, (HvOpt.reference, a) ∈ os → ∃ str vs, a = some str ∧ readPoint scan str = some (some vs) := by
    intro a ha
    obtain ⟨d, hd, h1, h2, -⟩ := C93_hv_args pre .reference a (by rw [hp0]; simp [ha])
    have hk := hv_reference_required d hd h1
    cases a with
    | none => exact absurd rfl (h2 hk)
    | some str =>
      obtain ⟨vs, h3, h4⟩ := href str ha
      exact ⟨str, vs, rfl, readPoint_ok hs h4 h3⟩
  obtain ⟨r, h1, h2⟩ := hvCli_steps (scan := scan) t os hh hv hr
  unfold hvProgram
  simp only [hp]
  rw [List.append_assoc, cliRun_append, h1]
  simp only [List.cons_append, List.nil_append, cliRun, hvCliStep]
  rw [readPoint_err hs hstr]

theorem hvCli_suffix (t : CliTexts) (os : List (HvOpt × Option Word)) (c : HvCli K) (h : cliSteps (hvCliStep scan t) ⟨false, false, none, none⟩ os = .next c) : c.suffix = lastArg .suffix os := by
  refine cliSteps_inv (hvCliStep scan t) (fun os c => c.suffix = lastArg .suffix os) _ rfl ?_ os c h
  rintro os ⟨i, a⟩ c c' h1 h2
  rw [lastArg_append]
  cases i with
  | reference =>
    cases a with
    | none => simp [hvCliStep] at h2
    | some str =>
      simp only [hvCliStep] at h2
      rcases hrp : readPoint scan str with _ | _ | vs
      · simp [hrp] at h2
      · simp [hrp] at h2
      · simp only [hrp, CliStep.next.injEq] at h2
        subst h2
        simpa using h1
  | help => simp [hvCliStep] at h2
  | version => simp [hvCliStep] at h2
  | suffix => simp only [hvCliStep, CliStep.next.injEq] at h2; simp [← h2]
  | _ => simp only [hvCliStep, CliStep.next.injEq] at h2; subst h2; simpa using h1

/-- The options never lead to undefined behaviour or `abort()`; an exit because of the options is a failure, or writes the usage or the version. -/
theorem hvCli_cases (hs : ScanOk scan) (t : CliTexts) (argv : List Word) :
    (∃ status out, cliRun (hvCliStep scan t) ⟨false, false, none, none⟩ (cliParse hvTable hvCases argv).1 (cliParse hvTable hvCases argv).2 = .exit status out ∧
      (status = 1 ∧ out = [] ∨ status = 0 ∧ (out = t.usage ∨ out = t.version))) ∨
    ∃ c names os, cliRun (hvCliStep scan t) ⟨false, false, none, none⟩ (cliParse hvTable hvCases argv).1 (cliParse hvTable hvCases argv).2 = .run c names ∧
      CmdLine (hvUsage ++ hvExtra) argv os names ∧ c.suffix = lastArg .suffix os := by
  have hread : ∀ str, readPoint scan str = some none ∨ ∃ vs, readPoint scan str = some (some vs) := by
    intro str
    by_cases h : ∃ vs, vs ≠ [] ∧ NumbersArg scan str vs
    · obtain ⟨vs, h1, h2⟩ := h
      exact Or.inr ⟨vs, readPoint_ok hs h2 h1⟩
    · exact Or.inl (readPoint_err hs h)
  have harg : (HvOpt.reference, none) ∉ (cliParse hvTable hvCases argv).1 := by
    intro ha
    obtain ⟨d, hd, h1, h2, -⟩ := C93_hv_args argv .reference none ha
    exact h2 (hv_reference_required d hd h1) rfl
  rcases cliRun_cases (hvCliStep scan t) (cliParse hvTable hvCases argv).2 (cliParse hvTable hvCases argv).1 ⟨false, false, none, none⟩ with
    ⟨⟨i, a⟩, s, h1, h2, h3⟩ | ⟨⟨i, a⟩, s, status, out, h1, h2, h3⟩ | ⟨c, h1, h2⟩
  · exfalso
    cases i with
    | reference =>
      cases a with
      | none => exact harg h1
      | some str =>
        simp only [hvCliStep] at h2
        rcases hread str with h | ⟨vs, h⟩ <;> simp [h] at h2
    | _ => simp [hvCliStep] at h2
  · refine Or.inl ⟨status, out, h3, ?_⟩
    cases i with
    | reference =>
      cases a with
      | none => exact absurd h1 harg
      | some str =>
        simp only [hvCliStep] at h2
        rcases hread str with h | ⟨vs, h⟩
        · simp [h] at h2
          exact Or.inl ⟨h2.1.symm, h2.2⟩
        · simp [h] at h2
    | help => simp [hvCliStep] at h2; exact Or.inr ⟨h2.1.symm, Or.inl h2.2.symm⟩
    | version => simp [hvCliStep] at h2; exact Or.inr ⟨h2.1.symm, Or.inr h2.2.symm⟩
    | _ => simp [hvCliStep] at h2
  · rw [h2]
    cases he : (cliParse hvTable hvCases argv).2 with
    | bad => exact Or.inl ⟨1, [], rfl, Or.inl ⟨rfl, rfl⟩⟩
    | abort => exact absurd he (C93_hv_no_abort argv)
    | files names =>
      exact Or.inr ⟨c, names, (cliParse hvTable hvCases argv).1, rfl, (C93_hv argv _ names).1 (by rw [← he]), hvCli_suffix t _ c h1⟩

/-- A command line that is not one of `hv` makes it fail, or write the usage or the version; no file changes. -/
theorem C94_hv_invalid (hs : ScanOk scan) (fmt : K → List Char) (t : CliTexts) (argv : List Word) (h : ¬ ∃ os names, CmdLine (hvUsage ++ hvExtra) argv os names) (stdin : List Char) (files : Files) :
    hvProgram scan lib fmt t argv stdin files = .exit 1 [] files ∨ hvProgram scan lib fmt t argv stdin files = .exit 0 t.usage files ∨
      hvProgram scan lib fmt t argv stdin files = .exit 0 t.version files := by
  unfold hvProgram
  rcases hvCli_cases hs t argv with ⟨status, out, h1, h2⟩ | ⟨c, names, os, h1, h2, -⟩
  · simp only [h1]
    rcases h2 with ⟨rfl, rfl⟩ | ⟨rfl, rfl | rfl⟩ <;> simp
  · exact absurd ⟨os, names, h2⟩ h

/-- Whatever the command line is, `hv` changes only output files of the files it is given, named with the suffix. -/
theorem C94_hv_frame (hs : ScanOk scan) (fmt : K → List Char) (t : CliTexts) (argv : List Word) (stdin : List Char) (files : Files) (status : ℕ) (out : List Char) (files' : Files)
    (h : hvProgram scan lib fmt t argv stdin files = .exit status out files') (n : Word) (hn : files' n ≠ files n) :
    ∃ os names s, CmdLine (hvUsage ++ hvExtra) argv os names ∧ lastArg .suffix os = some s ∧ ∃ f ∈ names, n = f ++ s := by
  unfold hvProgram at h
  rcases hvCli_cases hs t argv with ⟨status, out, h1, h2⟩ | ⟨c, names, os, h1, h2, h3⟩
  · simp only [h1, RunOut.exit.injEq] at h
    exact absurd (by rw [← h.2.2]) hn
  · simp only [h1] at h
    have key : ∀ ref bounds nobj, runFiles (hvStep scan lib ⟨c.union, c.shift, c.suffix.isSome, none⟩ ref bounds) (fun _ => 0) (fun vs : List K => vs.flatMap fun v => fmt v ++ ['\n'])
        (fun name => c.suffix.map (name ++ ·)) nobj names ([], files) = .exit status out files' → ∃ s, lastArg .suffix os = some s ∧ ∃ f ∈ names, n = f ++ s := by
      intro ref bounds nobj h
      by_contra hno
      refine hn (runFiles_frame _ _ _ _ names _ _ _ _ _ h n ?_)
      intro f hf e
      cases hc : c.suffix with
      | none => rw [hc] at e; simp at e
      | some s =>
        rw [hc] at e
        exact hno ⟨s, by rw [← h3, hc], f, hf, (Option.some.inj e).symm⟩
    suffices ∃ s, lastArg .suffix os = some s ∧ ∃ f ∈ names, n = f ++ s by
      obtain ⟨s, h4, h5⟩ := this
      exact ⟨os, names, s, h2, h4, h5⟩
    unfold hvRun at h
    rcases names with _ | ⟨a, _ | ⟨b, l⟩⟩
    · simp only at h
      exact absurd (by rw [runStdin_files _ _ _ _ _ _ _ _ _ h]) hn
    · exact key _ _ _ h
    · simp only at h
      split_ifs at h
      · exact key _ _ _ h
      · rcases h5 : fileRangesFs scan files ((c.reference.map List.length).getD 0) none (a :: b :: l) with _ | _ | ⟨nobj, mm⟩
        · rw [h5] at h; simp at h
        · rw [h5] at h
          simp only [RunOut.exit.injEq] at h
          exact absurd (by rw [← h.2.2]) hn
        · rw [h5] at h
          exact key _ _ _ h

theorem fileRangesFs_reads (files files' : Files) (names : List Word) : ∀ (nobj : ℕ) (mm : Option ((ℕ → K) × (ℕ → K))), (∀ n ∈ names, files n = files' n) →
    fileRangesFs scan files nobj mm names = fileRangesFs scan files' nobj mm names := by
  induction names with
  | nil => intro nobj mm h; rfl
  | cons name names ih =>
    intro nobj mm h
    rw [fileRangesFs, fileRangesFs, h name (by simp)]
    rcases files' name with _ | text
    · rfl
    · simp only
      rcases readFile scan nobj text with _ | _ | out
      · rfl
      · rfl
      · exact ih _ _ fun n hn => h n (by simp [hn])

/-- `hv` reads only the files it is given; the standard input only if it is given none. -/
theorem C94_hv_reads (hs : ScanOk scan) (fmt : K → List Char) (t : CliTexts) (argv : List Word) (stdin stdin' : List Char) (files files' : Files)
    (h : ∀ os names, CmdLine (hvUsage ++ hvExtra) argv os names → (names = [] → stdin = stdin') ∧ ∀ n ∈ names, files n = files' n) :
    SameRun (hvProgram scan lib fmt t argv stdin files) (hvProgram scan lib fmt t argv stdin' files') := by
  unfold hvProgram
  rcases hvCli_cases hs t argv with ⟨status, out, h1, h2⟩ | ⟨c, names, os, h1, h2, -⟩
  · simp only [h1]
    exact ⟨rfl, rfl⟩
  · simp only [h1]
    obtain ⟨g1, g2⟩ := h os names h2
    unfold hvRun
    rcases names with _ | ⟨a, _ | ⟨b, l⟩⟩
    · rw [g1 rfl]
      exact runStdin_reads _ _ _ _ _ _ _
    · exact runFiles_reads _ _ _ _ (fun n => n ∈ [a]) _ _ _ _ rfl (fun n hn => hn) g2
    · simp only
      rw [fileRangesFs_reads files files' (a :: b :: l) _ _ g2]
      split_ifs
      · exact runFiles_reads _ _ _ _ (fun n => n ∈ a :: b :: l) _ _ _ _ rfl (fun n hn => hn) g2
      · rcases fileRangesFs scan files' ((c.reference.map List.length).getD 0) none (a :: b :: l) with _ | _ | ⟨nobj, mm⟩
        · trivial
        · exact ⟨rfl, rfl⟩
        · exact runFiles_reads _ _ _ _ (fun n => n ∈ a :: b :: l) _ _ _ _ rfl (fun n hn => hn) g2

theorem fileRangesFs_missing (files : Files) (missing : Word) (hm : files missing = none) (names : List Word) : ∀ (nobj : ℕ) (mm : Option ((ℕ → K) × (ℕ → K))), missing ∈ names →
    fileRangesFs scan files nobj mm names = none ∨ fileRangesFs scan files nobj mm names = some none := by
  induction names with
  | nil => intro nobj mm h; simp at h
  | cons name names ih =>
    intro nobj mm h
    rw [fileRangesFs]
    cases hf : files name with
    | none => simp
    | some text =>
      simp only
      rcases readFile scan nobj text with _ | _ | out
      · simp
      · simp
      · refine ih _ _ ?_
        rcases List.mem_cons.1 h with rfl | h
        · rw [hm] at hf; cases hf
        · exact h

/-- A file that does not exist (and is not made by the program itself) makes `hv` fail.  If the reference point depends on all files, nothing is written. -/
theorem C94_hv_missing (hs : ScanOk scan) (fmt : K → List Char) (t : CliTexts) (argv : List Word) (os : List (HvOpt × Option Word)) (names : List Word) (h : CmdLine (hvUsage ++ hvExtra) argv os names)
    (hh : hasOpt .help os = false) (hv : hasOpt .version os = false) (href : ∀ str, (HvOpt.reference, some str) ∈ os → ∃ vs, vs ≠ [] ∧ NumbersArg scan str vs)
    (stdin : List Char) (files : Files) (missing : Word) (hmem : missing ∈ names) (hm : files missing = none) (hsuf : ∀ s, lastArg .suffix os = some s → ∀ f ∈ names, f ++ s ≠ missing)
    (status : ℕ) (out : List Char) (files' : Files) (he : hvProgram scan lib fmt t argv stdin files = .exit status out files') :
    status = 1 ∧ (2 ≤ names.length → hasOpt .reference os = false → out = [] ∧ files' = files) := by
  obtain ⟨r, h1, h2⟩ := hvProgram_run (lib := lib) fmt t argv os names h hs hh hv href stdin files
  rw [h2] at he
  have key : ∀ bounds nobj, runFiles (hvStep scan lib ⟨hasOpt .union os, hasOpt .shift os, (lastArg .suffix os).isSome, none⟩ (r.map fun r => (fun k => r.getD k 0)) bounds) (fun _ => 0)
      (fun vs : List K => vs.flatMap fun v => fmt v ++ ['\n']) (fun name => (lastArg .suffix os).map (name ++ ·)) nobj names ([], files) = .exit status out files' → status = 1 := by
    intro bounds nobj h
    refine runFiles_missing _ _ _ _ missing names _ _ _ _ _ hmem hm ?_ h
    intro f hf e
    cases hc : lastArg .suffix os with
    | none => rw [hc] at e; simp at e
    | some s =>
      rw [hc] at e
      exact hsuf s hc f hf (Option.some.inj e)
  unfold hvRun at he
  rcases names with _ | ⟨a, _ | ⟨b, l⟩⟩
  · simp at hmem
  · exact ⟨key _ _ he, by simp⟩
  · simp only at he
    split_ifs at he with hi
    · refine ⟨key _ _ he, fun _ hno => ?_⟩
      rcases h1 with ⟨-, rfl⟩ | ⟨str, vs, h1, -⟩
      · simp at hi
      · exfalso
        unfold hasOpt at hno
        rw [List.any_eq_false] at hno
        unfold lastArg at h1
        cases hg : (os.filter fun o => decide (o.1 = HvOpt.reference)).getLast? with
        | none => rw [hg] at h1; simp at h1
        | some o =>
          have := List.mem_of_getLast? hg
          rw [List.mem_filter] at this
          exact hno o this.1 this.2
    · rcases fileRangesFs_missing (scan := scan) files missing hm (a :: b :: l) ((r.map List.length).getD 0) none hmem with h5 | h5
      · rw [h5] at he; simp at he
      · rw [h5] at he
        simp only [RunOut.exit.injEq] at he
        exact ⟨he.1.symm, fun _ _ => ⟨he.2.1.symm, he.2.2.symm⟩⟩

end

end Moo
