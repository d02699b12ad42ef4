import Verif.Spec.FsEaf
import Verif.Model.FsMain
import Verif.Model.EafPolyMain
import Verif.Model.NdSort
import Verif.Model.DsMain

/-!
# Model of the programs `eaf`, `ndsort` and `dominatedsets` from the command line to the files

As in FsMain: the models of EafMain, EafPolyMain, NdSort and DsMain with the command line of Getopt and files that are read and written by name.  Every file can be written, a file that does not exist cannot be read,
and two names are two files.  What is written to a stream is in its file when the program has ended by `exit` or by returning from `main`.  Not modelled: the standard error, which is where `--verbose` of `eaf` writes; that of
`ndsort` writes to the standard output, that of `dominatedsets` nothing.
-/

set_option autoImplicit false

namespace Moo

variable {K : Type*}

/-! ### `eaf` -/

/-- The variables of `main` and `polygon_flag`. -/
structure EafCli (K : Type*) where
  st : EafMainSt K
  polygons : Bool

/-- An option that `eafOptions` deals with. -/
def eafCliArg (env : EafMainEnv K) (c : EafCli K) (a : EafArg) : CliStep (EafCli K) :=
  match eafOptions env c.st [a] with
  | .undefined => .undefined
  | .exit status => .exit status []
  | .ok st => .next { c with st := st }

/-- The cases of the `switch`, c/eaf_main.c:232-319; an argument NULL of `-l`, `-p` or `-o` is undefined. -/
def eafCliStep (env : EafMainEnv K) (t : CliTexts) (c : EafCli K) : EafOpt × Option Word → CliStep (EafCli K)
  | (.level, some str) => eafCliArg env c (.level str)
  | (.level, none) => .undefined
  | (.percentile, some str) => eafCliArg env c (.percentile str)
  | (.percentile, none) => .undefined
  | (.output, some name) => eafCliArg env c (.output name)
  | (.output, none) => .undefined
  | (.indices, a) => eafCliArg env c (.indices a)
  | (.diff, a) => eafCliArg env c (.diff a)
  | (.best, _) => eafCliArg env c .best
  | (.median, _) => eafCliArg env c .median
  | (.worst, _) => eafCliArg env c .worst
  | (.polygons, _) => .next { c with polygons := true }
  | (.quiet, _) => eafCliArg env c .quiet
  | (.verbose, _) => eafCliArg env c .verbose
  | (.version, _) => .exit 0 t.version
  | (.help, _) => .exit 0 t.usage

/-- The calls of `read_input_data`, c/eaf_main.c:320-333: `-` is the standard input, of which nothing is left after it was read.  (Only the error code -2 leaves something, but it needs objectives without points.) -/
def eafReadFs (scan : NumScan K) (files : Files) : ℕ → List ℕ → List K → List Char → List Word → Option (Option (ℕ × List ℕ × List K))
  | nobj, cum, data, _, [] => some (some (nobj, cum, data))
  | nobj, cum, data, stdin, name :: names =>
    match if name = ['-'] then some stdin else files name with
    | none => some none
    | some text =>
      match readData scan (text.length + 3) nobj cum data text with
      | none => none
      | some out =>
        if out.code = 0 ∨ out.code = -1 ∨ out.code = -2 then eafReadFs scan files out.nobjs out.cum out.data (if name = ['-'] then [] else stdin) names else some none

/-- The names for which `fopen (…, "w")` is called, in order, c/eaf_main.c:336-381. -/
def eafOpens (st : EafMainSt K) : List Word :=
  let indName := if st.indFile ≠ none ∧ st.indFile ≠ some .stdout ∧ st.indName = none then st.coordName else st.indName
  let difName := if st.diffFile ≠ none ∧ st.diffFile ≠ some .stdout ∧ st.diffName = none then st.coordName else st.diffName
  st.coordName.toList ++
  (match indName with
    | some f => if st.coordName = none ∨ st.coordName ≠ some f then [f] else []
    | none => []) ++
  (match difName with
    | some f => if (st.coordName = none ∨ st.coordName ≠ some f) ∧ (indName = none ∨ indName ≠ some f) then [f] else []
    | none => [])

/-- `fopen (…, "w")` for these names. -/
def openAll (files : Files) (names : List Word) : Files := names.foldl (fun files name => putFile files name []) files

/-- What is written to the streams in turn; a write to the standard input fails, and this is not checked. -/
def emitAll {T : Type*} (fmt : T → List Char) : List (OutStream × T) → List Char × Files → List Char × Files
  | [], out => out
  | (.stdin, _) :: w, out => emitAll fmt w out
  | (.stdout, x) :: w, out => emitAll fmt w (out.1 ++ fmt x, out.2)
  | (.file n, x) :: w, out => emitAll fmt w (out.1, putFile out.2 n ((out.2 n).getD [] ++ fmt x))

section
variable [Field K] [LinearOrder K] [IsStrictOrderedRing K] [FloorRing K]

/-- `main` after the options, c/eaf_main.c:320-455; `fmt` and `fmtP` are the conversions to text. -/
def eafRun (env : EafMainEnv K) (inf ninf : K) (fuelP : ℕ) (fmt : EafTok K → List Char) (fmtP : PolyTok K → List Char) (c : EafCli K) (names : List Word) (stdin : List Char) (files : Files) : RunOut :=
  match eafReadFs env.scan files 0 [] [] stdin (if names = [] then [['-']] else names) with
  | none => .undefined
  | some none => .exit 1 [] files
  | some (some (nobj, cum, data)) =>
    let files := openAll files (eafOpens c.st)
    let streams := eafStreams c.st
    match eafLevels env.tol c.st cum.length with
    | none => .undefined
    | some none => .exit 1 [] files
    | some (some level) =>
      if c.st.verbose ∧ cum = [] then .undefined
      else
        match attsurf env fuelP (blockTable (fun j => data.getD j 0) nobj 0) nobj (fun r => cum.getD r 0) cum.length level with
        | none => .undefined
        | some none => .exit 1 [] files
        | some (some es) =>
          if c.polygons then
            match eafPrintPolygon inf ninf streams.1 es with
            | none => .undefined
            | some written => .exit 0 (emitAll fmtP written ([], files)).1 (emitAll fmtP written ([], files)).2
          else
            match eafPrint nobj streams.1 streams.2.1 streams.2.2 es with
            | none => .undefined
            | some written => .exit 0 (emitAll fmt written ([], files)).1 (emitAll fmt written ([], files)).2

/-- c/eaf_main.c:187-455 `main`. -/
def eafProgram (env : EafMainEnv K) (inf ninf : K) (fuelP : ℕ) (fmt : EafTok K → List Char) (fmtP : PolyTok K → List Char) (t : CliTexts) (argv : List Word) (stdin : List Char) (files : Files) : RunOut :=
  let p := cliParse eafTable eafCases argv
  match cliRun (eafCliStep env t) ⟨⟨true, false, false, false, [], [], none, none, none, none, none⟩, false⟩ p.1 p.2 with
  | .undefined => .undefined
  | .abort => .abort
  | .exit status out => .exit status out files
  | .run c names => eafRun env inf ninf fuelP fmt fmtP c names stdin files

end

/-! ### `ndsort` -/

/-- The variables of `main`: those of `NsSt`, and `verbose_flag`, c/ndsort.c:76. -/
structure NsCli where
  st : NsSt
  verbose : Bool

/-- An option that `nsOptions` deals with. -/
def nsCliArg (junk : ℕ → ℤ) (c : NsCli) (a : NsArg) : CliStep NsCli :=
  match nsOptions junk c.st [a] with
  | .exit status => .exit status []
  | .ok st => .next ⟨st, c.verbose⟩

/-- The cases of the `switch`, c/ndsort.c:154-196; `read_minmax (NULL)` is undefined. -/
def nsCliStep (junk : ℕ → ℤ) (t : CliTexts) (c : NsCli) : NsOpt × Option Word → CliStep NsCli
  | (.version, _) => .exit 0 t.version
  | (.quiet, _) => .next ⟨c.st, false⟩
  | (.verbose, _) => .next ⟨c.st, true⟩
  | (.rank, _) => nsCliArg junk c .rank
  | (.keepUevs, _) => nsCliArg junk c .keepUevs
  | (.obj, some str) => nsCliArg junk c (.obj str)
  | (.obj, none) => .undefined
  | (.help, _) => .exit 0 t.usage

section
variable [Field K] [LinearOrder K]

/-- The end of `main`, c/ndsort.c:215-300, as it writes to the standard output: `head` is the text of the lines 223-224, from the name of the file (none for the standard input) and the number of points, then
`fprint_rank` or `fprint_vector_double`, lines 78-91, which write one line for each point.  `nsFile` exits with another status than 0 only before that. -/
def nsPrint (head : Option Word → ℕ → List Char) (fmt : NsLine K → List Char) (verbose : Bool) (name : Option Word) (files : Files) : ProgOut (NsLine K) → RunOut
  | .undefined => .undefined
  | .exit 0 w => .exit 0 ((if verbose then head name w.length else []) ++ w.flatMap fun v => fmt v ++ ['\n']) files
  | .exit status _ => .exit status [] files

/-- `main` after the options, c/ndsort.c:199-300. -/
def nsRun (env : NsEnv K) (head : Option Word → ℕ → List Char) (fmt : NsLine K → List Char) (c : NsCli) (names : List Word) (stdin : List Char) (files : Files) : RunOut :=
  match names with
  | [] => nsPrint head fmt c.verbose none files (nsFile env c.st stdin)
  | [name] =>
    match files name with
    | none => .exit 1 [] files
    | some text => nsPrint head fmt c.verbose (some name) files (nsFile env c.st text)
  | _ => .exit 1 [] files

/-- c/ndsort.c:123-300 `main`. -/
def nsProgram (env : NsEnv K) (head : Option Word → ℕ → List Char) (fmt : NsLine K → List Char) (t : CliTexts) (argv : List Word) (stdin : List Char) (files : Files) : RunOut :=
  let p := cliParse nsTable nsCases argv
  match cliRun (nsCliStep env.junk t) ⟨⟨false, 0, none⟩, false⟩ p.1 p.2 with
  | .undefined => .undefined
  | .abort => .abort
  | .exit status out => .exit status out files
  | .run c names => nsRun env head fmt c names stdin files

end

/-! ### `dominatedsets` -/

/-- An option that `dsOptions` deals with. -/
def dsCliArg (junk : ℕ → ℤ) (c : DsSt) (a : DsArg) : CliStep DsSt :=
  match dsOptions junk c [a] with
  | .exit status => .exit status []
  | .ok st => .next st

/-- The cases of the `switch`, c/dominatedsets.c:337-377; `read_minmax (NULL)` is undefined. -/
def dsCliStep (junk : ℕ → ℤ) (t : CliTexts) (c : DsSt) : DsOpt × Option Word → CliStep DsSt
  | (.version, _) => .exit 0 t.version
  | (.quiet, _) => .next c
  | (.verbose, _) => .next c
  | (.percentages, _) => dsCliArg junk c .percentages
  | (.noCheck, _) => dsCliArg junk c .noCheck
  | (.obj, some str) => dsCliArg junk c (.obj str)
  | (.obj, none) => .undefined
  | (.help, _) => .exit 0 t.usage

/-- The loop that reads the files, c/dominatedsets.c:393-401. -/
def dsReadFs [Zero K] (scan : NumScan K) (files : Files) : ℕ → List Word → Option (Option (List ((ℕ → ℕ → K) × List ℕ) × ℕ))
  | dim, [] => some (some ([], dim))
  | dim, name :: names =>
    match files name with
    | none => some none
    | some text =>
      match readFile scan dim text with
      | none => none
      | some none => some none
      | some (some out) =>
        match dsReadFs scan files out.nobjs names with
        | none => none
        | some none => some none
        | some (some (l, d)) => some (some ((blockTable (fun j => out.data.getD j 0) out.nobjs 0, out.cum) :: l, d))

section
variable [Field K] [LinearOrder K] [IsStrictOrderedRing K]

/-- `main` after the options, c/dominatedsets.c:379-481; `head` is the text of the lines 407-433 that precede the check, and `usage ()` writes to the standard output. -/
def dsRun (env : DsEnv K) (head : DsSt → List Word → List ((ℕ → ℕ → K) × List ℕ) → List Char) (render : List (DsLine K) → List Char) (t : CliTexts) (st : DsSt) (names : List Word) (files : Files) : RunOut :=
  if names.length ≤ 1 then .exit 1 t.usage files
  else
    match dsReadFs env.scan files st.dim names with
    | none => .undefined
    | some none => .exit 1 [] files
    | some (some (data, dim)) =>
      let minmax := st.minmax.getD fun _ => AGREE_MINIMISE
      let compare : RunOut :=
        match dsCompare dim minmax 0 data (fun _ _ => -1) with
        | none => .undefined
        | some results => .exit 0 (head st names data ++ render (dsPrint st.percentages names.length (fun k => (data.getD k (fun _ _ => 0, [])).2.length) results)) files
      if st.check then
        match dsCheckAll env dim minmax data with
        | none => .undefined
        | some true => .exit 1 (head st names data) files
        | some false => compare
      else compare

/-- c/dominatedsets.c:309-481 `main`. -/
def dsProgram (env : DsEnv K) (head : DsSt → List Word → List ((ℕ → ℕ → K) × List ℕ) → List Char) (render : List (DsLine K) → List Char) (t : CliTexts) (argv : List Word) (files : Files) : RunOut :=
  let p := cliParse dsTable dsCases argv
  match cliRun (dsCliStep env.junk t) ⟨false, true, 0, none⟩ p.1 p.2 with
  | .undefined => .undefined
  | .abort => .abort
  | .exit status out => .exit status out files
  | .run st names => dsRun env head render t st names files

end

end Moo
