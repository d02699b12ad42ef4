import Verif.Spec.FsMain
import Verif.Model.Getopt
import Verif.Model.HvMain
import Verif.Model.IndMain
import Verif.Model.NdMain

/-!
# Model of the programs `hv`, `epsilon`, `igd` and `nondominated` from the command line to the files

The programs of HvMain, IndMain and NdMain with the command line of Getopt and with files that are read and written by name.  A file that does not exist cannot be read; every file can be written.
Two different names are two different files.  What is written to a file is there when the file is read again.  Not modelled: the standard error, and what `--verbose` writes.
-/

set_option autoImplicit false

namespace Moo

/-- What one case of the `switch` leads to. -/
inductive CliStep (σ : Type*)
  | undefined
  | exit (status : ℕ) (stdout : List Char)
  | next (s : σ)

/-- What all options lead to. -/
inductive CliOut (σ : Type*)
  | undefined
  | abort
  | exit (status : ℕ) (stdout : List Char)
  | run (s : σ) (names : List Word)

/-- The loop over the options; `?` exits, `default` aborts. -/
def cliRun {σ : Type*} {I : Type} (step : σ → I × Option Word → CliStep σ) : σ → List (I × Option Word) → CliEnd → CliOut σ
  | s, [], .files names => .run s names
  | _, [], .bad => .exit 1 []
  | _, [], .abort => .abort
  | s, o :: os, e =>
    match step s o with
    | .undefined => .undefined
    | .exit status out => .exit status out
    | .next s => cliRun step s os e

/-- What a program does with a text: it exits with a failure or goes on, after it wrote something; `none`: the output file was not opened. -/
inductive FileStep (σ X : Type*)
  | undefined
  | exit (written : Option X)
  | done (s : σ) (written : Option X)

/-- `fopen (name, "w")`, and `text` is written. -/
def putFile (files : Files) (name : Word) (text : List Char) : Files := fun n => if n = name then some text else files n

variable {σ X : Type*}

/-- What is written goes to a file, or is appended to the standard output. -/
def emit (render : X → List Char) (dest : Option Word) : Option X → List Char × Files → List Char × Files
  | none, out => out
  | some x, out =>
    match dest with
    | none => (out.1 ++ render x, out.2)
    | some name => (out.1, putFile out.2 name (render x))

/-- The calls of `hv_file`, `do_file` or `process_file` for the files in turn: c/main-hv.c:388-410, c/epsilon.c:260-289, c/igd.c:376-401, c/nondominated.c:756-825. -/
def runFiles (step : σ → List Char → FileStep σ X) (final : σ → ℕ) (render : X → List Char) (dest : Word → Option Word) : σ → List Word → List Char × Files → RunOut
  | s, [], out => .exit (final s) out.1 out.2
  | s, name :: names, out =>
    match out.2 name with
    | none => .exit 1 out.1 out.2
    | some text =>
      match step s text with
      | .undefined => .undefined
      | .exit w => .exit 1 (emit render (dest name) w out).1 (emit render (dest name) w out).2
      | .done s w => runFiles step final render dest s names (emit render (dest name) w out)

/-- The same for the standard input, whose output goes to the standard output. -/
def runStdin (step : σ → List Char → FileStep σ X) (final : σ → ℕ) (render : X → List Char) (s : σ) (stdin : List Char) (files : Files) : RunOut :=
  match step s stdin with
  | .undefined => .undefined
  | .exit w => .exit 1 (emit render none w ([], files)).1 files
  | .done s w => .exit (final s) (emit render none w ([], files)).1 files

/-- The texts that the program itself has: what `usage()` and `version()` write. -/
structure CliTexts where
  usage : List Char
  version : List Char

/-! ### `hv` -/

section
variable {K : Type*} [Field K] [LinearOrder K]

/-- The global flags and `reference` of `main`, c/main-hv.c:63-66 and 311. -/
structure HvCli (K : Type*) where
  union : Bool
  shift : Bool
  suffix : Option Word
  reference : Option (List K)

/-- The cases of the `switch`, c/main-hv.c:333-378; `read_reference (NULL)` is undefined. -/
def hvCliStep (scan : NumScan K) (t : CliTexts) (c : HvCli K) : HvOpt × Option Word → CliStep (HvCli K)
  | (.reference, some str) =>
    match readPoint scan str with
    | none => .undefined
    | some none => .exit 1 []
    | some (some r) => .next { c with reference := some r }
  | (.reference, none) => .undefined
  | (.union, _) => .next { c with union := true }
  | (.suffix, s) => .next { c with suffix := s }
  | (.shift, _) => .next { c with shift := true }
  | (.version, _) => .exit 0 t.version
  | (.quiet, _) => .next c
  | (.verbose, _) => .next c
  | (.help, _) => .exit 0 t.usage

/-- `hv_file`, c/main-hv.c:200-307: the output file is opened after the input was read. -/
def hvStep (scan : NumScan K) (lib : HvLib K) (o : HvOpts) (reference : Option (ℕ → K)) (bounds : Option ((ℕ → K) × (ℕ → K))) (nobj : ℕ) (text : List Char) : FileStep ℕ (List K) :=
  match readFile scan nobj text with
  | none => .undefined
  | some none => .exit none
  | some (some _) =>
    match hvFile scan lib o reference bounds nobj text with
    | none => .undefined
    | some (ok, vs, nobj) => if ok then .done nobj (some vs) else .exit (some vs)

/-- `file_range` for the files in turn, c/main-hv.c:396-397 and 163-185. -/
def fileRangesFs (scan : NumScan K) (files : Files) : ℕ → Option ((ℕ → K) × (ℕ → K)) → List Word → Option (Option (ℕ × Option ((ℕ → K) × (ℕ → K))))
  | nobj, mm, [] => some (some (nobj, mm))
  | nobj, mm, name :: names =>
    match files name with
    | none => some none
    | some text =>
      match readFile scan nobj text with
      | none => none
      | some none => some none
      | some (some out) =>
        fileRangesFs scan files out.nobjs (some (dataBoundsHv out.nobjs (out.cum.getLastD 0) (blockTable (fun j => out.data.getD j 0) out.nobjs 0) (mm.map Prod.fst) (mm.map Prod.snd))) names

/-- `main` after the options, c/main-hv.c:382-413; `fmt` is the conversion of a volume to text. -/
def hvRun (scan : NumScan K) (lib : HvLib K) (fmt : K → List Char) (c : HvCli K) (names : List Word) (stdin : List Char) (files : Files) : RunOut :=
  let o : HvOpts := ⟨c.union, c.shift, c.suffix.isSome, none⟩
  let reference : Option (ℕ → K) := c.reference.map fun r => (fun k => r.getD k 0)
  let nobj := (c.reference.map List.length).getD 0
  let render := fun vs : List K => vs.flatMap fun v => fmt v ++ ['\n']
  let dest := fun name : Word => c.suffix.map (name ++ ·)
  match names with
  | [] => runStdin (hvStep scan lib o reference none) (fun _ => 0) render nobj stdin files
  | [name] => runFiles (hvStep scan lib o reference none) (fun _ => 0) render dest nobj [name] ([], files)
  | names =>
    if c.reference.isSome then runFiles (hvStep scan lib o reference none) (fun _ => 0) render dest nobj names ([], files)
    else
      match fileRangesFs scan files nobj none names with
      | none => .undefined
      | some none => .exit 1 [] files
      | some (some (nobj, mm)) => runFiles (hvStep scan lib o reference mm) (fun _ => 0) render dest nobj names ([], files)

/-- c/main-hv.c:309-417 `main`. -/
def hvProgram (scan : NumScan K) (lib : HvLib K) (fmt : K → List Char) (t : CliTexts) (argv : List Word) (stdin : List Char) (files : Files) : RunOut :=
  let p := cliParse hvTable hvCases argv
  match cliRun (hvCliStep scan t) ⟨false, false, none, none⟩ p.1 p.2 with
  | .undefined => .undefined
  | .abort => .abort
  | .exit status out => .exit status out files
  | .run c names => hvRun scan lib fmt c names stdin files

end

/-! ### `epsilon` and `igd` -/

section
variable {V W F : Type*}

/-- The variables of `main` and the global flags. -/
structure IndCli (V F : Type*) where
  st : IndSt V
  suffix : Option Word
  flags : F

/-- The options `-o` and `-r`, as in `indOptions`. -/
def indCliArg (scan : NumScan V) (junk : ℕ → ℤ) (c : IndCli V F) (a : IndArg) : CliStep (IndCli V F) :=
  match indOptions scan junk c.st [a] with
  | .undefined => .undefined
  | .exit status => .exit status []
  | .ok st => .next { c with st := st }

/-- `-r FILE`: `read_reference_set` fails if there is no such file, c/cmdline.h:79-98. -/
def indCliRef (scan : NumScan V) (junk : ℕ → ℤ) (files : Files) (c : IndCli V F) (name : Word) : CliStep (IndCli V F) :=
  match files name with
  | none => .exit 1 []
  | some text => indCliArg scan junk c (.reference text)

/-- The cases of the `switch` of `epsilon`, c/epsilon.c:202-254; the flag is `additive_flag`. -/
def epsCliStep (scan : NumScan V) (junk : ℕ → ℤ) (t : CliTexts) (files : Files) (c : IndCli V Bool) : EpsOpt × Option Word → CliStep (IndCli V Bool)
  | (.additive, _) => .next { c with flags := true }
  | (.multiplicative, _) => .next { c with flags := false }
  | (.obj, some str) => indCliArg scan junk c (.obj str)
  | (.obj, none) => .undefined
  | (.reference, some name) => indCliRef scan junk files c name
  | (.reference, none) => .undefined
  | (.suffix, s) => .next { c with suffix := s }
  | (.version, _) => .exit 0 t.version
  | (.quiet, _) => .next c
  | (.verbose, _) => .next c
  | (.help, _) => .exit 0 t.usage

/-- The cases of the `switch` of `igd`, c/igd.c:288-370; the flags are those of the indicators and `exponent_p`; `igdp` is set from the start. -/
def igdCliStep (scan : NumScan V) (atoi : Word → ℕ) (junk : ℕ → ℤ) (t : CliTexts) (files : Files) (c : IndCli V (IgdFlags × ℕ)) : IgdOpt × Option Word → CliStep (IndCli V (IgdFlags × ℕ))
  | (.exponent, some str) => .next { c with flags := (c.flags.1, atoi str) }
  | (.exponent, none) => .undefined
  | (.all, _) => .next { c with flags := (⟨true, true, true, true, true⟩, c.flags.2) }
  | (.gd, _) => .next { c with flags := ({ c.flags.1 with gd := true }, c.flags.2) }
  | (.igd, _) => .next { c with flags := ({ c.flags.1 with igd := true }, c.flags.2) }
  | (.gdP, _) => .next { c with flags := ({ c.flags.1 with gdp := true }, c.flags.2) }
  | (.igdP, _) => .next c
  | (.igdPlus, _) => .next { c with flags := ({ c.flags.1 with igdplus := true }, c.flags.2) }
  | (.hausdorff, _) => .next { c with flags := ({ c.flags.1 with hausdorff := true }, c.flags.2) }
  | (.obj, some str) => indCliArg scan junk c (.obj str)
  | (.obj, none) => .undefined
  | (.reference, some name) => indCliRef scan junk files c name
  | (.reference, none) => .undefined
  | (.suffix, s) => .next { c with suffix := s }
  | (.version, _) => .exit 0 t.version
  | (.quiet, _) => .next c
  | (.verbose, _) => .next c
  | (.help, _) => .exit 0 t.usage

/-- `do_file`, c/epsilon.c:99-171 and c/igd.c:119-254: the output file is opened after the input was read. -/
def indStep [Zero V] (scan : NumScan V) (ind : Indicator V W) (bad : W → Bool) (minmax : Option (ℕ → ℤ)) (reference : List V × ℕ × ℕ) (nobj : ℕ) (text : List Char) : FileStep ℕ (List W) :=
  match readFile scan nobj text with
  | none => .undefined
  | some none => .exit none
  | some (some _) =>
    match indFile scan ind bad minmax reference nobj text with
    | none => .undefined
    | some (ok, vs, nobj) => if ok then .done nobj (some vs) else .exit (some vs)

/-- `main` after the options, c/epsilon.c:263-291 and c/igd.c:373-403; `fmt` is the conversion of a line to text. -/
def indRun [Zero V] (scan : NumScan V) (ind : F → Indicator V W) (bad : F → W → Bool) (fmt : W → List Char) (c : IndCli V F) (names : List Word) (stdin : List Char) (files : Files) : RunOut :=
  match c.st.reference with
  | none => .exit 1 [] files
  | some reference =>
    let step := indStep scan (ind c.flags) (bad c.flags) c.st.minmax reference
    let render := fun vs : List W => vs.flatMap fun v => fmt v ++ ['\n']
    match names with
    | [] => runStdin step (fun _ => 0) render c.st.nobj stdin files
    | names => runFiles step (fun _ => 0) render (fun name => c.suffix.map (name ++ ·)) c.st.nobj names ([], files)

end

/-- c/epsilon.c:173-292 `main`. -/
def epsilonProgram {K : Type*} [Field K] [LinearOrder K] [IsStrictOrderedRing K] (scan : NumScan K) (junk : ℕ → ℤ) (fmt : Ext K → List Char) (t : CliTexts) (argv : List Word) (stdin : List Char)
    (files : Files) : RunOut :=
  let p := cliParse epsTable epsCases argv
  match cliRun (epsCliStep scan junk t files) ⟨⟨0, none, none⟩, none, true⟩ p.1 p.2 with
  | .undefined => .undefined
  | .abort => .abort
  | .exit status out => .exit status out files
  | .run c names => indRun scan epsilonIndicator epsilonBad fmt c names stdin files

/-- c/igd.c:256-404 `main`. -/
noncomputable def igdProgram (scan : NumScan ℝ) (atoi : Word → ℕ) (junk : ℕ → ℤ) (fmt : List (WithTop ℝ) → List Char) (t : CliTexts) (argv : List Word) (stdin : List Char) (files : Files) : RunOut :=
  let p := cliParse igdTable igdCases argv
  match cliRun (igdCliStep scan atoi junk t files) ⟨⟨0, none, none⟩, none, (⟨false, false, false, false, false⟩, 1)⟩ p.1 p.2 with
  | .undefined => .undefined
  | .abort => .abort
  | .exit status out => .exit status out files
  | .run c names => indRun scan (fun fl => igdIndicator fl.1 fl.2) (fun _ _ => false) fmt c names stdin files

/-! ### `nondominated` -/

section
variable {K : Type*} [Field K] [LinearOrder K]

/-- The variables of `main` and the suffix. -/
structure NdCli (K : Type*) where
  st : NdSt K
  suffix : Word

/-- An option that `ndOptions` deals with. -/
def ndCliArg (env : NdEnv K) (c : NdCli K) (a : NdArg) : CliStep (NdCli K) :=
  match ndOptions env c.st [a] with
  | .undefined => .undefined
  | .exit status => .exit status []
  | .ok st => .next { c with st := st }

/-- The cases of the `switch`, c/nondominated.c:638-739; an argument NULL is undefined. -/
def ndCliStep (env : NdEnv K) (t : CliTexts) (c : NdCli K) : NdOpt × Option Word → CliStep (NdCli K)
  | (.version, _) => .exit 0 t.version
  | (.quiet, _) => .next c
  | (.verbose, _) => .next c
  | (.noCheck, _) => ndCliArg env c .noCheck
  | (.filter, _) => ndCliArg env c .filter
  | (.forceBounds, _) => ndCliArg env c .forceBounds
  | (.union, _) => ndCliArg env c .union
  | (.maximise, _) => ndCliArg env c .maximise
  | (.obj, some str) => ndCliArg env c (.obj str)
  | (.agree, some str) => ndCliArg env c (.agree str)
  | (.normalise, some str) => ndCliArg env c (.normalise str)
  | (.upper, some str) => ndCliArg env c (.upper str)
  | (.lower, some str) => ndCliArg env c (.lower str)
  | (.log, some str) => ndCliArg env c (.log str)
  | (.suffix, some s) => .next { c with suffix := s }
  | (.help, _) => .exit 0 t.usage
  | (_, none) => .undefined

/-- `process_file`, c/nondominated.c:451-594; the state is `dominated_found`, `dim` and the number of the file. -/
def ndStep (env : NdEnv K) (st : NdSt K) (lbound ubound : Option (ℕ → K)) (checkMinimum checkMaximum : Bool) (dest : ℕ → Option ℕ) (s : Bool × ℕ × ℕ) (text : List Char) :
    FileStep (Bool × ℕ × ℕ) (List Char) :=
  match ndFile env st lbound ubound checkMinimum checkMaximum s.2.1 (dest s.2.2) text with
  | .undefined => .undefined
  | .exit => .exit none
  | .done d written dim => .done (d || s.1, dim, s.2.2 + 1) written

/-- `file_bounds` for the files in turn, c/nondominated.c:774-777 and 219-236. -/
def ndFileBoundsFs (env : NdEnv K) (files : Files) : Option (ℕ → K) → Option (ℕ → K) → ℕ → List Word → Option (Option (Option (ℕ → K) × Option (ℕ → K) × ℕ))
  | minimum, maximum, dim, [] => some (some (minimum, maximum, dim))
  | minimum, maximum, dim, name :: names =>
    match files name with
    | none => some none
    | some text =>
      match readFile env.scan dim text with
      | none => none
      | some none => some none
      | some (some out) =>
        let mm := dataBounds env.inf env.negInf out.nobjs (out.cum.getLastD 0) (blockTable (fun j => out.data.getD j 0) out.nobjs 0) minimum maximum
        ndFileBoundsFs env files (some mm.1) (some mm.2) out.nobjs names

/-- `main` after the options were checked, c/nondominated.c:753-825. -/
def ndRunFs (env : NdEnv K) (st : NdSt K) (suffix : Word) (lower upper : Option (ℕ → K)) (stdin : List Char) (files : Files) : List Word → RunOut
  | [] => runStdin (ndStep env st lower upper true true fun _ => none) (fun s => if s.1 then 1 else 0) id (false, st.dim, 0) stdin files
  | [name] => runFiles (ndStep env st lower upper true true some) (fun s => if s.1 then 1 else 0) id (fun name => some (name ++ suffix)) (false, st.dim, 0) [name] ([], files)
  | names =>
    if lower.isNone || upper.isNone then
      match ndFileBoundsFs env files none none st.dim names with
      | none => .undefined
      | some none => .exit 1 [] files
      | some (some (minimum, maximum, dim)) =>
        runFiles (ndStep env st (lower.or minimum) (upper.or maximum) lower.isSome upper.isSome some) (fun s => if s.1 then 1 else 0) id (fun name => some (name ++ suffix)) (false, dim, 0) names
          ([], files)
    else
      runFiles (ndStep env st lower upper lower.isSome upper.isSome some) (fun s => if s.1 then 1 else 0) id (fun name => some (name ++ suffix)) (false, st.dim, 0) names ([], files)

/-- c/nondominated.c:596-839 `main`; the suffix is "_dat" by default (c/nondominated.c:65). -/
def ndProgram (env : NdEnv K) (t : CliTexts) (argv : List Word) (stdin : List Char) (files : Files) : RunOut :=
  let p := cliParse ndTable ndCases argv
  match cliRun (ndCliStep env t) ⟨ndInit, "_dat".toList⟩ p.1 p.2 with
  | .undefined => .undefined
  | .abort => .abort
  | .exit status out => .exit status out files
  | .run c names =>
    let lower := c.st.lower.map arrayFn
    let upper := c.st.upper.map arrayFn
    if c.st.lower.isSome && c.st.upper.isSome && (c.st.lower.any (fun l => decide (l.length < c.st.dim)) || c.st.upper.any (fun u => decide (u.length < c.st.dim))) then .undefined
    else if lower.any fun l => upper.any fun u => anyLessThan u l c.st.dim then .exit 1 [] files
    else ndRunFs env c.st c.suffix lower upper stdin files names

end

end Moo
