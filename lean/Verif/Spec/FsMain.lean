import Verif.Spec.Cli
import Verif.Spec.CommandLine
import Verif.Spec.Usage

/-!
# Specification of what a program does to the files

A program is given a command line, the standard input and the files, and ends with an exit status, a text on the standard output and files.
-/

set_option autoImplicit false

namespace Moo

/-- The contents of the files; `none`: there is no such file. -/
abbrev Files := Word → Option (List Char)

/-- How a program ends, with what it wrote to the standard output, and the files after that. -/
inductive RunOut
  | undefined
  | abort
  | exit (status : ℕ) (stdout : List Char) (files : Files)

/-- Two runs end in the same way and write the same to the standard output. -/
def SameRun : RunOut → RunOut → Prop
  | .undefined, .undefined => True
  | .abort, .abort => True
  | .exit status out _, .exit status' out' _ => status = status' ∧ out = out'
  | _, _ => False

/-- The options name this argument for the option `i`: the last one counts. -/
def lastArg {I : Type} [DecidableEq I] (i : I) (os : List (I × Option Word)) : Option Word := ((os.filter fun o => o.1 = i).getLast?).bind Prod.snd

/-- The option `i` is given. -/
def hasOpt {I : Type} [DecidableEq I] (i : I) (os : List (I × Option Word)) : Bool := os.any fun o => o.1 = i

/-- The contents of the named files. -/
def Contents (files : Files) (names : List Word) (texts : List (List Char)) : Prop := List.Forall₂ (fun name text => files name = some text) names texts

/-- The output file of no input file is an input file that comes later. -/
def NoClobber (names : List Word) (suffix : Word) : Prop := names.Pairwise fun f g => f ++ suffix ≠ g

/-- `files'` is `files` after `outs k` was written to the output file of the `k`-th input file, for all `k` for which there is such an output. -/
structure Written (names : List Word) (suffix : Word) (outs : ℕ → Option (List Char)) (files files' : Files) : Prop where
  output : ∀ (k : ℕ) (name : Word), names[k]? = some name → files' (name ++ suffix) = (outs k).or (files (name ++ suffix))
  other : ∀ n, (∀ name ∈ names, n ≠ name ++ suffix) → files' n = files n

/-- One value on each line. -/
def valueLines {W : Type*} (fmt : W → List Char) (vs : List W) : List Char := vs.flatMap fun v => fmt v ++ ['\n']

/-- What was written for the `k`-th input file, or to the standard output. -/
def writtenTo {W : Type*} (dest : Option ℕ) (w : List (Option ℕ × W)) : List W := (w.filter fun p => p.1 = dest).map Prod.snd

/-- A program that writes values has the same result on files as on their contents, `p`: without a suffix all goes to the standard output and no file changes; with a suffix the values of the `k`-th
input file are all there is in its output file.  An output file is also opened, and then empty, if the program fails before the first value, but not for an input file that cannot be read, and only after
those of the input files that come earlier. -/
def FilesOutcome {W : Type*} (fmt : W → List Char) (readable : List Char → Prop) (names : List Word) (texts : List (List Char)) (suffix : Option Word) (files : Files) (p : ProgOut (Option ℕ × W))
    (r : RunOut) : Prop :=
  match p, suffix with
  | .undefined, _ => r = .undefined
  | .exit status w, none => r = .exit status (valueLines fmt (w.map Prod.snd)) files
  | .exit status w, some s => ∃ (opened : ℕ → Bool) (files' : Files), r = .exit status [] files' ∧
      Written names s (fun k => if opened k then some (valueLines fmt (writtenTo (some k) w)) else none) files files' ∧
      (∀ k v, (some k, v) ∈ w → opened k = true) ∧ (∀ k, opened (k + 1) = true → opened k = true) ∧ (∀ k text, opened k = true → texts[k]? = some text → readable text)

/-- The result of a program that writes values to the standard output and changes no file. -/
def stdoutRun {W : Type*} (fmt : W → List Char) (files : Files) : ProgOut (Option ℕ × W) → RunOut
  | .undefined => .undefined
  | .exit status w => .exit status (valueLines fmt (w.map Prod.snd)) files

/-- The same for a program that writes one text for some input files. -/
def TextsOutcome (names : List Word) (suffix : Word) (files : Files) (p : ProgOut (Option ℕ × List Char)) (r : RunOut) : Prop :=
  match p with
  | .undefined => r = .undefined
  | .exit status w => ∃ files' : Files, r = .exit status [] files' ∧ Written names suffix (fun k => w.lookup (some k)) files files'

/-- The same on the standard output. -/
def textsRun (files : Files) : ProgOut (Option ℕ × List Char) → RunOut
  | .undefined => .undefined
  | .exit status w => .exit status (w.flatMap Prod.snd) files

end Moo
