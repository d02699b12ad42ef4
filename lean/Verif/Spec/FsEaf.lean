import Verif.Spec.FsMain
import Verif.Spec.EafMain
import Verif.Spec.NdSort
import Verif.Spec.DsMain
import Verif.Spec.Usage

/-!
# Specification of what the programs `eaf`, `ndsort` and `dominatedsets` do to the files
-/

set_option autoImplicit false

namespace Moo

/-- The texts that are read: `-` is the standard input, which is at its end once it was read. -/
inductive InputTexts (files : Files) : List Char → List Word → List (List Char) → Prop
  | nil (stdin : List Char) : InputTexts files stdin [] []
  | stdin (stdin : List Char) (names : List Word) (texts : List (List Char)) : InputTexts files [] names texts → InputTexts files stdin (['-'] :: names) (stdin :: texts)
  | file (stdin : List Char) (name : Word) (text : List Char) (names : List Word) (texts : List (List Char)) : name ≠ ['-'] → files name = some text → InputTexts files stdin names texts →
      InputTexts files stdin (name :: names) (text :: texts)

/-- The names that `eaf` reads: without any it is the standard input. -/
def eafInputs (names : List Word) : List Word := if names = [] then [['-']] else names

/-- An option of `eaf` that is not `--help`, `--version` or `--polygons`. -/
def eafArgOf : EafOpt × Option Word → Option EafArg
  | (.best, _) => some .best
  | (.median, _) => some .median
  | (.worst, _) => some .worst
  | (.quiet, _) => some .quiet
  | (.verbose, _) => some .verbose
  | (.percentile, some s) => some (.percentile s)
  | (.level, some s) => some (.level s)
  | (.output, some s) => some (.output s)
  | (.indices, a) => some (.indices a)
  | (.diff, a) => some (.diff a)
  | _ => none

/-- The options of `eaf` on its command line. -/
def eafArgsOf (os : List (EafOpt × Option Word)) : List EafArg := os.filterMap eafArgOf

/-- The file `n` is one that the options `-o`, `-i` and `-d` name for the output. -/
def IsOutput (args : List EafArg) (n : Word) : Prop := pointsTo args = .file n ∨ indicesTo args = some (.file n) ∨ countsTo args = some (.file n)

/-- The text written to a stream. -/
def streamText {T : Type*} (fmt : T → List Char) (s : OutStream) (w : List (OutStream × T)) : List Char := (w.filter fun p => p.1 = s).flatMap fun p => fmt p.2

/-- A program has the same result on files as on the texts in them, `p`: what it writes to the standard output goes there, and if `opened` the output files have what was written to them and
nothing else; no other file changes. -/
def StreamsOutcome {T : Type*} (fmt : T → List Char) (args : List EafArg) (opened : Prop) (files : Files) (p : ProgOut (OutStream × T)) (r : RunOut) : Prop :=
  match p with
  | .undefined => r = .undefined
  | .exit status w => ∃ files', r = .exit status (streamText fmt .stdout w) files' ∧
      (∀ n, (opened ∧ IsOutput args n → files' n = some (streamText fmt (.file n) w)) ∧ (¬ (opened ∧ IsOutput args n) → files' n = files n)) ∧ (status = 0 → opened) ∧ (status ≠ 0 → w = [])

/-- An option of `ndsort`. -/
def nsArgOf : NsOpt × Option Word → Option NsArg
  | (.rank, _) => some .rank
  | (.keepUevs, _) => some .keepUevs
  | (.obj, some s) => some (.obj s)
  | _ => none

/-- An option of `dominatedsets`. -/
def dsArgOf : DsOpt × Option Word → Option DsArg
  | (.percentages, _) => some .percentages
  | (.noCheck, _) => some .noCheck
  | (.obj, some s) => some (.obj s)
  | _ => none

/-- The last of `--verbose` and `--quiet` counts; `ndsort` is quiet without them. -/
def nsVerbose (os : List (NsOpt × Option Word)) : Bool :=
  ((os.filterMap fun o => if o.1 = .verbose then some true else if o.1 = .quiet then some false else none).getLast?).getD false

/-- The result of a program that changes no file and writes values to the standard output, one on each line, after a text that depends on their number.  A program that fails writes nothing. -/
def printRun {W : Type*} (head : ℕ → List Char) (fmt : W → List Char) (files : Files) : ProgOut W → RunOut
  | .undefined => .undefined
  | .exit status w => .exit status (if status = 0 then head w.length ++ valueLines fmt w else []) files

/-- The result of a program that changes no file and whose output to the standard output, if it does not fail, ends with the text of what is written. -/
def TablesOutcome {W : Type*} (render : List W → List Char) (files : Files) (p : ProgOut W) (r : RunOut) : Prop :=
  match p with
  | .undefined => r = .undefined
  | .exit status w => ∃ out, r = .exit status out files ∧ (status = 0 → ∃ head, out = head ++ render w)

end Moo
