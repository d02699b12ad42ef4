import Mathlib.Data.List.Infix
import Mathlib.Tactic.DeriveFintype

/-!
# Specification of command lines

Which command lines a list of options admits, by the conventions of GNU programs: options and file names in any order; one-letter options after one dash, several flags after the same dash, an
argument in the same word or the next one; long options after two dashes, possibly abbreviated, an argument after `=` or in the next word; `--` ends the options; `-` is a file name.
-/

set_option autoImplicit false

namespace Moo

/-- A word of the command line. -/
abbrev Word := List Char

/-- Whether an option has an argument. -/
inductive HasArg
  | no
  | required
  | optional
deriving DecidableEq

/-- An option: which one it is, its letters, its long names, and its argument. -/
structure OptDoc (I : Type) where
  id : I
  short : List Char
  long : List Word
  arg : HasArg

variable {I : Type}

/-- The letter `c` is the option `i`. -/
def ShortIs (G : List (OptDoc I)) (c : Char) (i : I) (k : HasArg) : Prop := ∃ d ∈ G, c ∈ d.short ∧ d.id = i ∧ d.arg = k

/-- The word `w` is a long name of the option `i`, or the beginning of one, but of no other option. -/
def LongIs (G : List (OptDoc I)) (w : Word) (i : I) (k : HasArg) : Prop :=
  w ≠ [] ∧ ∃ d ∈ G, d.id = i ∧ d.arg = k ∧ ∃ n ∈ d.long, n = w ∨ (w <+: n ∧ ∀ d' ∈ G, ∀ n' ∈ d'.long, w <+: n' → d'.id = i ∧ d'.arg = k)

/-- The letters `cs` after a dash give these options; the last parameter is the option that has the next word as its argument, if there is one. -/
inductive Shorts (G : List (OptDoc I)) : List Char → List (I × Option Word) → Option I → Prop
  | nil : Shorts G [] [] none
  | flag (c : Char) (i : I) (cs : List Char) (os : List (I × Option Word)) (p : Option I) : ShortIs G c i .no → Shorts G cs os p → Shorts G (c :: cs) ((i, none) :: os) p
  | attached (c : Char) (i : I) (k : HasArg) (arg : Word) : ShortIs G c i k → k ≠ .no → arg ≠ [] → Shorts G (c :: arg) [(i, some arg)] none
  | omitted (c : Char) (i : I) : ShortIs G c i .optional → Shorts G [c] [(i, none)] none
  | next (c : Char) (i : I) : ShortIs G c i .required → Shorts G [c] [] (some i)

/-- The command line (without the name of the program) gives these options with these arguments, in this order, and these file names, in this order. -/
inductive CmdLine (G : List (OptDoc I)) : List Word → List (I × Option Word) → List Word → Prop
  | nil : CmdLine G [] [] []
  | stop (fs : List Word) : CmdLine G (['-', '-'] :: fs) [] fs
  | file (f : Word) (ws : List Word) (os : List (I × Option Word)) (fs : List Word) : (f = ['-'] ∨ f.head? ≠ some '-') → CmdLine G ws os fs → CmdLine G (f :: ws) os (f :: fs)
  | short (c : Char) (cs : List Char) (os₀ : List (I × Option Word)) (ws : List Word) (os : List (I × Option Word)) (fs : List Word) :
      c ≠ '-' → Shorts G (c :: cs) os₀ none → CmdLine G ws os fs → CmdLine G (('-' :: c :: cs) :: ws) (os₀ ++ os) fs
  | shortNext (c : Char) (cs : List Char) (os₀ : List (I × Option Word)) (i : I) (arg : Word) (ws : List Word) (os : List (I × Option Word)) (fs : List Word) :
      c ≠ '-' → Shorts G (c :: cs) os₀ (some i) → CmdLine G ws os fs → CmdLine G (('-' :: c :: cs) :: arg :: ws) (os₀ ++ (i, some arg) :: os) fs
  | long (n : Word) (i : I) (k : HasArg) (ws : List Word) (os : List (I × Option Word)) (fs : List Word) :
      LongIs G n i k → k ≠ .required → CmdLine G ws os fs → CmdLine G (('-' :: '-' :: n) :: ws) ((i, none) :: os) fs
  | longEq (n arg : Word) (i : I) (k : HasArg) (ws : List Word) (os : List (I × Option Word)) (fs : List Word) :
      LongIs G n i k → k ≠ .no → CmdLine G ws os fs → CmdLine G (('-' :: '-' :: n ++ '=' :: arg) :: ws) ((i, some arg) :: os) fs
  | longNext (n arg : Word) (i : I) (ws : List Word) (os : List (I × Option Word)) (fs : List Word) :
      LongIs G n i .required → CmdLine G ws os fs → CmdLine G (('-' :: '-' :: n) :: arg :: ws) ((i, some arg) :: os) fs

end Moo
