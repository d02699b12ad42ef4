import Verif.Spec.Text
import Mathlib.Data.List.Forall2

/-!
# Specification: the input of the command-line programs

A program reads texts; the data sets of a text are those of `Verif/Spec/Text.lean`.
-/

set_option autoImplicit false

namespace Moo

variable {V : Type*}

/-- `s` is a text of data sets with `n` objectives, at least one point, and these data sets: every line is a comment, a blank line or a row of `n` numbers.  The text has neither
vertical tabs nor form feeds. -/
def TextSets (scan : NumScan V) (s : List Char) (n : ℕ) (sets : List (List (List V))) : Prop :=
  (∀ c ∈ s, c ≠ '\x0b' ∧ c ≠ '\x0c') ∧
    ∃ ks, List.Forall₂ (IsLine scan) (textLines s) ks ∧ (∀ k ∈ ks, k = .sep ∨ ∃ vs, k = .row vs ∧ vs.length = n) ∧ (∃ vs, LineKind.row vs ∈ ks) ∧ sets = setsOf ks

/-- `s` is not a text of data sets with `nobj` objectives (with any number of objectives if `nobj` is 0).  Again without vertical tabs and form feeds. -/
def Unreadable (scan : NumScan V) (s : List Char) (nobj : ℕ) : Prop :=
  (∀ c ∈ s, c ≠ '\x0b' ∧ c ≠ '\x0c') ∧ ¬ ∃ n sets, (nobj = 0 ∨ n = nobj) ∧ TextSets scan s n sets

/-- `l` is the sequence of the numbers `vs`, with optional white space before and after each (white space as in C, for arguments of options). -/
inductive NumbersArg (scan : NumScan V) : List Char → List V → Prop
  | nil (l : List Char) : (∀ c ∈ l, isSpaceC c = true) → NumbersArg scan l []
  | cons (l r : List Char) (v : V) (vs : List V) : scan (l.dropWhile isSpaceC) = some (v, r) → NumbersArg scan r vs → NumbersArg scan l (v :: vs)

/-- The table of the points of a set: `rowsTable rows i k` is objective `k` of point `i`. -/
def rowsTable [Zero V] (rows : List (List V)) : ℕ → ℕ → V := fun i k => (rows.getD i []).getD k 0

/-- How a program ends: with this exit status after writing this, or with undefined behaviour (or a failed assertion). -/
inductive ProgOut (W : Type*)
  | exit (status : ℕ) (written : List W)
  | undefined

end Moo
