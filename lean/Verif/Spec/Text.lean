import Verif.Model.Io

/-!
# Specification: the text format of data sets

A text is split into lines.  A line is a comment if its first character is `#`, blank if it has only spaces, tabs and carriage returns, and a row if it is a sequence of numbers;
comments and blank lines separate data sets.  The syntax of numbers is the parameter `scan`.
-/

set_option autoImplicit false

namespace Moo

/-- The lines of a text: what is between its newline characters. -/
def textLines : List Char → List (List Char)
  | [] => [[]]
  | c :: t =>
    if c = '\n' then [] :: textLines t
    else match textLines t with
      | [] => [[c]]
      | l :: ls => (c :: l) :: ls

variable {V : Type*}

/-- `l` is the sequence of the numbers `vs`, with optional white space before and after each. -/
inductive Numbers (scan : NumScan V) : List Char → List V → Prop
  | nil (l : List Char) : (∀ c ∈ l, isWs c = true) → Numbers scan l []
  | cons (l r : List Char) (v : V) (vs : List V) : scan (l.dropWhile isWs) = some (v, r) → Numbers scan r vs → Numbers scan l (v :: vs)

/-- The meaning of a line. -/
inductive LineKind (V : Type*)
  | sep
  | row (vs : List V)
  | bad

/-- The line `l` has this meaning. -/
def IsLine (scan : NumScan V) (l : List Char) : LineKind V → Prop
  | .sep => (∃ t, l = '#' :: t) ∨ ∀ c ∈ l, isWs c = true
  | .row vs => (∀ t, l ≠ '#' :: t) ∧ vs ≠ [] ∧ Numbers scan l vs
  | .bad => (∀ t, l ≠ '#' :: t) ∧ ∀ vs, ¬ Numbers scan l vs

/-- The data sets: the maximal groups of consecutive rows. -/
def setsAux : List (List V) → List (LineKind V) → List (List (List V))
  | cur, [] => if cur = [] then [] else [cur]
  | cur, .row vs :: ks => setsAux (cur ++ [vs]) ks
  | cur, _ :: ks => if cur = [] then setsAux [] ks else cur :: setsAux [] ks

/-- The data sets of a text, given the meaning of its lines. -/
def setsOf (ks : List (LineKind V)) : List (List (List V)) := setsAux [] ks

/-- Cumulative sums, starting from `b`. -/
def cumFrom (b : ℕ) : List ℕ → List ℕ
  | [] => []
  | n :: ns => (b + n) :: cumFrom (b + n) ns

/-- What is assumed of the conversion of numbers: it consumes at least one character, gives back a part of its input and does not look beyond the end of a line. -/
structure ScanOk (scan : NumScan V) : Prop where
  suffix : ∀ s v r, scan s = some (v, r) → r <:+ s ∧ r.length < s.length
  line : ∀ l t, '\n' ∉ l → scan (l ++ '\n' :: t) = (scan l).map (fun p => (p.1, p.2 ++ '\n' :: t))

/-- What is assumed of the conversion of a number to text, `fmt`: a token without white space that is not a comment, possibly followed by spaces;
reading the token back gives `rd v`, the value of `v` after rounding to the precision of the format. -/
structure FmtOk (fmt : V → List Char) (scan : NumScan V) (rd : V → V) : Prop where
  token : ∀ v, ∃ tok pad, fmt v = tok ++ pad ∧ (∃ c t, tok = c :: t ∧ c ≠ '#') ∧ (∀ c ∈ tok, isSpaceC c = false) ∧ (∀ c ∈ pad, c = ' ') ∧
    ∀ rest, (∀ c ∈ rest.head?, c = ' ') → scan (tok ++ rest) = some (rd v, rest)

/-- A comment line or a blank line. -/
def SepLine (l : List Char) : Prop := ((∃ t, l = '#' :: t) ∨ ∀ c ∈ l, isWs c = true) ∧ ∀ c ∈ l, c ≠ '\n' ∧ c ≠ '\x0b' ∧ c ≠ '\x0c'

/-- The text with the given lines. -/
def unlinesC (ls : List (List Char)) : List Char := (ls.map (· ++ ['\n'])).flatten

/-- The lines of a file of data sets: after some first lines, every set with one point per line and the lines after the set. -/
def setLines (fmtRow : List V → List Char) (pre : List (List Char)) (sets : List (List (List V) × List (List Char))) : List (List Char) :=
  pre ++ (sets.map (fun p => p.1.map fmtRow ++ p.2)).flatten

end Moo
