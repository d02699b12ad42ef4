import Verif.Spec.Cli
import Verif.Spec.Dominance
import Verif.Spec.NdMain
import Mathlib.Algebra.BigOperators.Group.List.Basic
import Mathlib.Algebra.Field.Defs

/-!
# Specification of the program `dominatedsets`

Objective `k` is minimised if `dir k < 0`, maximised if `dir k > 0` and ignored if `dir k = 0`.
-/

set_option autoImplicit false

namespace Moo

/-- The options of `dominatedsets`, in the order in which they are given. -/
inductive DsArg
  | percentages
  | noCheck
  | obj (str : List Char)
deriving DecidableEq

/-- The argument of `-o`, if the option is given. -/
def DsArg.obj? : DsArg → Option (List Char)
  | .obj str => some str
  | _ => none

/-- A line of the output: a row of the table of counts, a row of the table of percentages (`none` is `--`), or the ranks. -/
inductive DsLine (K : Type*)
  | counts (row : List (Option ℤ))
  | percentages (row : List (Option K))
  | ranks (row : List ℤ)
deriving DecidableEq

section
variable {K : Type*} [LinearOrder K] [Zero K]

/-- No point of the set weakly dominates another one. -/
def FrontDir (n : ℕ) (dir : ℕ → ℤ) (s : List (List K)) : Prop :=
  s.Pairwise fun a b => ¬ WeakDomDir n dir (obj a) (obj b) ∧ ¬ WeakDomDir n dir (obj b) (obj a)

/-- The set `A` is better than the set `B`: every point of `B` is weakly dominated by a point of `A`, but not the other way round. -/
def SetBetter (n : ℕ) (dir : ℕ → ℤ) (A B : List (List K)) : Prop :=
  (∀ b ∈ B, ∃ a ∈ A, WeakDomDir n dir (obj a) (obj b)) ∧ ¬ ∀ a ∈ A, ∃ b ∈ B, WeakDomDir n dir (obj b) (obj a)

open Classical in
/-- The number of pairs of a set of `F` and a set of `G` in which the set of `F` is better. -/
noncomputable def betterPairs (n : ℕ) (dir : ℕ → ℤ) (F G : List (List (List K))) : ℕ :=
  ((F.product G).filter fun p => SetBetter n dir p.1 p.2).length

end

/-- The tables for the files `F`: the numbers of pairs in which the set of the row is better than that of the column; the same in percent of all pairs; and for every file the number of times that a set
of another file is better than one of its sets. -/
noncomputable def dsTables {K : Type*} [Field K] [LinearOrder K] (n : ℕ) (dir : ℕ → ℤ) (percentages : Bool) (F : List (List (List (List K)))) : List (DsLine K) :=
  (F.zipIdx.map fun f => .counts (F.zipIdx.map fun g => if f.2 = g.2 then none else some (betterPairs n dir f.1 g.1))) ++
  (if percentages then F.zipIdx.map fun f => .percentages (F.zipIdx.map fun g => if f.2 = g.2 then none else some (100 * betterPairs n dir f.1 g.1 / (f.1.length * g.1.length))) else []) ++
  [.ranks (F.zipIdx.map fun f => ((F.zipIdx.filter fun g => g.2 ≠ f.2).map fun g => (betterPairs n dir g.1 f.1 : ℤ)).sum)]

/-- The directions of `n` objectives are those of the string (`none`: all are minimised). -/
def DirectionsArg (n : ℕ) (dir : ℕ → ℤ) : Option (List Char) → Prop
  | none => ∀ k < n, dir k = -1
  | some str => str.length = n ∧ (∃ k < n, dir k ≠ 0) ∧
      ∀ k < n, (dir k = -1 ∧ str[k]? = some '-') ∨ (dir k = 1 ∧ str[k]? = some '+') ∨ (dir k = 0 ∧ (str[k]? = some 'i' ∨ str[k]? = some '0'))

end Moo
