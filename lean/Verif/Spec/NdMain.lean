import Verif.Spec.Cli
import Verif.Spec.Dominance
import Verif.Spec.IndMain
import Mathlib.Algebra.Order.Field.Basic
import Mathlib.Order.Bounds.Basic
import Mathlib.Order.Interval.Set.Defs
import Mathlib.Order.Monotone.Defs

/-!
# Specification of the program `nondominated`
-/

set_option autoImplicit false

namespace Moo

section
variable {K : Type*} [LinearOrder K] [Zero K]

/-- Objective `k` of a point. -/
def obj (r : List K) (k : ℕ) : K := r.getD k 0

/-- `w` are the nondominated points of `rows`: in the same order, each only once, those that no point of `rows` dominates. -/
def IsFrontOf (n : ℕ) (mx : ℕ → Bool) (rows w : List (List K)) : Prop :=
  w.Sublist rows ∧ w.Nodup ∧ ∀ r, r ∈ w ↔ r ∈ rows ∧ ∀ q ∈ rows, ¬ Dom n mx (obj q) (obj r)

/-- No point of the set weakly dominates another one (in particular no point occurs twice). -/
def MutuallyNondominated (n : ℕ) (mx : ℕ → Bool) (rows : List (List K)) : Prop :=
  rows.Pairwise fun a b => ¬ WeakDom n mx (obj a) (obj b) ∧ ¬ WeakDom n mx (obj b) (obj a)

/-- The point satisfies the bounds. -/
def InBounds (n : ℕ) (L U : ℕ → K) (r : List K) : Prop := ∀ d < n, L d ≤ obj r d ∧ obj r d ≤ U d

instance (n : ℕ) (L U : ℕ → K) (r : List K) : Decidable (InBounds n L U r) := by unfold InBounds; infer_instance

/-- The lower bounds: those given, or else the least values of the points. -/
def LowerBounds (n : ℕ) (given : Option (List K)) (points : List (List K)) (L : ℕ → K) : Prop :=
  match given with
  | some l => ∀ d < n, L d = obj l d
  | none => ∀ d < n, IsLeast {x | ∃ r ∈ points, x = obj r d} (L d)

/-- The upper bounds: those given, or else the greatest values of the points. -/
def UpperBounds (n : ℕ) (given : Option (List K)) (points : List (List K)) (U : ℕ → K) : Prop :=
  match given with
  | some u => ∀ d < n, U d = obj u d
  | none => ∀ d < n, IsGreatest {x | ∃ r ∈ points, x = obj r d} (U d)

end

/-- The options, in the order in which they are given. -/
inductive NdArg
  | noCheck
  | filter
  | forceBounds
  | union
  | maximise
  | obj (str : List Char)
  | agree (str : List Char)
  | normalise (str : List Char)
  | upper (str : List Char)
  | lower (str : List Char)
  | log (str : List Char)

/-- What the options ask for: whether the sets are checked; whether dominated points and points out of bounds are removed; whether the sets of a file are united; the directions of the
objectives after the transformation (`none`: as they are); the range; the bounds; the objectives to be transformed to logarithmic scale; the directions. -/
structure NdOpts (K : Type*) where
  checks : Bool
  filter : Bool
  force : Bool
  union : Bool
  agree : Option Bool
  range : Option (K × K)
  lower : Option (List K)
  upper : Option (List K)
  log : Option (List Bool)
  mx : ℕ → Bool

section
variable {K : Type*} [LinearOrder K]

/-- `o` is what the options mean for files with `n` objectives.  An option that is repeated has the same value each time. -/
structure NdMeans (scan : NumScan K) (n : ℕ) (args : List NdArg) (o : NdOpts K) : Prop where
  checks : o.checks = true ↔ NdArg.filter ∈ args ∨ NdArg.noCheck ∉ args
  filter : o.filter = true ↔ NdArg.filter ∈ args
  force : o.force = true ↔ NdArg.forceBounds ∈ args
  union : o.union = true ↔ NdArg.union ∈ args
  directions : ∀ str, NdArg.obj str ∈ args → IsDirections str n o.mx
  no_directions : (∀ str, NdArg.obj str ∉ args) → ∀ k < n, (o.mx k = true ↔ NdArg.maximise ∈ args)
  agree : ∀ str, NdArg.agree str ∈ args → ∃ b, o.agree = some b ∧ str = if b then ['m', 'a', 'x'] else ['m', 'i', 'n']
  no_agree : (∀ str, NdArg.agree str ∉ args) → o.agree = none
  range : ∀ str, NdArg.normalise str ∈ args → ∃ lo hi, o.range = some (lo, hi) ∧ NumbersArg scan str [lo, hi] ∧ lo < hi
  no_range : (∀ str, NdArg.normalise str ∉ args) → o.range = none
  lower : ∀ str, NdArg.lower str ∈ args → ∃ vs, o.lower = some vs ∧ NumbersArg scan str vs ∧ vs.length = n
  no_lower : (∀ str, NdArg.lower str ∉ args) → o.lower = none
  upper : ∀ str, NdArg.upper str ∈ args → ∃ vs, o.upper = some vs ∧ NumbersArg scan str vs ∧ vs.length = n
  no_upper : (∀ str, NdArg.upper str ∉ args) → o.upper = none
  log : ∀ str, NdArg.log str ∈ args → ∃ bits, o.log = some bits ∧ str = bits.map (fun b => if b then '1' else '0') ∧ bits.length = n
  no_log : (∀ str, NdArg.log str ∉ args) → o.log = none

/-- Objective `d` is transformed to logarithmic scale. -/
def NdOpts.logs (o : NdOpts K) (d : ℕ) : Bool := (o.log.getD []).getD d false

/-- Objective `d` changes sign. -/
def NdOpts.flips (o : NdOpts K) (d : ℕ) : Bool :=
  match o.agree with
  | none => false
  | some b => b != o.mx d

/-- The points are written. -/
def NdOpts.Writes (o : NdOpts K) (n : ℕ) : Prop := o.filter = true ∨ o.agree ≠ none ∨ o.range ≠ none ∨ o.force = true ∨ ∃ d < n, o.logs d = true

instance (o : NdOpts K) (n : ℕ) : Decidable (o.Writes n) := by unfold NdOpts.Writes; infer_instance

end

section
variable {K : Type*} [Field K] [LinearOrder K]

/-- The logarithm is increasing from the lower bound on in the objectives to be transformed. -/
def LogOk (lg : K → K) (o : NdOpts K) (L : ℕ → K) (n : ℕ) : Prop := ∀ d < n, o.logs d = true → StrictMonoOn lg (Set.Ici (L d))

/-- The value of objective `d` after the transformation: logarithm, change of sign, and the range, in which the best of the bounds `l` and `u` comes first for an objective to be minimised.
A range of bounds of length 0 counts as 1. -/
def ndValue (lg : K → K) (o : NdOpts K) (L U : ℕ → K) (d : ℕ) (x : K) : K :=
  let f : K → K := if o.logs d then lg else id
  let y := f x
  let l := f (L d)
  let u := f (U d)
  match o.range with
  | none => if o.flips d then -y else y
  | some (lo, hi) => lo + (hi - lo) * (if o.flips d then u - y else y - l) / (if u = l then 1 else u - l)

/-- A point after the transformation. -/
def ndPoint (lg : K → K) (o : NdOpts K) (L U : ℕ → K) (n : ℕ) (r : List K) : List K := (List.range n).map fun d => ndValue lg o L U d (obj r d)

/-- The sets of a file that are processed: united or not, without the points out of bounds or with them. -/
def ndSets (o : NdOpts K) (L U : ℕ → K) (n : ℕ) (sets : List (List (List K))) : List (List (List K)) :=
  (if o.union then [sets.flatten] else sets).map fun s => if o.force then s.filter (fun r => decide (InBounds n L U r)) else s

/-- `w` is what has to be written for the set `s`: the transformed points; with `--filter` only the nondominated ones. -/
def NdWritten (lg : K → K) (o : NdOpts K) (L U : ℕ → K) (n : ℕ) (s w : List (List K)) : Prop :=
  ∃ w0, (if o.filter then IsFrontOf n o.mx s w0 else w0 = s) ∧ w = w0.map (ndPoint lg o L U n)

end

end Moo
