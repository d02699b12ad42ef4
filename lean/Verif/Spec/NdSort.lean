import Verif.Spec.Cli
import Verif.Spec.Rank
import Verif.Spec.Hypervolume
import Mathlib.Order.Bounds.Basic

/-!
# Specification of the program `ndsort`

`s` is the list of all points of the input; objectives are minimised unless `mx` says otherwise.
-/

set_option autoImplicit false

namespace Moo

/-- The options of `ndsort`, in the order in which they are given. -/
inductive NsArg
  | rank
  | keepUevs
  | obj (str : List Char)
deriving DecidableEq

/-- The argument of `-o`, if the option is given. -/
def NsArg.obj? : NsArg → Option (List Char)
  | .obj str => some str
  | _ => none

/-- A line of the output: a rank, or a number that may have decimals. -/
inductive NsLine (K : Type*)
  | rank (r : ℕ)
  | order (v : K)

/-- `ranks` has the number of the front of every point. -/
def FrontsOf (n : ℕ) (mx : ℕ → Bool) (s : List (List ℝ)) (ranks : List ℕ) : Prop :=
  ranks.length = s.length ∧ ∀ i < s.length, InFront n s.length mx (rowsTable s) (ranks.getD i 0) i

/-- The points that no point dominates. -/
def firstFront (n : ℕ) (s : List (List ℝ)) : Set ℕ := {i | i < s.length ∧ Nondominated n s.length (fun _ => false) (rowsTable s) i}

/-- `x` has the points of the first front, scaled such that every objective ranges from 0 to 0.9 (it is 0 if it is constant). -/
def IsScaledFront (n : ℕ) (s : List (List ℝ)) (x : ℕ → ℕ → ℝ) : Prop :=
  ∀ k < n, ∃ m M, IsLeast ((fun i => rowsTable s i k) '' firstFront n s) m ∧ IsGreatest ((fun i => rowsTable s i k) '' firstFront n s) M ∧
    ∀ i ∈ firstFront n s, x i k = if m = M then 0 else 9 / 10 * ((rowsTable s i k - m) / (M - m))

/-- The vectors that are weakly dominated by one of the points in `S` and that have no objective above 1. -/
def unitRegion (n : ℕ) (x : ℕ → ℕ → ℝ) (S : Set ℕ) : Set (Fin n → ℝ) := {y | (∃ i ∈ S, ∀ k : Fin n, x i k ≤ y k) ∧ ∀ k : Fin n, y k ≤ 1}

/-- The volume that is lost without point `i`. -/
noncomputable def frontContribution (n : ℕ) (s : List (List ℝ)) (x : ℕ → ℕ → ℝ) (i : ℕ) : ℝ :=
  vol (unitRegion n x (firstFront n s)) - vol (unitRegion n x (firstFront n s \ {i}))

/-- `orders` has the rank of every point outside of the first front, and 2 minus its contribution for every point of the first front; contributions below `tol` count as 0. -/
def OrdersOf (n : ℕ) (tol : ℝ) (s : List (List ℝ)) (x : ℕ → ℕ → ℝ) (orders : List ℝ) : Prop :=
  orders.length = s.length ∧
    (∀ i < s.length, ∀ r, InFront n s.length (fun _ => false) (rowsTable s) r i → r ≠ 1 → orders.getD i 0 = r) ∧
    ∀ i ∈ firstFront n s, orders.getD i 0 = 2 - if frontContribution n s x i ≥ tol then frontContribution n s x i else 0

end Moo
