import Verif.Spec.Cli
import Verif.Spec.Sets
import Verif.Spec.Distance
import Mathlib.Order.Bounds.Basic

/-!
# Specification of the programs `epsilon` and `igd`
-/

set_option autoImplicit false

namespace Moo

variable {V W : Type*}

/-- The elements up to and including the first that satisfies `p`. -/
def throughFirst (p : W → Prop) [DecidablePred p] : List W → List W
  | [] => []
  | a :: l => if p a then [a] else a :: throughFirst p l

/-- The sets of all files in order, each with the place where its value goes: the standard output (`none`) or the output file of the input file numbered `k`. -/
def destSets (suffix : Bool) : ℕ → List (List (List (List V))) → List (Option ℕ × List (List V))
  | _, [] => []
  | k, sets :: files => (sets.map fun s => (if suffix then some k else none, s)) ++ destSets suffix (k + 1) files

/-- The string gives these directions for `n` objectives. -/
def IsDirections (str : List Char) (n : ℕ) (mx : ℕ → Bool) : Prop := str.length = n ∧ ∀ k < n, str[k]? = some (if mx k then '+' else '-')

section
variable {K : Type*} [Field K] [LinearOrder K] [IsStrictOrderedRing K]

/-- The additive epsilon indicator: the least amount by which all objectives of all points of `s` have to be improved to weakly dominate `R`. -/
def IsEpsAdd (n : ℕ) (mx : ℕ → Bool) (s R : List (List K)) (e : K) : Prop :=
  IsLeast {e | SetWeakDom n mx (fun i => improveAdd mx e (rowsTable s i)) s.length (rowsTable R) R.length} e

/-- The multiplicative epsilon indicator. -/
def IsEpsMult (n : ℕ) (mx : ℕ → Bool) (s R : List (List K)) (e : K) : Prop :=
  IsLeast {e | 0 < e ∧ SetWeakDom n mx (fun i => improveMult mx e (rowsTable s i)) s.length (rowsTable R) R.length} e

/-- Only positive values. -/
def AllPositive (n : ℕ) (s : List (List K)) : Prop := ∀ r ∈ s, ∀ k < n, 0 < r.getD k 0

end

/-- `v` is the `p`-average, over the points of `A`, of the distance to the nearest point of `B`. -/
def IsAvgDist (dist : (ℕ → ℝ) → (ℕ → ℝ) → ℝ) (p : ℕ) (A B : List (List ℝ)) (v : ℝ) : Prop :=
  ∃ m : ℕ → ℝ, (∀ a < A.length, IsNearest (dist (rowsTable A a)) (rowsTable B) B.length (m a)) ∧
    v = ((∑ a ∈ Finset.range A.length, m a ^ p) / A.length) ^ ((1 : ℝ) / p)

/-- The generational distance from `s` to `R` with exponent `p`. -/
def IsGD (n p : ℕ) (s R : List (List ℝ)) (v : ℝ) : Prop := IsAvgDist (euclid n) p s R v

/-- The inverted generational distance. -/
def IsIGD (n p : ℕ) (s R : List (List ℝ)) (v : ℝ) : Prop := IsAvgDist (euclid n) p R s v

/-- The modified inverted generational distance: the distance from a point `r` of `R` counts only what the point of `s` lacks. -/
def IsIGDPlus (n : ℕ) (mx : ℕ → Bool) (s R : List (List ℝ)) (v : ℝ) : Prop := IsAvgDist (fun r a => distPlus n mx a r) 1 R s v

/-- The averaged Hausdorff distance. -/
def IsHausdorff (n p : ℕ) (s R : List (List ℝ)) (v : ℝ) : Prop := ∃ a b, IsGD n p s R a ∧ IsIGD n p s R b ∧ v = max a b

end Moo
