import Verif.Spec.Dominance
import Mathlib.Analysis.SpecialFunctions.Pow.Real

/-! # Specification: distances between points and sets -/

set_option autoImplicit false

namespace Moo

/-- Euclidean distance of the first `dim` coordinates. -/
noncomputable def euclid (dim : ℕ) (p q : ℕ → ℝ) : ℝ :=
  Real.sqrt (∑ d ∈ Finset.range dim, (p d - q d) ^ 2)

/-- How much worse `a` is than `r` in an objective, 0 if it is not worse. -/
noncomputable def lack (mx : Bool) (a r : ℝ) : ℝ := if mx then max (r - a) 0 else max (a - r) 0

/-- The modified distance of IGD+: only objectives in which `a` is worse than `r` count. -/
noncomputable def distPlus (dim : ℕ) (mx : ℕ → Bool) (a r : ℕ → ℝ) : ℝ :=
  Real.sqrt (∑ d ∈ Finset.range dim, (lack (mx d) (a d) (r d)) ^ 2)

/-- `m` is the least value of `f` over the first `n` rows of `A`. -/
def IsNearest (f : (ℕ → ℝ) → ℝ) (A : ℕ → ℕ → ℝ) (n : ℕ) (m : ℝ) : Prop :=
  (∃ a < n, m = f (A a)) ∧ ∀ a < n, m ≤ f (A a)

end Moo
