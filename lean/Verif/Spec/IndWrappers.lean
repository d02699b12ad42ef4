import Verif.Spec.Sets
import Verif.Spec.Distance
import Verif.Spec.HvWrappers
import Mathlib.Order.Bounds.Basic

/-!
# Specification of the unary quality indicators of the Python and R packages
-/

set_option autoImplicit false

namespace Moo

/-- The indicators. -/
inductive QualityIndicator where
  | epsilonAdditive
  | epsilonMult
  | igd
  | igdPlus
  /-- the exponent -/
  | avgHausdorff (p : ℕ)

/-- `v` is the `p`-average, over the first `nA` rows of `A`, of the distance to the nearest of the first `nB` rows of `B`. -/
def IsAvgNearest (dist : (ℕ → ℝ) → (ℕ → ℝ) → ℝ) (p : ℕ) (A : ℕ → ℕ → ℝ) (nA : ℕ) (B : ℕ → ℕ → ℝ) (nB : ℕ) (v : ℝ) : Prop :=
  ∃ m : ℕ → ℝ, (∀ a < nA, IsNearest (dist (A a)) B nB (m a)) ∧ v = ((∑ a ∈ Finset.range nA, m a ^ p) / nA) ^ ((1 : ℝ) / p)

/-- `v` is the value of the indicator for the first `nA` rows of `A` with respect to the first `nR` rows of the reference set `R`. -/
def IsIndicator (n : ℕ) (mx : ℕ → Bool) (A : ℕ → ℕ → ℝ) (nA : ℕ) (R : ℕ → ℕ → ℝ) (nR : ℕ) : QualityIndicator → ℝ → Prop
  | .epsilonAdditive, v => IsLeast {e | SetWeakDom n mx (fun i => improveAdd mx e (A i)) nA R nR} v
  | .epsilonMult, v => IsLeast {e | 0 < e ∧ SetWeakDom n mx (fun i => improveMult mx e (A i)) nA R nR} v
  | .igd, v => IsAvgNearest (euclid n) 1 R nR A nA v
  | .igdPlus, v => IsAvgNearest (fun r a => distPlus n mx a r) 1 R nR A nA v
  | .avgHausdorff p, v => ∃ a b, IsAvgNearest (euclid n) p A nA R nR a ∧ IsAvgNearest (euclid n) p R nR A nA b ∧ v = max a b

/-- What the indicator needs: positive values for the multiplicative epsilon indicator, an exponent of at least 1 for the averaged Hausdorff distance. -/
def IndicatorDefined (n : ℕ) (A : ℕ → ℕ → ℝ) (nA : ℕ) (R : ℕ → ℕ → ℝ) (nR : ℕ) : QualityIndicator → Prop
  | .epsilonMult => (∀ a < nA, ∀ d < n, 0 < A a d) ∧ ∀ r < nR, ∀ d < n, 0 < R r d
  | .avgHausdorff p => 1 ≤ p
  | _ => True

end Moo
