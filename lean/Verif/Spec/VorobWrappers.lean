import Verif.Spec.EafLabels
import Verif.Spec.Hypervolume
import Mathlib.Order.SymmDiff
import Mathlib.Algebra.BigOperators.Group.Finset.Basic

/-!
# Specification: Vorob'ev threshold, expectation and deviation

A data set is a table of points with one label per row; the rows with the same label form one set.  Objective `d` is maximised if `mx d`, otherwise minimised.  All regions are
cut off at the reference point.
-/

set_option autoImplicit false

namespace Moo

variable {L : Type*} [DecidableEq L]

/-- The vectors that are at least as good as the reference point and at most as good as one of the given points. -/
def listRegion (dim : ℕ) (mx : ℕ → Bool) (points : List (ℕ → ℝ)) (ref : ℕ → ℝ) : Set (Fin dim → ℝ) :=
  {y | (∃ p ∈ points, ∀ d : Fin dim, AsGood (mx d) (p d) (y d)) ∧ ∀ d : Fin dim, AsGood (mx d) (y d) (ref d)}

/-- The region dominated by the set with label `u`. -/
def labelRegion (dim : ℕ) (mx : ℕ → Bool) (data : ℕ → ℕ → ℝ) (labels : List L) (ref : ℕ → ℝ) (u : L) : Set (Fin dim → ℝ) :=
  {y | (∃ k, labels[k]? = some u ∧ ∀ d : Fin dim, AsGood (mx d) (data k d) (y d)) ∧ ∀ d : Fin dim, AsGood (mx d) (y d) (ref d)}

open Classical in
/-- The region dominated by at least `k` sets. -/
def quantileRegion (dim : ℕ) (mx : ℕ → Bool) (data : ℕ → ℕ → ℝ) (labels : List L) (ref : ℕ → ℝ) (k : ℕ) : Set (Fin dim → ℝ) :=
  {y | k ≤ (labels.toFinset.filter (fun u => y ∈ labelRegion dim mx data labels ref u)).card}

/-- The mean hypervolume of the sets. -/
noncomputable def meanHypervolume (dim : ℕ) (mx : ℕ → Bool) (data : ℕ → ℕ → ℝ) (labels : List L) (ref : ℕ → ℝ) : ℝ :=
  (∑ u ∈ labels.toFinset, vol (labelRegion dim mx data labels ref u)) / labels.toFinset.card

/-- The mean volume of the symmetric difference between `M` and the regions dominated by the sets. -/
noncomputable def meanDeviation (dim : ℕ) (mx : ℕ → Bool) (data : ℕ → ℕ → ℝ) (labels : List L) (ref : ℕ → ℝ) (M : Set (Fin dim → ℝ)) : ℝ :=
  (∑ u ∈ labels.toFinset, vol (symmDiff (labelRegion dim mx data labels ref u) M)) / labels.toFinset.card

/-- What the threshold, the expectation and the mean hypervolume that are returned should be: `avg` is the mean hypervolume; `VE` has, each once, exactly the best points attained by as many
sets as the threshold (a percentage) asks for, so that it dominates the region dominated by so many sets; the threshold is one end of an interval such that the regions that
belong to percentages below it have more hypervolume than the mean, and those above it at most the mean. -/
structure IsVorobev (tol : ℝ) (dim : ℕ) (mx : ℕ → Bool) (data : ℕ → ℕ → ℝ) (labels : List L) (ref : ℕ → ℝ) (threshold : ℝ) (VE : List (ℕ → ℝ)) (avg : ℝ) : Prop where
  avg_eq : avg = meanHypervolume dim mx data labels ref
  points : ∃ k, LeastLevel tol labels.toFinset.card threshold k ∧
    (∀ z : ℕ → ℝ, (∃ p ∈ VE, ∀ d < dim, p d = z d) ↔ BestForLabels mx data labels dim k z) ∧ listRegion dim mx VE ref = quantileRegion dim mx data labels ref k
  once : (VE.map (fun p => (List.range dim).map p)).Nodup
  bracket : ∃ a b : ℝ, 0 ≤ a ∧ a < b ∧ b ≤ 100 ∧ (threshold = a ∨ threshold = b) ∧ ∀ p k, LeastLevel tol labels.toFinset.card p k →
    (0 < a → p ≤ a → avg < vol (quantileRegion dim mx data labels ref k)) ∧ (b < 100 → b ≤ p → vol (quantileRegion dim mx data labels ref k) ≤ avg)

end Moo
