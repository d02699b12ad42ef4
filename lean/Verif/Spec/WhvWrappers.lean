import Verif.Spec.Hypervolume
import Verif.Spec.HvWrappers
import Mathlib.MeasureTheory.Integral.Bochner.Set
import Mathlib.Order.Bounds.Basic

/-!
# Specification of the weighted hypervolume of the Python and R packages

The hypervolume of a set with respect to a weight: the integral of the weight over the region that is dominated by the set and bounded by the reference point.
-/

set_option autoImplicit false

namespace Moo

open MeasureTheory

/-- The integral of the weight `w` over the dominated region. -/
noncomputable def weightedHv (n : ℕ) (pts : ℕ → ℕ → ℝ) (ref : ℕ → ℝ) (w : (Fin 2 → ℝ) → ℝ) : ℝ := ∫ z in dominatedRegion 2 n pts ref, w z

/-- The weight given by a table of rectangles (two corners and a weight in each of `m` rows): the sum of the weights of the rectangles that contain the point. -/
noncomputable def weightAt (m : ℕ) (t : ℕ → ℕ → ℝ) (z : Fin 2 → ℝ) : ℝ :=
  ∑ i ∈ Finset.range m, Set.indicator {y : Fin 2 → ℝ | (t i 0 ≤ y 0 ∧ y 0 ≤ t i 2) ∧ t i 1 ≤ y 1 ∧ y 1 ≤ t i 3} (fun _ => t i 4) z

/-- The rows of the table are rectangles with positive sides and weights that are not negative. -/
def ValidRects (m : ℕ) (t : ℕ → ℕ → ℝ) : Prop := ∀ i < m, t i 0 < t i 2 ∧ t i 1 < t i 3 ∧ 0 ≤ t i 4

/-- No point is at least as good as another one. -/
def NoneDominated (n : ℕ) (pts : ℕ → ℕ → ℝ) : Prop := ∀ i < n, ∀ j < n, i ≠ j → ¬ (pts i 0 ≤ pts j 0 ∧ pts i 1 ≤ pts j 1)

/-- The ideal point of the points (minimisation). -/
def IsIdealPoint (n : ℕ) (pts : ℕ → ℕ → ℝ) (ideal : ℕ → ℝ) : Prop := ∀ k < 2, IsLeast {v | ∃ i < n, v = pts i k} (ideal k)

/-- The ideal point that is given (one value for both objectives or one for each), or that of the points. -/
def IdealOf (n : ℕ) (pts : ℕ → ℕ → ℝ) (given : Option (List ℝ)) (ideal : ℕ → ℝ) : Prop :=
  given.elim (IsIdealPoint n pts ideal) (fun l => PerObjective 2 l ideal)

/-- The weight used by `total_whv_rect`. -/
noncomputable def totalWeight (m : ℕ) (t : ℕ → ℕ → ℝ) (ref ideal : ℕ → ℝ) (scale : ℝ) (z : Fin 2 → ℝ) : ℝ :=
  1 + scale * |(ref 0 - ideal 0) * (ref 1 - ideal 1)| * weightAt m t z

end Moo
