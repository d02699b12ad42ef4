import Mathlib.MeasureTheory.Measure.Lebesgue.Basic
import Verif.Spec.Dominance

/-!
# Specification of the hypervolume

All objectives are minimised, except in `dominatedRegionMx`.  `pts i k` is objective `k` of point `i`.
-/

set_option autoImplicit false

namespace Moo

open MeasureTheory

/-- The vectors `y` of `d` objectives that are weakly dominated by at least one of the `n` points and that weakly dominate the
reference point. -/
def dominatedRegion (d n : ℕ) (pts : ℕ → ℕ → ℝ) (ref : ℕ → ℝ) : Set (Fin d → ℝ) :=
  {y | (∃ i < n, ∀ k : Fin d, pts i k ≤ y k) ∧ ∀ k : Fin d, y k ≤ ref k}

/-- The same, without using point `i`. -/
def dominatedRegionWithout (d n : ℕ) (pts : ℕ → ℕ → ℝ) (ref : ℕ → ℝ) (i : ℕ) : Set (Fin d → ℝ) :=
  {y | (∃ r < n, r ≠ i ∧ ∀ k : Fin d, pts r k ≤ y k) ∧ ∀ k : Fin d, y k ≤ ref k}

/-- With directions: the vectors `y` that are at most as good as one of the `n` points in every objective and at least as good as the
reference point in every objective; objective `k` is maximised if `mx k`. -/
def dominatedRegionMx (d n : ℕ) (mx : ℕ → Bool) (pts : ℕ → ℕ → ℝ) (ref : ℕ → ℝ) : Set (Fin d → ℝ) :=
  {y | (∃ i < n, ∀ k : Fin d, AtLeastAsGood (mx k) (pts i k) (y k)) ∧ ∀ k : Fin d, AtLeastAsGood (mx k) (y k) (ref k)}

/-- The real number that is the volume of a set. -/
noncomputable def vol {d : ℕ} (s : Set (Fin d → ℝ)) : ℝ := (volume s).toReal

end Moo
