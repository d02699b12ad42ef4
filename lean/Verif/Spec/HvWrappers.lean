import Verif.Spec.Hypervolume

/-!
# Specification of the hypervolume functions of the Python and R packages
-/

set_option autoImplicit false

namespace Moo

/-- An argument given as a list stands for one value per objective if its length is 1 (the value applies to every objective) or the number `d` of objectives. -/
def PerObjective {β : Type*} (d : ℕ) (arg : List β) (f : ℕ → β) : Prop :=
  (arg.length = 1 ∨ arg.length = d) ∧ ∀ k < d, arg[if arg.length = 1 then 0 else k]? = some (f k)

/-- With directions, and without using point `i`: the vectors that are at most as good as another of the `n` points and at least as good as the reference point. -/
def dominatedRegionWithoutMx (d n : ℕ) (mx : ℕ → Bool) (pts : ℕ → ℕ → ℝ) (ref : ℕ → ℝ) (i : ℕ) : Set (Fin d → ℝ) :=
  {y | (∃ r < n, r ≠ i ∧ ∀ k : Fin d, AtLeastAsGood (mx k) (pts r k) (y k)) ∧ ∀ k : Fin d, AtLeastAsGood (mx k) (y k) (ref k)}

/-- The volume that is dominated by point `i` and by no other point. -/
noncomputable def exclusiveVolume (d n : ℕ) (mx : ℕ → Bool) (pts : ℕ → ℕ → ℝ) (ref : ℕ → ℝ) (i : ℕ) : ℝ :=
  vol (dominatedRegionMx d n mx pts ref \ dominatedRegionWithoutMx d n mx pts ref i)

end Moo
