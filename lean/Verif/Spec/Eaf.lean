import Verif.Spec.Dominance
import Mathlib.Data.Finset.Card

/-!
# Specification: attainment by runs

The rows of the data are grouped into runs; `cumsize r` is the number of rows of the runs `0, ..., r`.
-/

set_option autoImplicit false

namespace Moo

/-- Row `k` belongs to run `r`. -/
def InRun (cumsize : ℕ → ℕ) (r k : ℕ) : Prop := (∀ s < r, cumsize s ≤ k) ∧ k < cumsize r

/-- Every run but the first has at least one row, and there is at least one row. -/
def RunsOk (cumsize : ℕ → ℕ) (nruns : ℕ) : Prop :=
  0 < nruns ∧ (∀ r, r + 1 < nruns → cumsize r < cumsize (r + 1)) ∧ 0 < cumsize (nruns - 1)

variable {α : Type*} [LinearOrder α]

/-- Run `r` attains the vector `z`: one of its points is at least as good as `z` in every objective (minimisation). -/
def Attains (pts : ℕ → ℕ → α) (cumsize : ℕ → ℕ) (dim r : ℕ) (z : ℕ → α) : Prop :=
  ∃ k, InRun cumsize r k ∧ ∀ d < dim, pts k d ≤ z d

open Classical in
/-- The number of runs that attain `z`. -/
noncomputable def attainCount (pts : ℕ → ℕ → α) (cumsize : ℕ → ℕ) (nruns dim : ℕ) (z : ℕ → α) : ℕ :=
  ((Finset.range nruns).filter (fun r => Attains pts cumsize dim r z)).card

/-- The vector `(x, y)`. -/
def vec2 (x y : α) : ℕ → α := fun d => if d = 0 then x else y

/-- The vector `(x, y, z)`. -/
def vec3 (x y z : α) : ℕ → α := fun d => if d = 0 then x else if d = 1 then y else z

/-- `z` is a minimal element of the set of the vectors attained by at least `k` runs. -/
def MinimalAttained (pts : ℕ → ℕ → α) (cumsize : ℕ → ℕ) (nruns dim k : ℕ) (z : ℕ → α) : Prop :=
  k ≤ attainCount pts cumsize nruns dim z ∧
  ∀ w, k ≤ attainCount pts cumsize nruns dim w → (∀ d < dim, w d ≤ z d) → ∀ d < dim, w d = z d

end Moo
