import Verif.Spec.Dominance

/-!
# Specification: nondominated sorting
-/

set_option autoImplicit false

namespace Moo

variable {α : Type*} [LinearOrder α]

/-- `Remaining r i`: row `i` is still there after the first `r` fronts have been removed.  Front `r+1` consists of
the remaining rows that no remaining row dominates, so the rows that stay are those dominated by a remaining row. -/
def Remaining (dim n : ℕ) (mx : ℕ → Bool) (pts : ℕ → ℕ → α) : ℕ → ℕ → Prop
  | 0, i => i < n
  | r + 1, i => Remaining dim n mx pts r i ∧
      ∃ j, Remaining dim n mx pts r j ∧ Dom dim mx (pts j) (pts i)

/-- Row `i` belongs to front `r` (counted from 1). -/
def InFront (dim n : ℕ) (mx : ℕ → Bool) (pts : ℕ → ℕ → α) (r i : ℕ) : Prop :=
  1 ≤ r ∧ Remaining dim n mx pts (r - 1) i ∧
    ∀ j, Remaining dim n mx pts (r - 1) j → ¬ Dom dim mx (pts j) (pts i)

end Moo
