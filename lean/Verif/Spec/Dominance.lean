import Mathlib.Order.Lattice
import Mathlib.Order.Defs.LinearOrder
import Mathlib.Algebra.Order.Group.Defs

/-!
# Specification: Pareto dominance

Written independently of the code.  A data set is a table `pts : ℕ → ℕ → α`
(`pts i d` is objective `d` of row `i`) together with its number of rows `n` and its
number of objectives `dim`.  `mx d = true` means that objective `d` is maximised.
-/

set_option autoImplicit false

namespace Moo

variable {α : Type*} [LinearOrder α]

/-- `a` is at least as good as `b` in an objective (maximised iff `mx`). -/
def AtLeastAsGood (mx : Bool) (a b : α) : Prop := if mx then b ≤ a else a ≤ b

/-- `a` is strictly better than `b` in an objective (maximised iff `mx`). -/
def StrictlyBetter (mx : Bool) (a b : α) : Prop := if mx then b < a else a < b

/-- `p` weakly dominates `q`: at least as good in every objective. -/
def WeakDom (dim : ℕ) (mx : ℕ → Bool) (p q : ℕ → α) : Prop :=
  ∀ d < dim, AtLeastAsGood (mx d) (p d) (q d)

/-- `p` dominates `q`: at least as good in every objective and strictly better in one. -/
def Dom (dim : ℕ) (mx : ℕ → Bool) (p q : ℕ → α) : Prop :=
  WeakDom dim mx p q ∧ ∃ d < dim, StrictlyBetter (mx d) (p d) (q d)

/-- `p` and `q` are the same objective vector. -/
def SameVec (dim : ℕ) (p q : ℕ → α) : Prop := ∀ d < dim, p d = q d

/-- Row `i` is nondominated in the data set: no row dominates it. -/
def Nondominated (dim n : ℕ) (mx : ℕ → Bool) (pts : ℕ → ℕ → α) (i : ℕ) : Prop :=
  ∀ j < n, ¬ Dom dim mx (pts j) (pts i)

instance (mx : Bool) (a b : α) : Decidable (AtLeastAsGood mx a b) := by
  unfold AtLeastAsGood; infer_instance
instance (mx : Bool) (a b : α) : Decidable (StrictlyBetter mx a b) := by
  unfold StrictlyBetter; infer_instance
instance (dim : ℕ) (mx : ℕ → Bool) (p q : ℕ → α) : Decidable (WeakDom dim mx p q) := by
  unfold WeakDom; infer_instance
instance (dim : ℕ) (mx : ℕ → Bool) (p q : ℕ → α) : Decidable (Dom dim mx p q) := by
  unfold Dom; infer_instance
instance (dim : ℕ) (p q : ℕ → α) : Decidable (SameVec dim p q) := by
  unfold SameVec; infer_instance
instance (dim n : ℕ) (mx : ℕ → Bool) (pts : ℕ → ℕ → α) (i : ℕ) :
    Decidable (Nondominated dim n mx pts i) := by
  unfold Nondominated; infer_instance

end Moo

namespace Moo

/-! ## Directions given as in the command line tools: `< 0` minimise, `> 0` maximise, `0` ignore -/

section
variable {α : Type*} [LinearOrder α]

/-- Weak dominance for directions in which an objective may also be ignored. -/
def WeakDomDir (dim : ℕ) (dir : ℕ → ℤ) (p q : ℕ → α) : Prop :=
  ∀ d < dim, (dir d < 0 → p d ≤ q d) ∧ (0 < dir d → q d ≤ p d)

/-- Dominance for directions in which an objective may also be ignored: weakly better and strictly better
in one objective that is not ignored. -/
def DomDir (dim : ℕ) (dir : ℕ → ℤ) (p q : ℕ → α) : Prop :=
  WeakDomDir dim dir p q ∧ ∃ d < dim, (dir d < 0 ∧ p d < q d) ∨ (0 < dir d ∧ q d < p d)

end

end Moo
