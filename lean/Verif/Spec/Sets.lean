import Verif.Spec.Dominance
import Mathlib.Algebra.Order.Field.Basic

/-!
# Specification: comparing sets of points
-/

set_option autoImplicit false

namespace Moo

/-- The set of the first `nA` rows of `A` weakly dominates the set of the first `nB` rows of `B`: every row of `B` is weakly
dominated by some row of `A`. -/
def SetWeakDom {α : Type*} [LinearOrder α] (dim : ℕ) (mx : ℕ → Bool) (A : ℕ → ℕ → α) (nA : ℕ)
    (B : ℕ → ℕ → α) (nB : ℕ) : Prop :=
  ∀ b < nB, ∃ a < nA, WeakDom dim mx (A a) (B b)

/-- The same for directions in which objectives may be ignored. -/
def SetWeakDomDir {α : Type*} [LinearOrder α] (dim : ℕ) (dir : ℕ → ℤ) (A : ℕ → ℕ → α) (nA : ℕ)
    (B : ℕ → ℕ → α) (nB : ℕ) : Prop :=
  ∀ b < nB, ∃ a < nA, WeakDomDir dim dir (A a) (B b)

/-- Every objective of `p` improved by `e`: minimised objectives decrease, maximised ones increase. -/
def improveAdd {K : Type*} [Field K] (mx : ℕ → Bool) (e : K) (p : ℕ → K) : ℕ → K :=
  fun d => if mx d then p d + e else p d - e

/-- Every objective of `p` improved by the factor `e`: minimised objectives are divided, maximised ones multiplied. -/
def improveMult {K : Type*} [Field K] (mx : ℕ → Bool) (e : K) (p : ℕ → K) : ℕ → K :=
  fun d => if mx d then p d * e else p d / e

end Moo
