import Verif.Spec.Rank
import Verif.Spec.HvWrappers
import Mathlib.Order.Bounds.Basic
import Mathlib.Algebra.Field.Basic

/-!
# Specification of the dominance filters, ranks and normalisation of the Python and R packages
-/

set_option autoImplicit false

namespace Moo

/-- A vector as used in R: it is repeated, or cut, to one value per objective. -/
def RecycledTo {β : Type*} (n : ℕ) (arg : List β) (f : ℕ → β) : Prop := ∀ k < n, arg[k % arg.length]? = some (f k)

/-- `mask` says which of the `n` rows are kept: all nondominated ones if `keep`, else exactly one for each nondominated vector. -/
def IsFilterMask {α : Type*} [LinearOrder α] (keep : Bool) (dim n : ℕ) (mx : ℕ → Bool) (pts : ℕ → ℕ → α) (mask : List Bool) : Prop :=
  mask.length = n ∧
  (∀ i < n, mask[i]? = some true → Nondominated dim n mx pts i) ∧
  (∀ i < n, Nondominated dim n mx pts i →
    if keep then mask[i]? = some true
    else ∃ j, (j < n ∧ mask[j]? = some true ∧ SameVec dim (pts j) (pts i)) ∧ ∀ j', j' < n ∧ mask[j']? = some true ∧ SameVec dim (pts j') (pts i) → j' = j)

/-- The rows kept by a mask, in order. -/
def keptRows {α : Type*} (n : ℕ) (pts : ℕ → ℕ → α) (mask : List Bool) : List (ℕ → α) :=
  ((List.range n).filter (fun i => mask[i]? = some true)).map pts

/-- The bound of an objective: the one given, or the extreme value of the column if none (`NaN` or `NA`) is given. -/
def IsBound {α : Type*} [LinearOrder α] (given : Option α) (column : Set α) (extreme : Set α → α → Prop) (b : α) : Prop :=
  match given with
  | some v => b = v
  | none => extreme column b

/-- The normalised value of `x`: the interval from `L` to `U` is mapped linearly to the interval from `lo` to `hi`, backwards for a maximised objective.  An interval of length zero is
treated as one of length 1. -/
def normValue {K : Type*} [Field K] [LinearOrder K] (mx : Bool) (lo hi L U x : K) : K :=
  lo + (hi - lo) * ((if mx then U - x else x - L) / (if U = L then 1 else U - L))

end Moo
