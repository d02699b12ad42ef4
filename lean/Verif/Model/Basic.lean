import Mathlib.Logic.Function.Basic
import Mathlib.Data.Int.Notation
import Mathlib.Data.Nat.Notation

/-!
# Modelling conventions shared by all parts of the model
-/

set_option autoImplicit false

namespace Moo

/-- The contract of the C library function
`qsort(base, n, size, cmp)` for a consistent comparison `cmp`: the output is some
permutation of the input in which no element compares greater than a later one.
The order of elements that compare equal is unspecified, therefore this is a
relation and the theorems quantify over every output allowed by it. -/
def Qsort {β : Type*} (cmp : β → β → ℤ) (input output : List β) : Prop :=
  output.Perm input ∧ output.Pairwise (fun a b => cmp a b ≤ 0)

/-- A C array write `a[i] = v` on an array modelled as a function. -/
def upd {β : Type*} (a : ℕ → β) (i : ℕ) (v : β) : ℕ → β := fun j => if j = i then v else a j

@[simp] theorem upd_same {β : Type*} (a : ℕ → β) (i : ℕ) (v : β) : upd a i v i = v := by
  simp [upd]

@[simp] theorem upd_ne {β : Type*} (a : ℕ → β) {i j : ℕ} (v : β) (h : j ≠ i) :
    upd a i v j = a j := by
  simp [upd, h]

theorem upd_apply {β : Type*} (a : ℕ → β) (i : ℕ) (v : β) (j : ℕ) :
    upd a i v j = if j = i then v else a j := rfl

end Moo
