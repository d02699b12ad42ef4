import Verif.Model.Basic

/-!
# Every total preorder can be sorted: the contract `Qsort` can be met
-/

set_option autoImplicit false

namespace Moo

theorem exists_qsort {β : Type*} (cmp : β → β → ℤ) (htrans : ∀ a b c, cmp a b ≤ 0 → cmp b c ≤ 0 → cmp a c ≤ 0)
    (htot : ∀ a b, cmp a b ≤ 0 ∨ cmp b a ≤ 0) (l : List β) : ∃ out, Qsort cmp l out := by
  refine ⟨l.mergeSort (fun a b => decide (cmp a b ≤ 0)), List.mergeSort_perm _ _, ?_⟩
  have h := List.pairwise_mergeSort (le := fun a b => decide (cmp a b ≤ 0)) (by
    intro a b c h1 h2
    simp only [decide_eq_true_eq] at *
    exact htrans a b c h1 h2) (by
    intro a b
    simp only [Bool.or_eq_true, decide_eq_true_eq]
    exact htot a b) l
  exact h.imp (fun h => by simpa using h)

end Moo
