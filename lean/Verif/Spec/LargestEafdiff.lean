import Verif.Spec.EafLabels
import Verif.Spec.Hypervolume
import Verif.Spec.Eaf

/-!
# Specification of the most different pair of data sets
-/

set_option autoImplicit false

namespace Moo

/-- A data set: a table of points and one label per row. -/
structure Labelled (L K : Type*) where
  /-- the labels of the rows -/
  labels : List L
  /-- `pts k d` is objective `d` of row `k` -/
  pts : ℕ → ℕ → K

/-- The points between two corners. -/
def cornerBox (ideal ref : ℕ → ℝ) : Set (Fin 2 → ℝ) := {q | ∀ d : Fin 2, ideal d ≤ q d ∧ q d ≤ ref d}

/-- The points that are at least as good as the reference point. -/
def belowRef (ref : ℕ → ℝ) : Set (Fin 2 → ℝ) := {q | ∀ d : Fin 2, q d ≤ ref d}

/-- The area of the points of `region` where the attainment function of `x` exceeds that of `y` by at least one interval; both objectives are minimised. -/
noncomputable def betterArea {L : Type*} [DecidableEq L] (region : Set (Fin 2 → ℝ)) (intervals : ℕ) (x y : Labelled L ℝ) : ℝ :=
  vol {q | q ∈ region ∧ 1 ≤ eafDifference (fun _ => false) x.pts x.labels y.pts y.labels 2 intervals (vec2 (q 0) (q 1))}

/-- The smaller of the areas where one is better than the other. -/
noncomputable def pairDifference {L : Type*} [DecidableEq L] (region : Set (Fin 2 → ℝ)) (intervals : ℕ) (x y : Labelled L ℝ) : ℝ :=
  min (betterArea region intervals x y) (betterArea region intervals y x)

/-- The first pair of largest value among the pairs `a < b < n`; no pair if no value is positive. -/
def IsLargestPair (n : ℕ) (value : ℕ → ℕ → ℝ) (pair : Option (ℕ × ℕ)) (v : ℝ) : Prop :=
  (pair = none ∧ v = 0 ∧ ∀ a b, a < b → b < n → value a b ≤ 0) ∨
  ∃ a b, pair = some (a, b) ∧ a < b ∧ b < n ∧ v = value a b ∧ 0 < v ∧
    ∀ a' b', a' < b' → b' < n → value a' b' ≤ v ∧ (a' < a ∨ a' = a ∧ b' < b → value a' b' < v)

end Moo
