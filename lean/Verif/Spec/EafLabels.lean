import Mathlib.Algebra.Order.Field.Basic
import Mathlib.Data.Finset.Card
import Mathlib.Data.Finset.Dedup

/-!
# Specification: attainment by labelled sets of points

A data set is a table of points with one label per row; the rows with the same label, wherever they are, form one set.  Objective `d` is maximised if
`maximise d`, otherwise minimised.
-/

set_option autoImplicit false

namespace Moo

variable {K : Type*} [LinearOrder K] {L : Type*} [DecidableEq L]

/-- `a` is at least as good as `b` in an objective that is maximised or minimised. -/
def AsGood (maximise : Bool) (a b : K) : Prop := if maximise then b ≤ a else a ≤ b

/-- One of the points labelled `u` is at least as good as `z` in every objective. -/
def LabelAttains (maximise : ℕ → Bool) (data : ℕ → ℕ → K) (labels : List L) (dim : ℕ) (u : L) (z : ℕ → K) : Prop :=
  ∃ k, labels[k]? = some u ∧ ∀ d < dim, AsGood (maximise d) (data k d) (z d)

open Classical in
/-- The number of sets that attain `z`. -/
noncomputable def labelCount (maximise : ℕ → Bool) (data : ℕ → ℕ → K) (labels : List L) (dim : ℕ) (z : ℕ → K) : ℕ :=
  (labels.toFinset.filter (fun u => LabelAttains maximise data labels dim u z)).card

/-- `z` is attained by at least `k` sets, and no better vector is. -/
def BestForLabels (maximise : ℕ → Bool) (data : ℕ → ℕ → K) (labels : List L) (dim k : ℕ) (z : ℕ → K) : Prop :=
  k ≤ labelCount maximise data labels dim z ∧
  ∀ w, k ≤ labelCount maximise data labels dim w → (∀ d < dim, AsGood (maximise d) (w d) (z d)) → ∀ d < dim, w d = z d

/-- The number of sets of two data sets together that attain `z`. -/
noncomputable def pairCount (maximise : ℕ → Bool) (dx : ℕ → ℕ → K) (lx : List L) (dy : ℕ → ℕ → K) (ly : List L) (dim : ℕ) (z : ℕ → K) : ℕ :=
  labelCount maximise dx lx dim z + labelCount maximise dy ly dim z

/-- `z` is attained by at least `k` sets of the two data sets, and no better vector is. -/
def BestForPair (maximise : ℕ → Bool) (dx : ℕ → ℕ → K) (lx : List L) (dy : ℕ → ℕ → K) (ly : List L) (dim k : ℕ) (z : ℕ → K) : Prop :=
  k ≤ pairCount maximise dx lx dy ly dim z ∧
  ∀ w, k ≤ pairCount maximise dx lx dy ly dim w → (∀ d < dim, AsGood (maximise d) (w d) (z d)) → ∀ d < dim, w d = z d

/-- `intervals` times the difference of the fractions of the sets of either data set that attain `z`: the difference of the two empirical attainment functions. -/
noncomputable def eafDifference [Field K] (maximise : ℕ → Bool) (dx : ℕ → ℕ → K) (lx : List L) (dy : ℕ → ℕ → K) (ly : List L) (dim intervals : ℕ) (z : ℕ → K) : K :=
  (intervals : K) * ((labelCount maximise dx lx dim z : K) / (lx.toFinset.card : K) - (labelCount maximise dy ly dim z : K) / (ly.toFinset.card : K))

/-- The table of points and differences: the best points attained by `k` sets of the two data sets, for all `k`, each with the difference there; no row twice. -/
def IsDiffTable [Field K] (maximise : ℕ → Bool) (dx : ℕ → ℕ → K) (lx : List L) (dy : ℕ → ℕ → K) (ly : List L) (intervals : ℕ) (rows : List (List K)) : Prop :=
  rows.Nodup ∧ ∀ row, row ∈ rows ↔ ∃ (k : ℕ) (z : ℕ → K), 1 ≤ k ∧ k ≤ lx.toFinset.card + ly.toFinset.card ∧ BestForPair maximise dx lx dy ly 2 k z ∧
    row = [z 0, z 1, eafDifference maximise dx lx dy ly 2 intervals z]

/-- The row `[a, b, c, d, v]` of a table of rectangles contains `z`: the corner `(a, b)` is at least as good as `z` in both objectives, the corner `(c, d)` in none. -/
def InBox (maximise : ℕ → Bool) (row : List K) (z : ℕ → K) : Prop :=
  ∃ a b c d v, row = [a, b, c, d, v] ∧ AsGood (maximise 0) a (z 0) ∧ AsGood (maximise 1) b (z 1) ∧ ¬ AsGood (maximise 0) c (z 0) ∧ ¬ AsGood (maximise 1) d (z 1)

/-- The table of rectangles and differences: every row is a proper rectangle; every point attained by some but not all the sets of the two data sets, and closer than infinity (`mx`, or `-mx` for an
objective that is maximised), is in exactly one rectangle and the last entry of the row is the difference there; all other points are in none. -/
def IsRectTable [Field K] (maximise : ℕ → Bool) (mx : K) (dx : ℕ → ℕ → K) (lx : List L) (dy : ℕ → ℕ → K) (ly : List L) (intervals : ℕ) (rows : List (List K)) : Prop :=
  rows.Nodup ∧ (∀ row ∈ rows, ∃ a b c d v, row = [a, b, c, d, v] ∧ ¬ AsGood (maximise 0) c a ∧ ¬ AsGood (maximise 1) d b) ∧
  (∀ z : ℕ → K, (∀ d < 2, (if maximise d then -z d else z d) < mx) → 1 ≤ pairCount maximise dx lx dy ly 2 z →
    pairCount maximise dx lx dy ly 2 z < lx.toFinset.card + ly.toFinset.card → ∃! row, row ∈ rows ∧ InBox maximise row z) ∧
  (∀ z : ℕ → K, ∀ row ∈ rows, InBox maximise row z → (∀ d < 2, (if maximise d then -z d else z d) < mx) ∧ 1 ≤ pairCount maximise dx lx dy ly 2 z ∧
    pairCount maximise dx lx dy ly 2 z < lx.toFinset.card + ly.toFinset.card ∧ row[4]? = some (eafDifference maximise dx lx dy ly 2 intervals z))

/-- `k` is the number of sets that percentile `p` of `n` sets asks for: the least `k ≥ 1` that is at least `n p / 100`, up to the tolerance of the code. -/
def LeastLevel [Field K] (tol : K) (n : ℕ) (p : K) (k : ℕ) : Prop :=
  1 ≤ k ∧ k ≤ n ∧ p ≤ 100 * ((k : K) + tol) / (n : K) ∧ ∀ m : ℕ, 1 ≤ m → p ≤ 100 * ((m : K) + tol) / (n : K) → k ≤ m

/-- The table with the points of `blocks[i]` followed by the percentile `ps[i]`, in order. -/
def eafTable2 (blocks : List (List (K × K))) (ps : List K) : List (List K) :=
  ((blocks.zip ps).map (fun bp => bp.1.map (fun q => [q.1, q.2, bp.2]))).flatten

/-- The same for three objectives. -/
def eafTable3 (blocks : List (List (K × K × K))) (ps : List K) : List (List K) :=
  ((blocks.zip ps).map (fun bp => bp.1.map (fun q => [q.1, q.2.1, q.2.2, bp.2]))).flatten

end Moo
