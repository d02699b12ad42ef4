import Verif.Spec.EafLabels
import Verif.Spec.Text

/-!
# Specification: data sets, groups and attainment surfaces in the R package

A data set is a list of rows of `nobj` objective values and a label each; the rows with the same label form one set.
-/

set_option autoImplicit false

namespace Moo

section
variable {K : Type*} [Zero K]

/-- The points of a list of rows. -/
def rowPoint (rows : List (List K)) (i d : ℕ) : K := (rows.getD i []).getD d 0

/-- The labels of a list of rows: column `nobj`, after the objectives. -/
def rowLabels (nobj : ℕ) (rows : List (List K)) : List K := rows.map (fun row => row.getD nobj 0)

end

section
variable {K : Type*} [LinearOrder K] {L : Type*} [DecidableEq L] {G : Type*} [DecidableEq G]

/-- One of the points of group `g` that are labelled `u` is at least as good as `z` in every objective. -/
def GroupAttains (maximise : ℕ → Bool) (data : ℕ → ℕ → K) (labels : List L) (groups : List G) (dim : ℕ) (g : G) (u : L) (z : ℕ → K) : Prop :=
  ∃ k : ℕ, groups[k]? = some g ∧ labels[k]? = some u ∧ ∀ d < dim, AsGood (maximise d) (data k d) (z d)

open Classical in
/-- The number of sets of group `g` that attain `z`. -/
noncomputable def groupCount (maximise : ℕ → Bool) (data : ℕ → ℕ → K) (labels : List L) (groups : List G) (dim : ℕ) (g : G) (z : ℕ → K) : ℕ :=
  (labels.toFinset.filter (fun u => GroupAttains maximise data labels groups dim g u z)).card

open Classical in
/-- The number of sets of group `g`. -/
noncomputable def groupSets (labels : List L) (groups : List G) (g : G) : ℕ :=
  (labels.toFinset.filter (fun u => ∃ k : ℕ, groups[k]? = some g ∧ labels[k]? = some u)).card

/-- `z` is attained by at least `k` sets of group `g`, and no better vector is. -/
def BestForGroup (maximise : ℕ → Bool) (data : ℕ → ℕ → K) (labels : List L) (groups : List G) (dim : ℕ) (g : G) (k : ℕ) (z : ℕ → K) : Prop :=
  k ≤ groupCount maximise data labels groups dim g z ∧
  ∀ w, k ≤ groupCount maximise data labels groups dim g w → (∀ d < dim, AsGood (maximise d) (w d) (z d)) → ∀ d < dim, w d = z d

/-- The percentiles of the surfaces: the given ones in increasing order and each once, or `100 k / n` for `k = 1, ..., n`. -/
def SurfacePercentiles [Field K] (given : Option (List K)) (n : ℕ) (ps : List K) : Prop :=
  match given with
  | some l => ps.Pairwise (fun a b => a < b) ∧ ∀ p, p ∈ ps ↔ p ∈ l
  | none => ps = (List.range n).map (fun i : ℕ => (100 : K) * ((i : K) + 1) / (n : K))

/-- `surfaces` has, for every percentile in increasing order, exactly the best points attained by as many of the `n` sets as the percentile asks for, each once.
`best k z`: `z` is attained by at least `k` sets, and no better vector is. -/
def IsSurfaces [Field K] (tol : K) (dim n : ℕ) (best : ℕ → (ℕ → K) → Prop) (given : Option (List K)) (surfaces : List (K × List (List K))) : Prop :=
  SurfacePercentiles given n (surfaces.map Prod.fst) ∧
  ∀ s ∈ surfaces, s.2 ≠ [] ∧ s.2.Nodup ∧ ∃ k, LeastLevel tol n s.1 k ∧ ∀ row, row ∈ s.2 ↔ ∃ z, best k z ∧ row = (List.range dim).map z

/-- The rows of the surfaces with the percentile as a further column. -/
def surfaceRows (surfaces : List (K × List (List K))) : List (List K) := (surfaces.map (fun s => s.2.map (fun row => row ++ [s.1]))).flatten

/-- The surface of a percentile in a list of surfaces; no points if there is none. -/
def surfaceAt (surfaces : List (K × List (List K))) (p : K) : List (List K) := ((surfaces.find? (fun s => decide (s.1 = p))).map Prod.snd).getD []

/-- The points with label `u`, in the order of the rows. -/
def pointsOf {V L : Type*} [DecidableEq L] (rows : List (List V × L)) (u : L) : List (List V) := (rows.filter (fun r => decide (r.2 = u))).map Prod.fst

end

end Moo
