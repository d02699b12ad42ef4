import Verif.Spec.Cli
import Verif.Spec.Hypervolume

/-!
# Specification of the program `hv`
-/

set_option autoImplicit false

namespace Moo

/-- The values of objective `k` in all points of all sets of all files. -/
def objectiveValues (files : List (List (List (List ℝ)))) (k : ℕ) : Set ℝ := {x | ∃ sets ∈ files, ∃ s ∈ sets, ∃ r ∈ s, r.getD k 0 = x}

/-- The reference point of `hv`: the argument of `-r`, or a point that is a tenth of the range worse than the worst value of each objective. -/
def IsHvReference (scan : NumScan ℝ) (arg : Option (List Char)) (n : ℕ) (files : List (List (List (List ℝ)))) (ref : ℕ → ℝ) : Prop :=
  match arg with
  | some str => ∃ vs, NumbersArg scan str vs ∧ vs.length = n ∧ ∀ k < n, ref k = vs.getD k 0
  | none => ∀ k < n, ∃ m M, IsLeast (objectiveValues files k) m ∧ IsGreatest (objectiveValues files k) M ∧ ref k = M + (M - m) / 10

/-- The hypervolume of a set of `n`-dimensional points. -/
noncomputable def setVolume (n : ℕ) (ref : ℕ → ℝ) (s : List (List ℝ)) : ℝ := vol (dominatedRegion n s.length (rowsTable s) ref)

/-- The volumes `hv` has to write, from the file numbered `k`: one of every set of every file, or (with `-u`) of the union of the sets of every file.  They go to the standard output (`none`) or
to a file of their own for every input file. -/
noncomputable def hvVolumes (union suffix : Bool) (n : ℕ) (ref : ℕ → ℝ) : ℕ → List (List (List (List ℝ))) → List (Option ℕ × ℝ)
  | _, [] => []
  | k, sets :: files =>
    ((if union then [sets.flatten] else sets).map fun s => (if suffix then some k else none, setVolume n ref s)) ++ hvVolumes union suffix n ref (k + 1) files

end Moo
