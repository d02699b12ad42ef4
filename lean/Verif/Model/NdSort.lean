import Verif.Model.Cli
import Verif.Model.ParetoRank
import Verif.Model.Normalise
import Verif.Model.HvWrappers
import Verif.Spec.NdSort

/-!
# Model of the program `ndsort` (c/ndsort.c)

Exact arithmetic.  Not modelled: `getopt_long`, `--verbose`, `--quiet`, messages, failures of `fopen`, NaN and infinite values, and the conversions `%d` and `%g` of the output.
`calculate_uev` (see `calculateUev`) has no effect on the output; only its assertions are modelled.
-/

set_option autoImplicit false

namespace Moo

variable {K : Type*}

/-- What the program is given by its environment: `strtod`, the contents of fresh memory, `qsort` in `pareto_rank` and in `fpli_hv`, and sqrt(DBL_EPSILON). -/
structure NsEnv (K : Type*) where
  scan : NumScan K
  junk : ℕ → ℤ
  sortFn : (ℕ → ℕ → K) → ℕ → List ℕ
  garbage : ℕ → ℕ
  lib : HvLib K
  tol : K

/-- `only_rank_flag`, `dim` and `minmax` of `main`. -/
structure NsSt where
  onlyRank : Bool
  dim : ℕ
  minmax : Option (ℕ → ℤ)

/-- What the options lead to. -/
inductive NsRes
  | exit (status : ℕ)
  | ok (st : NsSt)

/-- The loop over the options, c/ndsort.c:152-197. -/
def nsOptions (junk : ℕ → ℤ) : NsSt → List NsArg → NsRes
  | st, [] => .ok st
  | st, .rank :: args => nsOptions junk { st with onlyRank := true } args
  | _, .keepUevs :: _ => .exit 1
  | st, .obj str :: args =>
    match readMinmax junk str st.dim with
    | .null => .exit 1
    | .exit => .exit 0
    | .ok minmax dim => nsOptions junk { st with dim := dim, minmax := some minmax } args

/-- `data`, `data_size`, `lbound` and `ubound`; `none` is INFINITY or -INFINITY. -/
structure NsFront (K : Type*) where
  data : ℕ → ℕ → K
  size : ℕ
  lbound : ℕ → Option K
  ubound : ℕ → Option K

section
variable [LinearOrder K]

/-- `if (lbound[d] > src[d]) lbound[d] = src[d]`, c/ndsort.c:267. -/
def nsLower (b : Option K) (v : K) : Option K :=
  match b with
  | none => some v
  | some l => if l > v then some v else some l

/-- `if (ubound[d] < src[d]) ubound[d] = src[d]`, c/ndsort.c:268. -/
def nsUpper (b : Option K) (v : K) : Option K :=
  match b with
  | none => some v
  | some u => if u < v then some v else some u

/-- The loop that collects the points of rank `i`, c/ndsort.c:261-270, for the values of `k` in the list. -/
def nsCollect (points : ℕ → ℕ → K) (dim : ℕ) (rank : ℕ → ℕ) (i : ℕ) : List ℕ → NsFront K → NsFront K
  | [], f => f
  | k :: ks, f =>
    if rank k ≠ i then nsCollect points dim rank i ks f
    else
      nsCollect points dim rank i ks
        ⟨upd f.data f.size (points k), f.size + 1, fun d => if d < dim then nsLower (f.lbound d) (points k d) else f.lbound d,
          fun d => if d < dim then nsUpper (f.ubound d) (points k d) else f.ubound d⟩

end

variable [Field K] [LinearOrder K]

/-- c/ndsort.c:281-284: `order[k] += (1 - hvc[j++])` for the points of rank `i`. -/
def nsAdd (rank : ℕ → ℕ) (i : ℕ) (hvc : ℕ → K) : List ℕ → ℕ → (ℕ → K) → ℕ → K
  | [], _, order => order
  | k :: ks, j, order => if rank k ≠ i then nsAdd rank i hvc ks j order else nsAdd rank i hvc ks (j + 1) (upd order k (order k + (1 - hvc j)))

/-- c/ndsort.c:233-292: the array `order`; `none` is a failed assertion in `calculate_uev` (c/ndsort.c:105-106) or the call of `fpli_hv` with one objective (c/hv.c:1138-1140).  `max_rank` is 1
(line 254), so the loop of line 255 has one iteration. -/
def nsOrder (env : NsEnv K) (points : ℕ → ℕ → K) (dim size : ℕ) (minmax : ℕ → ℤ) (rank : ℕ → ℕ) : Option (ℕ → K) :=
  let f := nsCollect points dim rank 1 (List.range size) ⟨fun _ _ => 0, 0, fun _ => none, fun _ => none⟩
  if (List.range dim).any (fun d => (f.lbound d).isNone || (f.ubound d).isNone) then none
  else
    let data := normalise f.data dim f.size minmax 0 0 (9 / 10) (fun d => (f.lbound d).getD 0) (fun d => (f.ubound d).getD 0)
    let ref : ℕ → K := fun _ => 1
    if f.size ≠ 0 ∧ dim < 2 then none
    else
      let hvc := hvContribution data dim f.size ref env.tol (env.lib data dim f.size) (fun i => env.lib (replaceRow data ref i) dim f.size)
      some (nsAdd rank 1 hvc (List.range size) 0 (fun k => (rank k : K)))

/-- `main` after the options, c/ndsort.c:210-300, for one input. -/
def nsFile (env : NsEnv K) (st : NsSt) (text : List Char) : ProgOut (NsLine K) :=
  match readFile env.scan st.dim text with
  | none => .undefined
  | some none => .exit 1 []
  | some (some out) =>
    let size := out.cum.getLastD 0
    let minmax := st.minmax.getD fun _ => AGREE_MINIMISE
    let points := blockTable (fun j => out.data.getD j 0) out.nobjs 0
    match paretoRank env.sortFn env.garbage (size + 1) points out.nobjs size with
    | .done rank =>
      if st.onlyRank then .exit 0 ((List.range size).map fun k => .rank (rank k))
      else
        match nsOrder env points out.nobjs size minmax rank with
        | none => .undefined
        | some order => .exit 0 ((List.range size).map fun k => .order (order k))
    | _ => .undefined

/-- `main`, c/ndsort.c:123-300, after `getopt_long`. -/
def nsMain (env : NsEnv K) (args : List NsArg) (stdin : List Char) (files : List (List Char)) : ProgOut (NsLine K) :=
  match nsOptions env.junk ⟨false, 0, none⟩ args with
  | .exit status => .exit status []
  | .ok st =>
    match files with
    | [] => nsFile env st stdin
    | [file] => nsFile env st file
    | _ => .exit 1 []

end Moo
