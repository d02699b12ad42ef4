import Verif.Model.Cli
import Verif.Model.DominatedSets
import Verif.Model.Hv
import Verif.Spec.DsMain

/-!
# Model of the program `dominatedsets`: `main` and `print_results` (c/dominatedsets.c)

Exact arithmetic.  Not modelled: `getopt_long`, `--verbose`, `--quiet`, `--help`, `--version`, messages, failures of `fopen`, NaN and infinite values, overflow of `int`, the lines that begin with `#`,
the header rows, and the conversions `%d` and `%.1f` of the output.
-/

set_option autoImplicit false

namespace Moo

variable {K : Type*}

/-- What the program is given by its environment: `strtod`, the contents of fresh memory, and `qsort` in `find_dominated_point`. -/
structure DsEnv (K : Type*) where
  scan : NumScan K
  junk : ℕ → ℤ
  sortFn : (ℕ → ℕ → K) → ℕ → List ℕ
  garbage : ℕ → Bool

/-- `percentages_flag`, `check_flag`, `dim` and `minmax` of `main`. -/
structure DsSt where
  percentages : Bool
  check : Bool
  dim : ℕ
  minmax : Option (ℕ → ℤ)

/-- What the options lead to. -/
inductive DsRes
  | exit (status : ℕ)
  | ok (st : DsSt)

/-- The loop over the options, c/dominatedsets.c:335-377. -/
def dsOptions (junk : ℕ → ℤ) : DsSt → List DsArg → DsRes
  | st, [] => .ok st
  | st, .percentages :: args => dsOptions junk { st with percentages := true } args
  | st, .noCheck :: args => dsOptions junk { st with check := false } args
  | st, .obj str :: args =>
    match readMinmax junk str st.dim with
    | .null => .exit 1
    | .exit => .exit 0
    | .ok minmax dim => dsOptions junk { st with dim := dim, minmax := some minmax } args

/-- The loop that reads the files, c/dominatedsets.c:393-401: the points and `cumsizes` of every file (in order), and `dim`.  `none` is undefined behaviour, `some none` is the exit in
`handle_read_data_error`. -/
def dsRead [Zero K] (scan : NumScan K) : ℕ → List (List Char) → Option (Option (List ((ℕ → ℕ → K) × List ℕ) × ℕ))
  | dim, [] => some (some ([], dim))
  | dim, file :: files =>
    match readFile scan dim file with
    | none => none
    | some none => some none
    | some (some out) =>
      match dsRead scan out.nobjs files with
      | none => none
      | some none => some none
      | some (some (l, d)) => some (some ((blockTable (fun j => out.data.getD j 0) out.nobjs 0, out.cum) :: l, d))

section
variable [Field K] [LinearOrder K] [IsStrictOrderedRing K]

/-- The check of all files, c/dominatedsets.c:436-454: `check_failed`; `none` is a failed assertion. -/
def dsCheckAll (env : DsEnv K) (dim : ℕ) (minmax : ℕ → ℤ) : List ((ℕ → ℕ → K) × List ℕ) → Option Bool
  | [] => some false
  | f :: fs =>
    match dsCheckFailed env.sortFn env.garbage dim minmax f.1 f.2 0 with
    | none => none
    | some failed => (dsCheckAll env dim minmax fs).map (failed || ·)

/-- The iteration for `k` of the comparison loops, c/dominatedsets.c:471-475: the list holds the files after `k`, from number `j`.  `none` is the call of `abort`. -/
def dsCompareRow (dim : ℕ) (minmax : ℕ → ℤ) (f : (ℕ → ℕ → K) × List ℕ) (k : ℕ) : ℕ → List ((ℕ → ℕ → K) × List ℕ) → (ℕ → ℕ → ℤ) → Option (ℕ → ℕ → ℤ)
  | _, [], results => some results
  | j, g :: gs, results =>
    match cmpparetos dim minmax f.1 f.2 g.1 g.2 with
    | none => none
    | some r => dsCompareRow dim minmax f k (j + 1) gs (upd2 (upd2 results k j r.1) j k r.2)

/-- The comparison loops, c/dominatedsets.c:470-475, from file number `k`. -/
def dsCompare (dim : ℕ) (minmax : ℕ → ℤ) : ℕ → List ((ℕ → ℕ → K) × List ℕ) → (ℕ → ℕ → ℤ) → Option (ℕ → ℕ → ℤ)
  | _, [], results => some results
  | k, f :: fs, results =>
    match dsCompareRow dim minmax f k (k + 1) fs results with
    | none => none
    | some results => dsCompare dim minmax (k + 1) fs results

/-- `print_results`, c/dominatedsets.c:95-172. -/
def dsPrint (percentages : Bool) (numfiles : ℕ) (nruns : ℕ → ℕ) (results : ℕ → ℕ → ℤ) : List (DsLine K) :=
  ((List.range numfiles).map fun k => .counts ((List.range numfiles).map fun j => if k = j then none else some (results k j))) ++
  (if percentages then
    (List.range numfiles).map fun k => .percentages ((List.range numfiles).map fun j =>
      if k = j then none else some ((results k j : K) * 100 / ((nruns k * nruns j : ℕ) : K)))
  else []) ++
  [.ranks ((List.range numfiles).map fun k => dsRank numfiles results k)]

/-- `main`, c/dominatedsets.c:309-482, after `getopt_long`. -/
def dsMain (env : DsEnv K) (args : List DsArg) (files : List (List Char)) : ProgOut (DsLine K) :=
  match dsOptions env.junk ⟨false, true, 0, none⟩ args with
  | .exit status => .exit status []
  | .ok st =>
    if files.length ≤ 1 then .exit 1 []
    else
      match dsRead env.scan st.dim files with
      | none => .undefined
      | some none => .exit 1 []
      | some (some (data, dim)) =>
        let minmax := st.minmax.getD fun _ => AGREE_MINIMISE
        let compare : ProgOut (DsLine K) :=
          match dsCompare dim minmax 0 data (fun _ _ => -1) with
          | none => .undefined
          | some results => .exit 0 (dsPrint st.percentages files.length (fun k => (data.getD k (fun _ _ => 0, [])).2.length) results)
        if st.check then
          match dsCheckAll env dim minmax data with
          | none => .undefined
          | some true => .exit 1 []
          | some false => compare
        else compare

end

end Moo
