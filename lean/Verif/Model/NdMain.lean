import Verif.Model.Cli
import Verif.Model.Bounds
import Verif.Model.Normalise
import Verif.Spec.NdMain

/-!
# Model of the program `nondominated` (c/nondominated.c)

Not modelled: `getopt_long`, `--suffix`, `--verbose`, `--quiet` and the messages that are not written to the output files, failures of `fopen`, NaN and infinite values.  The type of the options,
`NdArg`, is that of the specification.
-/

set_option autoImplicit false

namespace Moo

variable {K : Type*}

/-- What the program is given by its environment: `strtod`, the contents of fresh memory, INFINITY and -DBL_MAX, `log10`, `qsort` (as in `findNondominatedSet_`), the conversion `%-22.15g`, and the lines of
`print_output_header`, c/nondominated.c:392-426, for the standard output (`none`) or the output file of the input file numbered `k` (all of them are comments). -/
structure NdEnv (K : Type*) where
  scan : NumScan K
  junk : ℕ → ℤ
  inf : K
  negInf : K
  lg : K → K
  sortFn : (ℕ → ℕ → K) → ℕ → List ℕ
  garbage : ℕ → Bool
  fmt : K → List Char
  hdr : Option ℕ → List (List Char)

/-- The global flags and the variables of `main`.  The arrays have the elements that were written: `minmax` has a length and `lower`, `upper` are lists. -/
structure NdSt (K : Type*) where
  check : Bool
  filter : Bool
  force : Bool
  union : Bool
  maximise : Bool
  minmax : Option (ℕ × (ℕ → ℤ))
  agree : ℤ
  range : Option (K × K)
  lower : Option (List K)
  upper : Option (List K)
  logarithm : Option (List Bool)
  dim : ℕ

/-- What the options lead to. -/
inductive NdRes (K : Type*)
  | undefined
  | exit (status : ℕ)
  | ok (st : NdSt K)

/-- `read_range`, c/nondominated.c:110-130; `none` is `false`. -/
def readRange (scan : NumScan K) (str : List Char) : Option (K × K) :=
  match scan (str.dropWhile isSpaceC) with
  | none => none
  | some (lower, str) =>
    match scan (str.dropWhile isSpaceC) with
    | none => none
    | some (upper, str) => if str.all isSpaceC then some (lower, upper) else none

variable [Field K] [LinearOrder K]

/-- The initial values, c/nondominated.c:59-69 and 596-607. -/
def ndInit : NdSt K := ⟨true, false, false, false, false, none, 0, none, none, none, none, 0⟩

/-- The loop over the options, c/nondominated.c:637-743.  `read_point` (see `readPoint`) leaves a 0 after the last number, from the conversion that failed. -/
def ndOptions (env : NdEnv K) : NdSt K → List NdArg → NdRes K
  | st, [] => .ok st
  | st, .noCheck :: args => ndOptions env { st with check := false } args
  | st, .filter :: args => ndOptions env { st with filter := true, check := true } args
  | st, .forceBounds :: args => ndOptions env { st with force := true } args
  | st, .union :: args => ndOptions env { st with union := true } args
  | st, .maximise :: args => ndOptions env { st with maximise := true } args
  | st, .obj str :: args =>
    match readMinmax env.junk str st.dim with
    | .null => .exit 1
    | .exit => .exit 0
    | .ok minmax dim => ndOptions env { st with minmax := some (max str.length st.dim, minmax), dim := dim } args
  | st, .agree str :: args =>
    if str = ['m', 'a', 'x'] then ndOptions env { st with agree := 1 } args
    else if str = ['m', 'i', 'n'] then ndOptions env { st with agree := -1 } args
    else .exit 1
  | st, .normalise str :: args =>
    match readRange env.scan str with
    | none => .exit 1
    | some (lower, upper) => if lower ≥ upper then .exit 1 else ndOptions env { st with range := some (lower, upper) } args
  | st, .upper str :: args =>
    match readPoint env.scan str with
    | none => .undefined
    | some none => .exit 1
    | some (some point) => ndOptions env { st with upper := some (point ++ [0]), dim := point.length } args
  | st, .lower str :: args =>
    match readPoint env.scan str with
    | none => .undefined
    | some none => .exit 1
    | some (some point) => ndOptions env { st with lower := some (point ++ [0]), dim := point.length } args
  | st, .log str :: args =>
    match readBitvector str with
    | none => .exit 1
    | some bits => ndOptions env { st with logarithm := some bits, dim := bits.length } args

/-- Some of the arrays has fewer than `dim` elements.  (Simplification: the program is undefined even if it would not read that array.) -/
def NdSt.short (st : NdSt K) (dim : ℕ) : Bool :=
  (st.minmax.any fun m => decide (m.1 < dim)) || (st.lower.any fun l => decide (l.length < dim)) || (st.upper.any fun u => decide (u.length < dim)) ||
    (st.logarithm.any fun l => decide (l.length < dim))

/-- How `check_nondominated` ends: a failed assertion, `fatal_error`, or the returned flag with the array `nondom`. -/
inductive NdCheck
  | assertFail
  | fatal
  | done (dominated : Bool) (nondom : ℕ → Bool)

/-- `check_nondominated`, c/nondominated.c:316-373, the loop over the sets from the set that starts at row `cumsize`. -/
def checkNondominated (env : NdEnv K) (points : ℕ → ℕ → K) (dim : ℕ) (minmax : ℕ → ℤ) (agree : ℤ) : ℕ → List ℕ → NdCheck
  | _, [] => .done false nondomInit
  | cumsize, c :: cs =>
    match findNondominatedSetAgree env.sortFn env.garbage (fun i => points (cumsize + i)) dim (c - cumsize) minmax agree nondomInit with
    | .assertFail => .assertFail
    | .done newSize nd =>
      if newSize > (c - cumsize : ℕ) then .fatal
      else
        match checkNondominated env points dim minmax agree c cs with
        | .assertFail => .assertFail
        | .fatal => .fatal
        | .done dominated nondom => .done (decide (newSize < (c - cumsize : ℕ)) || dominated) (fun j => if j < c then nd (j - cumsize) else nondom j)

/-- `force_bounds` as it is called in `process_file`, c/nondominated.c:499-501: the points and the cumulative sizes. -/
def ndForce (st : NdSt K) (dim : ℕ) (points : ℕ → ℕ → K) (cumsizes : List ℕ) (lbound ubound : ℕ → K) : Option ((ℕ → ℕ → K) × List ℕ) :=
  if st.force then
    (forceBounds (outbounds dim points lbound ubound) points (fun k => cumsizes.getD k 0) cumsizes.length).map fun r =>
      (r.2.1, (List.range cumsizes.length).map fun k => (r.2.2 k).toNat)
  else some (points, cumsizes)

/-- `logarithm[d]`; without the option no objective is transformed. -/
def NdSt.logs (st : NdSt K) (d : ℕ) : Bool := (st.logarithm.getD []).getD d false

/-- `logarithm_flag`, c/nondominated.c:513-518. -/
def NdSt.logFlag (st : NdSt K) (dim : ℕ) : Bool := (List.range dim).any st.logs

/-- The bounds and the points after c/nondominated.c:506-525, with `logarithm_scale`, c/nondominated.c:238-252. -/
def ndLogBound (env : NdEnv K) (st : NdSt K) (b : ℕ → K) : ℕ → K := fun d => if st.logs d then env.lg (b d) else b d
def ndLog (env : NdEnv K) (st : NdSt K) (dim size : ℕ) (points : ℕ → ℕ → K) : ℕ → ℕ → K :=
  fun k d => if k < size ∧ d < dim ∧ st.logs d = true then env.lg (points k d) else points k d

/-- The points after c/nondominated.c:506-532: `logarithm_scale`, `agree_objectives`, `normalise`. -/
def ndTransform (env : NdEnv K) (st : NdSt K) (dim size : ℕ) (minmax : ℕ → ℤ) (points : ℕ → ℕ → K) (lbound ubound : ℕ → K) : ℕ → ℕ → K :=
  let points := ndLog env st dim size points
  let points := if st.agree ≠ 0 then agreeObjectives points dim size minmax st.agree else points
  match st.range with
  | none => points
  | some (lrange, urange) => normalise points dim size minmax st.agree lrange urange (ndLogBound env st lbound) (ndLogBound env st ubound)

/-- How `process_file` ends: undefined behaviour, `exit (EXIT_FAILURE)`, or the returned flag, what was written, if anything, and `*dim_p`. -/
inductive NdFileOut
  | undefined
  | exit
  | done (dominated : Bool) (written : Option (List Char)) (dim : ℕ)

/-- `process_file` after the bounds were found, c/nondominated.c:499-594; `dest` is where the output goes. -/
def ndProcess (env : NdEnv K) (st : NdSt K) (dim : ℕ) (minmax : ℕ → ℤ) (points : ℕ → ℕ → K) (cumsizes : List ℕ) (lbound ubound : ℕ → K) (dest : Option ℕ) : NdFileOut :=
  match ndForce st dim points cumsizes lbound ubound with
  | none => .undefined
  | some (points, cumsizes) =>
    let points := ndTransform env st dim (cumsizes.getLastD 0) minmax points lbound ubound
    match (if st.check || st.filter then checkNondominated env points dim minmax st.agree 0 cumsizes else .done false nondomInit) with
    | .assertFail => .undefined
    | .fatal => .exit
    | .done dominated nondom =>
      let flat := fun j => points (j / dim) (j % dim)
      .done dominated
        (if st.filter || decide (st.agree ≠ 0) || st.range.isSome || st.force || st.logFlag dim then
          some (unlinesC (env.hdr dest) ++
            if st.filter && dominated then writeSetsFiltered env.fmt flat dim nondom cumsizes 0 else writeSets env.fmt flat dim cumsizes 0)
        else none) dim

/-- `process_file`, c/nondominated.c:451-594. -/
def ndFile (env : NdEnv K) (st : NdSt K) (lbound ubound : Option (ℕ → K)) (checkMinimum checkMaximum : Bool) (dim : ℕ) (dest : Option ℕ) (text : List Char) : NdFileOut :=
  match readFile env.scan dim text with
  | none => .undefined
  | some none => .exit
  | some (some out) =>
    if st.short out.nobjs then .undefined
    else
      let cumsizes := if st.union then [out.cum.getLastD 0] else out.cum
      let minmax : ℕ → ℤ := match st.minmax with | some m => m.2 | none => fun _ => if st.maximise then AGREE_MAXIMISE else AGREE_MINIMISE
      let points := blockTable (fun j => out.data.getD j 0) out.nobjs 0
      let mm := dataBounds env.inf env.negInf out.nobjs (cumsizes.getLastD 0) points none none
      if lbound.any fun l => checkMinimum && !st.force && anyLessThan mm.1 l out.nobjs then .exit
      else if ubound.any fun u => checkMaximum && !st.force && anyLessThan u mm.2 out.nobjs then .exit
      else ndProcess env st out.nobjs minmax points cumsizes (lbound.getD mm.1) (ubound.getD mm.2) dest

/-- The calls of `process_file` for the files in turn, c/nondominated.c:756-766 and 781-825; `dominated` is `dominated_found`, `k` is the number of the next file. -/
def ndFiles (env : NdEnv K) (st : NdSt K) (lbound ubound : Option (ℕ → K)) (checkMinimum checkMaximum : Bool) (dest : ℕ → Option ℕ) :
    Bool → ℕ → ℕ → List (List Char) → ProgOut (Option ℕ × List Char)
  | dominated, _, _, [] => .exit (if dominated then 1 else 0) []
  | dominated, dim, k, text :: texts =>
    match ndFile env st lbound ubound checkMinimum checkMaximum dim (dest k) text with
    | .undefined => .undefined
    | .exit => .exit 1 []
    | .done d written dim =>
      match ndFiles env st lbound ubound checkMinimum checkMaximum dest (d || dominated) dim (k + 1) texts with
      | .undefined => .undefined
      | .exit status w => .exit status ((written.toList.map fun t => (dest k, t)) ++ w)

/-- The bounds of all files, c/nondominated.c:774-777 with `file_bounds`, c/nondominated.c:219-236; `none` is undefined behaviour, `some none` is `exit`. -/
def ndFileBounds (env : NdEnv K) : Option (ℕ → K) → Option (ℕ → K) → ℕ → List (List Char) → Option (Option (Option (ℕ → K) × Option (ℕ → K) × ℕ))
  | minimum, maximum, dim, [] => some (some (minimum, maximum, dim))
  | minimum, maximum, dim, text :: texts =>
    match readFile env.scan dim text with
    | none => none
    | some none => some none
    | some (some out) =>
      let mm := dataBounds env.inf env.negInf out.nobjs (out.cum.getLastD 0) (blockTable (fun j => out.data.getD j 0) out.nobjs 0) minimum maximum
      ndFileBounds env (some mm.1) (some mm.2) out.nobjs texts

/-- An array of `main` as a function. -/
def arrayFn (l : List K) : ℕ → K := fun d => l.getD d 0

/-- `main` after the options were checked, c/nondominated.c:753-825; `lower` and `upper` are the bounds. -/
def ndRun (env : NdEnv K) (st : NdSt K) (lower upper : Option (ℕ → K)) (stdin : List Char) : List (List Char) → ProgOut (Option ℕ × List Char)
  | [] => ndFiles env st lower upper true true (fun _ => none) false st.dim 0 [stdin]
  | [file] => ndFiles env st lower upper true true some false st.dim 0 [file]
  | files =>
    if lower.isNone || upper.isNone then
      match ndFileBounds env none none st.dim files with
      | none => .undefined
      | some none => .exit 1 []
      | some (some (minimum, maximum, dim)) =>
        ndFiles env st (lower.or minimum) (upper.or maximum) lower.isSome upper.isSome some false dim 0 files
    else ndFiles env st lower upper lower.isSome upper.isSome some false st.dim 0 files

/-- `main`, c/nondominated.c:596-839, after `getopt_long`; the lines of the summary (c/nondominated.c:826-835) are not modelled. -/
def ndMain (env : NdEnv K) (args : List NdArg) (stdin : List Char) (files : List (List Char)) : ProgOut (Option ℕ × List Char) :=
  match ndOptions env ndInit args with
  | .undefined => .undefined
  | .exit status => .exit status []
  | .ok st =>
    let lower := st.lower.map arrayFn
    let upper := st.upper.map arrayFn
    if st.lower.isSome && st.upper.isSome && (st.lower.any (fun l => decide (l.length < st.dim)) || st.upper.any (fun u => decide (u.length < st.dim))) then .undefined
    else if lower.any fun l => upper.any fun u => anyLessThan u l st.dim then .exit 1 []
    else ndRun env st lower upper stdin files

end Moo
