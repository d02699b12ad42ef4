import Verif.Model.Cli
import Verif.Model.Eaf3d
import Verif.Model.Percentile
import Verif.Spec.EafMain

/-!
# Model of the program `eaf`: `main`, `read_doubles`, `read_ints`, `eaf_print`, `read_input_data` (c/eaf_main.c), `eaf_print_line`, `eaf_print_attsurf` (c/eaf.c), `attsurf` (c/eaf.h)

Exact arithmetic.  Not modelled: `getopt_long`, `--polygons`, `--help`, `--version`, messages (but the read of `cumsizes` for `--verbose` is), failures of `fopen`, empty files that `fopen` creates, different names of the same file, NaN,
overflow of `int`, and the conversions of numbers to characters.  A stream is identified with the name of its file: the program does not open a file twice.
-/

set_option autoImplicit false

namespace Moo

variable {K : Type*}

/-- What the program is given by its environment: `strtod`, `strtol`, `sqrt (DBL_EPSILON)`, memory, the three sorts, `-DBL_MAX`, `DBL_MAX` and an uninitialised value. -/
structure EafMainEnv (K : Type*) where
  scan : NumScan K
  scanInt : NumScan ℤ
  tol : K
  mem : EafEnv K
  sortX : (ℕ → ℕ → K) → ℕ → List ℕ
  sortY : (ℕ → ℕ → K) → ℕ → List ℕ
  sortZ : (ℕ → ℕ → K) → ℕ → List ℕ
  mn : K
  mx : K
  junk : K

/-- `MAX_LEVELS`, c/eaf_main.c:219. -/
def maxLevels : ℕ := 50

/-- The loop of `read_doubles` and `read_ints`, c/eaf_main.c:88-96, 121-129, with the checks after it: `vec` has `room` elements; `none` is a store after the last one, `some none` is the exit.
The fuel is larger than the number of characters. -/
def readNumsLoop {V : Type*} (scan : NumScan V) (room : ℕ) : ℕ → List V → List Char → Option (Option (List V))
  | 0, _, _ => none
  | fuel + 1, vec, cursor =>
    if ¬ vec.length < room then none
    else
      match scan (cursor.dropWhile isSpaceC) with
      | some (v, endp) => readNumsLoop scan room fuel (vec ++ [v]) endp
      | none =>
        if cursor.head? = some ',' ∨ cursor.head? = some ';' then readNumsLoop scan room fuel vec cursor.tail
        else if cursor.all isSpaceC ∧ vec ≠ [] then some (some vec) else some none

/-- `read_doubles`, `read_ints`, c/eaf_main.c:82-146. -/
def readNums {V : Type*} (scan : NumScan V) (room : ℕ) (str : List Char) : Option (Option (List V)) := readNumsLoop scan room (str.length + 1) [] str

/-- The variables of `main` that the options set; `NULL` is `none`. -/
structure EafMainSt (K : Type*) where
  verbose : Bool
  best : Bool
  median : Bool
  worst : Bool
  levels : List ℤ
  percentiles : List K
  coordName : Option (List Char)
  indFile : Option OutStream
  indName : Option (List Char)
  diffFile : Option OutStream
  diffName : Option (List Char)

/-- What the options lead to. -/
inductive EafOptRes (K : Type*)
  | exit (status : ℕ)
  | undefined
  | ok (st : EafMainSt K)

/-- The loop over the options, c/eaf_main.c:227-318. -/
def eafOptions (env : EafMainEnv K) : EafMainSt K → List EafArg → EafOptRes K
  | st, [] => .ok st
  | st, .best :: args => eafOptions env { st with best := true } args
  | st, .median :: args => eafOptions env { st with median := true } args
  | st, .worst :: args => eafOptions env { st with worst := true } args
  | st, .quiet :: args => eafOptions env { st with verbose := false } args
  | st, .verbose :: args => eafOptions env { st with verbose := true } args
  | st, .level str :: args =>
    if ¬ st.levels.length < maxLevels then .undefined
    else
      match readNums env.scanInt (maxLevels - st.levels.length) str with
      | none => .undefined
      | some none => .exit 1
      | some (some vs) => eafOptions env { st with levels := st.levels ++ vs } args
  | st, .percentile str :: args =>
    if ¬ st.percentiles.length < maxLevels then .undefined
    else
      match readNums env.scan (maxLevels - st.percentiles.length) str with
      | none => .undefined
      | some none => .exit 1
      | some (some vs) => eafOptions env { st with percentiles := st.percentiles ++ vs } args
  | st, .output name :: args => eafOptions env { st with coordName := if name = ['-'] then none else some name } args
  | st, .indices none :: args => eafOptions env { st with indFile := some .stdin, indName := none } args
  | st, .indices (some name) :: args =>
    eafOptions env (if name = ['-'] then { st with indFile := some .stdout, indName := none } else { st with indName := some name }) args
  | st, .diff none :: args => eafOptions env { st with diffFile := some .stdin, diffName := none } args
  | st, .diff (some name) :: args =>
    eafOptions env (if name = ['-'] then { st with diffFile := some .stdout, diffName := none } else { st with diffName := some name }) args

/-- The calls of `read_input_data`, c/eaf_main.c:166-185, 321-333: `data`, `nobj`, `cumsizes` grow from file to file.  `none` is undefined behaviour, `some none` is the exit. -/
def eafRead (scan : NumScan K) : ℕ → List ℕ → List K → List (List Char) → Option (Option (ℕ × List ℕ × List K))
  | nobj, cum, data, [] => some (some (nobj, cum, data))
  | nobj, cum, data, file :: files =>
    match readData scan (file.length + 3) nobj cum data file with
    | none => none
    | some out => if out.code = 0 ∨ out.code = -1 ∨ out.code = -2 then eafRead scan out.nobjs out.cum out.data files else some none

/-- `coord_file`, `indic_file` and `diff_file`, c/eaf_main.c:336-381. -/
def eafStreams (st : EafMainSt K) : OutStream × Option OutStream × Option OutStream :=
  let co : OutStream := match st.coordName with | some f => .file f | none => .stdout
  let indSame := st.indFile ≠ none ∧ st.indFile ≠ some .stdout ∧ st.indName = none
  let indFile := if indSame then some co else st.indFile
  let indName := if indSame then st.coordName else st.indName
  let ind := match indName with
    | some f => if st.coordName = none ∨ st.coordName ≠ some f then some (.file f) else indFile
    | none => indFile
  let difSame := st.diffFile ≠ none ∧ st.diffFile ≠ some .stdout ∧ st.diffName = none
  let difFile := if difSame then some co else st.diffFile
  let difName := if difSame then st.coordName else st.diffName
  let dif := match difName with
    | some f => if (st.coordName = none ∨ st.coordName ≠ some f) ∧ (indName = none ∨ indName ≠ some f) then some (.file f) else difFile
    | none => difFile
  (co, ind, dif)

section
variable [Field K] [LinearOrder K] [IsStrictOrderedRing K] [FloorRing K]

/-- The array `level`, c/eaf_main.c:383-424.  `none` is a failed assertion, `some none` is the exit. -/
def eafLevels (tol : K) (st : EafMainSt K) (nruns : ℕ) : Option (Option (List ℤ)) :=
  if st.best then some (some [1])
  else if st.median then (percentile2level tol 50 nruns).map fun l => some [l]
  else if st.worst then some (some [(nruns : ℤ)])
  else if st.percentiles ≠ [] then
    -- the exit comes before the assertions for later percentiles, but these hold for percentiles that are in range
    if st.percentiles.any fun p => p ≤ 0 ∨ p > 100 then some none else (st.percentiles.mapM fun p => percentile2level tol p nruns).map some
  else if st.levels ≠ [] then
    if st.levels.any fun l => l ≤ 0 ∨ l > nruns then some none else some (some st.levels)
  else some (some ((List.range nruns).map fun k : ℕ => (k : ℤ) + 1))

/-- `attsurf`, c/eaf.h:108-127: `none` is undefined behaviour, `some none` is the exit in `fatal_error`. -/
def attsurf (env : EafMainEnv K) (fuelP : ℕ) (pts : ℕ → ℕ → K) (nobj : ℕ) (cumsize : ℕ → ℕ) (nruns : ℕ) (level : List ℤ) : Option (Option (List (EafT K))) :=
  let n := cumsize (nruns - 1)
  if nobj = 2 then
    match eaf2d pts cumsize nruns level (env.sortX pts n) (env.sortY pts n) (2 * n + 1) with
    | none => none
    | some outs => (outs.mapM fun out => eafSurface2d env.mem nruns n out).map some
  else if nobj = 3 then
    match eaf3d env.mn env.mx env.junk pts cumsize nruns level (env.sortZ pts n) (n + 3) fuelP with
    | none => none
    | some outs => (outs.mapM fun out => eaf3dSurface env.mem nruns n out).map some
  else some none

end

/-- The bits `lo, ..., lo + cnt - 1` of a row. -/
def getBits (m : List (BitVec 64)) (b lo cnt : ℕ) : Option (List Bool) := (List.range cnt).mapM fun k => bitArrayGet m b (lo + k)

/-- `eaf_print_line`, c/eaf.c:168-198; `coord_file` is not `NULL`. -/
def eafPrintLine (co : OutStream) (ind dif : Option OutStream) (x : List K) (attained : List (BitVec 64)) (b nruns : ℕ) : Option (List (OutStream × EafTok K)) :=
  let coord : List (OutStream × EafTok K) := [(co, .point x), (co, if some co = ind ∨ some co = dif then .tab else .newline)]
  match ind with
  | some i =>
    match bitArrayGet attained b 0, getBits attained b 1 (nruns / 2 - 1), getBits attained b (nruns / 2) (nruns - nruns / 2) with
    | some b0, some l, some r =>
      some (coord ++ [(i, .indices ((b0 :: l) ++ r)), (i, if ind = dif then .tab else .newline)] ++
        (match dif with | some d => [(d, .counts ((b0 :: l).count true) (r.count true)), (d, .newline)] | none => []))
    | _, _, _ => none
  | none =>
    match dif with
    | some d => (attainedLeftRight attained b (nruns / 2) nruns).map fun c => coord ++ [(d, .counts c.1 c.2), (d, .newline)]
    | none => some coord

/-- `eaf_print_attsurf`, c/eaf.c:200-211. -/
def eafPrintAttsurf (e : EafT K) (nobj : ℕ) (co : OutStream) (ind dif : Option OutStream) : Option (List (OutStream × EafTok K)) :=
  ((List.range e.size).mapM fun i =>
    match (List.range nobj).mapM fun j => e.data[i * nobj + j]? with
    | none => none
    | some x => eafPrintLine co ind dif x e.bits (bitArrayOffset 0 i e.nruns) e.nruns).map List.flatten

/-- `eaf_print`, c/eaf_main.c:148-164. -/
def eafPrint (nobj : ℕ) (co : OutStream) (ind dif : Option OutStream) : List (EafT K) → Option (List (OutStream × EafTok K))
  | [] => some []
  | e :: es =>
    match eafPrintAttsurf e nobj co ind dif, eafPrint nobj co ind dif es with
    | some l, some ls => some (l ++ [(co, .newline)] ++ ls)
    | _, _ => none

/-- `main`, c/eaf_main.c:187-455, after `getopt_long`; `files` has the contents of the standard input if no file is given.  `fuelP` bounds loops of `eaf3d`. -/
def eafMain [Field K] [LinearOrder K] [IsStrictOrderedRing K] [FloorRing K] (env : EafMainEnv K) (fuelP : ℕ) (args : List EafArg) (files : List (List Char)) :
    ProgOut (OutStream × EafTok K) :=
  match eafOptions env ⟨true, false, false, false, [], [], none, none, none, none, none⟩ args with
  | .exit status => .exit status []
  | .undefined => .undefined
  | .ok st =>
    match eafRead env.scan 0 [] [] files with
    | none => .undefined
    | some none => .exit 1 []
    | some (some (nobj, cum, data)) =>
      let streams := eafStreams st
      match eafLevels env.tol st cum.length with
      | none => .undefined
      | some none => .exit 1 []
      | some (some level) =>
        -- `cumsizes[nruns - 1]`, c/eaf_main.c:429
        if st.verbose ∧ cum = [] then .undefined
        else
          match attsurf env fuelP (blockTable (fun j => data.getD j 0) nobj 0) nobj (fun r => cum.getD r 0) cum.length level with
          | none => .undefined
          | some none => .exit 1 []
          | some (some es) =>
            match eafPrint nobj streams.1 streams.2.1 streams.2.2 es with
            | none => .undefined
            | some written => .exit 0 written

end Moo
