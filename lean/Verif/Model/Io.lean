import Verif.Model.Basic

/-!
# Model of the text input and output, c/io.c and c/io_priv.h

A stream is the list of the characters that remain to be read.  The return value `EOF` is -1.  The conversions of numbers, `%lf` and `%d` of `fscanf` and
`%-22.15g` of `fprintf`, are parameters.  Messages, and the line and column counters that only occur in messages, are not modelled; neither are failures of
`fopen`, of reads and of `realloc`, nor overflow of `int`.
-/

set_option autoImplicit false

namespace Moo

/-- The set `[ \t\r]` of the scan format, c/io.c:56. -/
def isWs (c : Char) : Bool := c = ' ' || c = '\t' || c = '\r'

/-- C `isspace`, which `%lf` and `%d` skip before a number. -/
def isSpaceC (c : Char) : Bool := c = ' ' || c = '\t' || c = '\n' || c = '\x0b' || c = '\x0c' || c = '\r'

/-- `skip_trailing_whitespace`, c/io.c:54-57. -/
def skipWs (s : List Char) : List Char := s.dropWhile isWs

/-- `fscanf_newline`, c/io.c:59-63. -/
def scanNewline : List Char → ℤ × List Char
  | [] => (-1, [])
  | c :: t => if c = '\n' then (1, t) else (0, c :: t)

/-- `skip_comment_line`, c/io.c:66-73.  At the end of the stream the first `fscanf` returns `EOF`, which is not zero. -/
def skipCommentLine : List Char → ℤ × List Char
  | [] => scanNewline []
  | c :: t => if c = '#' then scanNewline (t.dropWhile (fun c => c ≠ '\n')) else scanNewline (skipWs (c :: t))

section
variable {V : Type*}

/-- What a conversion of `fscanf` does after skipping white space: the value and the remaining characters, or `none` for a matching failure or
the end of the stream. -/
abbrev NumScan (V : Type*) := List Char → Option (V × List Char)

/-- `DATA_INC`, c/io_priv.h:11, for 8-byte numbers. -/
def dataInc : ℕ := 512

/-- The variables of `read_objective_t_data`: `nobjs`, `cumsizes[0..nsets-1]`, `cumsizes[nsets]`, the elements of `data` written so far (`ntotal` of them),
`datasize`, `sizessize`. -/
structure RdSt (V : Type*) where
  nobjs : ℕ
  cum : List ℕ
  cur : ℕ
  data : List V
  datasize : ℕ
  sizessize : ℕ

/-- What `read_objective_t_data` gives to the caller: the return value, `*nobjs_p`, `*cumsizes_p` with `*nsets_p` elements, `*data_p`. -/
structure RdOut (V : Type*) where
  code : ℤ
  nobjs : ℕ
  cum : List ℕ
  data : List V

/-- The end of `read_objective_t_data`, c/io_priv.h:159-170. -/
def RdSt.finish (st : RdSt V) (code : ℤ) : RdOut V := ⟨code, st.nobjs, st.cum, st.data⟩

/-- c/io_priv.h:104-109: the block grows when full, then the number is stored; `none` if the store is outside of the block. -/
def RdSt.push (st : RdSt V) (v : V) : Option (RdSt V) :=
  let datasize := if st.data.length = st.datasize then st.datasize + dataInc else st.datasize
  if st.data.length < datasize then some { st with data := st.data ++ [v], datasize := datasize } else none

/-- How a row ends: a conversion failed, or the row has this many columns and the stream continues. -/
inductive RowRes (V : Type*)
  | conv (st : RdSt V)
  | row (st : RdSt V) (column : ℕ) (rest : List Char)

/-- The loop over the columns of a row, c/io_priv.h:85-118. -/
def readRow (scan : NumScan V) : ℕ → ℕ → RdSt V → List Char → Option (RowRes V)
  | 0, _, _, _ => none
  | fuel + 1, column, st, s =>
    let column := column + 1
    match scan (s.dropWhile isSpaceC) with
    | none => some (.conv st)
    | some (v, s) =>
      match st.push v with
      | none => none
      | some st =>
        let r := scanNewline (skipWs s)
        if r.1 = 0 then readRow scan fuel column st r.2 else some (.row st column r.2)

/-- How a data set ends: an error, or the set is finished, the last call of `skip_comment_line` was not 0 and the stream continues. -/
inductive SetRes (V : Type*)
  | err (code : ℤ) (st : RdSt V)
  | fin (st : RdSt V) (rest : List Char)

/-- The loop over the rows of a data set, c/io_priv.h:81-142. -/
def readSet (scan : NumScan V) : ℕ → RdSt V → List Char → Option (SetRes V)
  | 0, _, _ => none
  | fuel + 1, st, s =>
    match readRow scan fuel 0 st s with
    | none => none
    | some (.conv st) => some (.err (-4) st)
    | some (.row st column s) =>
      if ¬ (st.nobjs = 0 ∨ column = st.nobjs) then
        -- `cumsizes[0]` is the counter of the current set when no set is finished
        if st.cum.headD st.cur = 0 then some (.err (-2) st) else some (.err (-5) st)
      else
        let st := { st with nobjs := if st.nobjs = 0 then column else st.nobjs, cur := st.cur + 1 }
        let r := skipCommentLine s
        if r.1 = 0 then readSet scan fuel st r.2 else some (.fin st r.2)

/-- `do retval = skip_comment_line (instream); while (retval == 1)`, c/io_priv.h:61-65 and 148-151. -/
def skipSeps : ℕ → List Char → Option (ℤ × List Char)
  | 0, _ => none
  | fuel + 1, s =>
    let r := skipCommentLine s
    if r.1 = 1 then skipSeps fuel r.2 else some r

/-- c/io_priv.h:74-79: the array `cumsizes` grows when full, then `cumsizes[nsets]` is initialised. -/
def RdSt.beginSet (st : RdSt V) : Option (RdSt V) :=
  let sizessize := if st.cum.length = st.sizessize then st.sizessize + dataInc else st.sizessize
  if st.cum.length < sizessize then some { st with sizessize := sizessize, cur := st.cum.getLastD 0 } else none

/-- The loop over the data sets, c/io_priv.h:72-153. -/
def readSets (scan : NumScan V) : ℕ → RdSt V → List Char → Option (RdOut V)
  | 0, _, _ => none
  | fuel + 1, st, s =>
    match st.beginSet with
    | none => none
    | some st =>
      match readSet scan fuel st s with
      | none => none
      | some (.err code st) => some (st.finish code)
      | some (.fin st s) =>
        let st := { st with cum := st.cum ++ [st.cur] }
        match skipSeps fuel s with
        | none => none
        | some (retval, s) => if retval ≠ -1 then readSets scan fuel st s else some (st.finish 0)

/-- `read_objective_t_data`, c/io_priv.h:19-170, on a stream with the characters `s`, for a caller that has already read data `data` with `nobjs` columns in sets with
cumulative sizes `cum` (all empty and 0 at first).  The result is `none` if some store is outside of a block (or the fuel, which
bounds each of the loops, is too small). -/
def readData (scan : NumScan V) (fuel : ℕ) (nobjs : ℕ) (cum : List ℕ) (data : List V) (s : List Char) : Option (RdOut V) :=
  -- c/io_priv.h:41-51
  let st : RdSt V :=
    if cum.length = 0 then ⟨nobjs, cum, 0, [], 0, 0⟩
    else ⟨nobjs, cum, 0, data, ((nobjs * cum.getLastD 0 - 1) / dataInc + 1) * dataInc, ((cum.length - 1) / dataInc + 1) * dataInc⟩
  match skipSeps fuel s with
  | none => none
  | some (retval, s) => if retval = -1 then some (st.finish (-1)) else readSets scan fuel st s

/-- The loop of `read_datasets`, c/io.c:107-117, from row `i` and set number `set` on, with `k = nrows - i` iterations to go.  Reads outside of
`data` or `cumsizes` give `none`; `newdata` is allocated with exactly `ncols * nrows` elements, written row by row. -/
def numberSets (ofNat : ℕ → V) (nobjs : ℕ) (cum : List ℕ) (data : List V) : ℕ → ℕ → ℕ → Option (List (List V))
  | 0, _, _ => some []
  | k + 1, i, set =>
    match (List.range nobjs).mapM (fun j => data[i * nobjs + j]?), cum[set - 1]? with
    | some row, some c =>
      match numberSets ofNat nobjs cum data k (i + 1) (if i + 1 = c then set + 1 else set) with
      | some rows => some ((row ++ [ofNat set]) :: rows)
      | none => none
    | _, _ => none

/-- `read_datasets`, c/io.c:93-125: the error code, or the rows of the matrix with `ncols` columns.  `cumsizes[nsets - 1]` must exist. -/
def readDatasets (scan : NumScan V) (ofNat : ℕ → V) (fuel : ℕ) (s : List Char) : Option (Except ℤ (ℕ × List (List V))) :=
  match readData scan fuel 0 [] [] s with
  | none => none
  | some out =>
    if out.code ≠ 0 then some (.error out.code)
    else
      match out.cum.getLast? with
      | none => none
      | some nrows =>
        match numberSets ofNat out.nobjs out.cum out.data nrows 0 1 with
        | none => none
        | some rows => some (.ok (out.nobjs + 1, rows))

/-- The loop of `R_read_datasets`, r/src/Rmoocore.c:276-281, that writes the column of set numbers: row `k`, set index `j`, `m` iterations to go.
Here the index is increased before the row is numbered.  `cumsizes[j]` must exist. -/
def numberSetsR (cum : List ℕ) : ℕ → ℕ → ℕ → Option (List ℕ)
  | 0, _, _ => some []
  | m + 1, k, j =>
    match cum[j]? with
    | none => none
    | some c =>
      let j := if k = c then j + 1 else j
      match numberSetsR cum m (k + 1) j with
      | none => none
      | some l => some ((j + 1) :: l)

/-- `R_read_datasets`, r/src/Rmoocore.c:260-286: the data (row major, before the transposition of Verif/Model/Matrix.lean) and the column of set numbers.  The return value of
`read_objective_t_data` is ignored.  With `R_PACKAGE`, `errprintf` is `Rf_error`, which does not return: this is the
result `.error`; the code -1 comes without a call of `errprintf`. -/
def readDatasetsR (scan : NumScan V) (fuel : ℕ) (s : List Char) : Option (Except ℤ (ℕ × List V × List ℕ)) :=
  match readData scan fuel 0 [] [] s with
  | none => none
  | some out =>
    if out.code ≠ 0 ∧ out.code ≠ -1 then some (.error out.code)
    else
      match out.cum.getLast? with
      | none => none
      | some ntotal =>
        match numberSetsR out.cum ntotal 0 0 with
        | none => none
        | some l => some (.ok (out.nobjs, out.data, l))

/-! ## Output -/

/-- `vector_fprintf`, c/io.c:128-135; `fmt` is the conversion `%-22.15g`. -/
def vectorFprintf (fmt : V → List Char) : List V → List Char
  | [] => []
  | v :: vs => fmt v ++ (vs.map (fun v => ' ' :: fmt v)).flatten

/-- The loop over the rows of one set in `write_sets`, c/io.c:165-168, from row `size` with `m` iterations to go.  Row `i` is `data[ncols * i ..]`. -/
def writeRows (fmt : V → List Char) (data : ℕ → V) (ncols : ℕ) : ℕ → ℕ → List Char
  | 0, _ => []
  | m + 1, size =>
    vectorFprintf fmt ((List.range ncols).map (fun j => data (ncols * size + j))) ++ ['\n'] ++ writeRows fmt data ncols m (size + 1)

/-- `write_sets`, c/io.c:157-172: the characters written, for the sets with cumulative sizes `cum`, from row `size`. -/
def writeSets (fmt : V → List Char) (data : ℕ → V) (ncols : ℕ) : List ℕ → ℕ → List Char
  | [], _ => []
  | c :: cs, size => writeRows fmt data ncols (c - size) size ++ ['\n'] ++ writeSets fmt data ncols cs (max size c)

/-- The loop over the rows of one set in `write_sets_filtered`, c/io.c:182-187. -/
def writeRowsFiltered (fmt : V → List Char) (data : ℕ → V) (ncols : ℕ) (writeP : ℕ → Bool) : ℕ → ℕ → List Char
  | 0, _ => []
  | m + 1, size =>
    (if writeP size then vectorFprintf fmt ((List.range ncols).map (fun j => data (ncols * size + j))) ++ ['\n'] else []) ++
      writeRowsFiltered fmt data ncols writeP m (size + 1)

/-- `write_sets_filtered`, c/io.c:174-191. -/
def writeSetsFiltered (fmt : V → List Char) (data : ℕ → V) (ncols : ℕ) (writeP : ℕ → Bool) : List ℕ → ℕ → List Char
  | [], _ => []
  | c :: cs, size => writeRowsFiltered fmt data ncols writeP (c - size) size ++ ['\n'] ++ writeSetsFiltered fmt data ncols writeP cs (max size c)

end

/-! ## Options -/

/-- The outcome of `read_minmax`: `NULL`, `exit`, or the array and the new value of `*nobj_p`. -/
inductive MinmaxRes
  | null
  | exit
  | ok (minmax : ℕ → ℤ) (nobj : ℕ)

/-- The switch of `read_minmax`, c/io.h:79-95. -/
def minmaxChar (c : Char) : Option ℤ :=
  if c = '+' then some 1 else if c = '-' then some (-1) else if c = '0' ∨ c = 'i' then some 0 else none

/-- The first loop of `read_minmax`, c/io.h:78-96, from index `i`. -/
def minmaxLoop : List Char → ℕ → Bool → (ℕ → ℤ) → Option (Bool × (ℕ → ℤ))
  | [], _, ai, a => some (ai, a)
  | c :: cs, i, ai, a =>
    match minmaxChar c with
    | none => none
    | some v => minmaxLoop cs (i + 1) (if v = 0 then ai else false) (upd a i v)

/-- The second loop of `read_minmax`, c/io.h:104-108, from `i` with `m` iterations to go. -/
def minmaxCycle (len : ℕ) : ℕ → ℕ → (ℕ → ℤ) → ℕ → ℤ
  | 0, _, a => a
  | m + 1, i, a => minmaxCycle len m (i + 1) (upd a (len + i) (a i))

/-- `read_minmax`, c/io.h:70-111; `junk` is the contents of the fresh array. -/
def readMinmax (junk : ℕ → ℤ) (str : List Char) (nobj : ℕ) : MinmaxRes :=
  match minmaxLoop str 0 true junk with
  | none => .null
  | some (allIgnored, a) =>
    if allIgnored then .exit
    else .ok (if str.length < nobj then minmaxCycle str.length (nobj - str.length) 0 a else a) str.length

/-- `read_bitvector`, c/io.h:113-144, for a string; `none` is `NULL`. -/
def readBitvector : List Char → Option (List Bool)
  | [] => some []
  | c :: cs =>
    if c = '1' then (readBitvector cs).map (true :: ·)
    else if c = '0' then (readBitvector cs).map (false :: ·)
    else none

end Moo
