import Verif.Model.EafLabels
import Verif.Model.DomWrappers
import Verif.Model.HvWrappers
import Verif.Model.Vorob

/-!
# Model of the functions on Vorob'ev expectations of the Python and R packages

`vorobT` and `vorobDev` of `_moocore.py` and of `vorob.R`, with the calls of `eaf` and `hypervolume`.  The table has the rows `data 0, ...`, one for each label.
-/

set_option autoImplicit false

namespace Moo

/-- How a call may end. -/
inductive VorobOut (β : Type*) where
  /-- a normal return -/
  | value (v : β)
  /-- an exception in Python, an error in R -/
  | error
  /-- undefined behaviour of the C code; a computation with `NA` in R -/
  | undefined
  /-- the loop has not ended after the given number of iterations -/
  | running

/-- What the C library does in the calls of `eaf`, and what R's `order` does. -/
structure EafLib (K L : Type*) where
  /-- the growth of the blocks -/
  V : EafEnv K
  /-- the tolerance of the levels, c/eaf.h:157 -/
  tol : K
  /-- the sentinels of c/eaf3d.c -/
  mn : K
  mx : K
  /-- memory that has not been set -/
  junk : K
  /-- the calls of `qsort` -/
  sortX : (ℕ → ℕ → K) → ℕ → List ℕ
  sortY : (ℕ → ℕ → K) → ℕ → List ℕ
  sortZ : (ℕ → ℕ → K) → ℕ → List ℕ
  /-- R's `order(sets)`, r/R/eaf.R:123 -/
  order : List L → List ℕ
  /-- a bound of the numbers of iterations in c/eaf3d.c -/
  fuel : ℕ

instance instInhabitedCallOut {β : Type*} : Inhabited (CallOut β) := ⟨.error⟩

section
variable {K : Type*} [Field K] [LinearOrder K] [IsStrictOrderedRing K] [FloorRing K] [Inhabited K] {L : Type*} [LinearOrder L]

/-- The results of several calls, or the first that is no value. -/
def seqCalls {β : Type*} : List (CallOut β) → CallOut (List β)
  | [] => .value []
  | .error :: _ => .error
  | .undefined :: _ => .undefined
  | .value v :: l => match seqCalls l with
    | .value vs => .value (v :: vs)
    | .error => .error
    | .undefined => .undefined

/-- A list of rows as a table. -/
def tableOfList (rows : List (ℕ → K)) : ℕ → ℕ → K := fun i => rows.getD i (fun _ => 0)

/-- The loop of `vorobT`, python/src/moocore/_moocore.py:1304-1313 and r/R/vorob.R:61-68.  `prev = none` is infinity. -/
def vorobSearch (quantile : K → CallOut (List (ℕ → K))) (hv : List (ℕ → K) → CallOut K) (avg : K) : ℕ → K → K → Option K → VorobOut (K × List (ℕ → K))
  | 0, _, _, _ => .running
  | f + 1, a, b, prev =>
    let c := (a + b) / 2
    match quantile c with
    | .error => .error
    | .undefined => .undefined
    | .value VE =>
      match hv VE with
      | .error => .error
      | .undefined => .undefined
      | .value tmp =>
        if prev = some tmp then .value (c, VE)
        else vorobSearch quantile hv avg f (if tmp > avg then c else a) (if tmp > avg then b else c) (some tmp)

/-- `eaf(data, percentiles=c)[:, :nobj]`, python/src/moocore/_moocore.py:1306 with 1211-1249. -/
def pyEafAt (el : EafLib K L) (nobj : ℕ) (data : ℕ → ℕ → K) (labels : List L) (c : K) : CallOut (List (ℕ → K)) :=
  let table (o : Option (List (List K))) : CallOut (List (ℕ → K)) :=
    match o with
    | none => .undefined
    | some rows => .value (rows.map (fun row d => row.getD d 0))
  if nobj = 2 then table (pyEaf2d el.V el.tol data labels [c] (el.sortX data labels.length) (el.sortY data labels.length) (2 * labels.length + 1))
  else if nobj = 3 then table (pyEaf3d el.V el.tol el.mn el.mx el.junk data labels [c] (el.sortZ data labels.length) (labels.length + 3) el.fuel)
  else .error                                                                  -- NotImplementedError, l. 1217-1220

/-- Python `vorobT`, python/src/moocore/_moocore.py:1252-1315: threshold, expectation and mean hypervolume. -/
def pyVorobT (lib : HvLib K) (el : EafLib K L) (ncols : ℕ) (data : ℕ → ℕ → K) (labels : List L) (ref : List K) (iterations : ℕ) :
    VorobOut (K × List (ℕ → K) × K) :=
  if ncols < 3 then .error                                                     -- l. 1292-1295
  else if labels = [] then .error                                              -- np.concatenate of no arrays, l. 2009
  else
    let nobj := ncols - 1
    let hv := fun rows : List (ℕ → K) => pyHypervolume lib (tableOfList rows) nobj rows.length ref [false]
    match applyWithinSets (fun g => [hv g]) data labels with
    | none => .error
    | some l =>
      match seqCalls l with
      | .error => .error
      | .undefined => .undefined
      | .value hs =>
        let avg := npMean hs
        match vorobSearch (pyEafAt el nobj data labels) hv avg iterations 0 100 none with
        | .error => .error
        | .undefined => .undefined
        | .running => .running
        | .value (c, VE) => .value (c, VE, avg)

/-- Python `vorobDev` for a matrix `VE`, python/src/moocore/_moocore.py:1361-1378. -/
def pyVorobDevOf (lib : HvLib K) (ncols : ℕ) (data : ℕ → ℕ → K) (labels : List L) (ref : List K) (veCols : ℕ) (VE : List (ℕ → K)) : VorobOut K :=
  if ncols < 3 then .error
  else
    let nobj := ncols - 1
    match pyHypervolumeObject lib (tableOfList VE) veCols VE.length ref [false] with
    | .error => .error
    | .undefined => .undefined
    | .value H2 =>
      if labels = [] then .error
      else
        let hv := fun rows : List (ℕ → K) => pyHypervolumeObject lib (tableOfList rows) nobj rows.length ref [false]
        match (applyWithinSets (fun g => [hv g]) data labels).map seqCalls with
        | some (.value h1) =>
          if veCols ≠ nobj then .error                                         -- np.vstack
          else
            match (applyWithinSets (fun g => [hv (g ++ VE)]) data labels).map seqCalls with
            | some (.value hU) => .value (2 * npMean hU - npMean h1 - H2)
            | some .undefined => .undefined
            | _ => .error
        | some .undefined => .undefined
        | _ => .error

/-- Python `vorobDev`, python/src/moocore/_moocore.py:1318-1378. -/
def pyVorobDev (lib : HvLib K) (el : EafLib K L) (ncols : ℕ) (data : ℕ → ℕ → K) (labels : List L) (ref : List K) (VE : Option (ArrArg K)) (iterations : ℕ) : VorobOut K :=
  match VE with
  | none =>
    match pyVorobT lib el ncols data labels ref iterations with                -- l. 1358-1359
    | .error => .error
    | .undefined => .undefined
    | .running => .running
    | .value (_, VE, _) => pyVorobDevOf lib ncols data labels ref (ncols - 1) VE
  | some (.vec _) => .error                                                    -- data.shape[1] raises an IndexError
  | some (.mat m veCols t) => pyVorobDevOf lib ncols data labels ref veCols ((List.range m).map t)

/-- The transformation of the arguments in r/R/vorob.R:45-52 and 93-101: `reference[maximise] <- -reference[maximise]` extends a vector that is too short with `NA`. -/
def rVorobArguments (nobj n : ℕ) (x : ℕ → ℕ → K) (reference : List K) (maximise : List Bool) : CallOut ((ℕ → ℕ → K) × List K) :=
  if n < 1 ∨ nobj < 2 then .error                                              -- as_double_matrix
  else if maximise.any id then
    match transformMaximise x nobj maximise with
    | none => .error
    | some y =>
      if maximise.all id then .value (y, reference.map (fun v => -v))
      else if reference.length < nobj then .undefined
      else if reference.length > nobj then .error                              -- in hypervolume
      else .value (y, List.zipWith (fun v m => if m then -v else v) reference maximise)
  else .value (x, reference)

/-- `split.data.frame(x, sets)`: the rows of every set, in the order of the labels. -/
def rSplit (x : ℕ → ℕ → K) (labels : List L) : List (List (ℕ → K)) :=
  (npUnique labels).map (fun u => ((List.range labels.length).filter (fun i => decide (labels[i]? = some u))).map x)

/-- `hypervolume(rows, reference = reference)` in R. -/
def rHvRows (lib : HvLib K) (nobj : ℕ) (reference : List K) (rows : List (ℕ → K)) : CallOut K :=
  rHypervolume lib (tableOfList rows) nobj rows.length reference [false]

/-- `eaf(x, sets = sets, percentiles = c)[,-setcol]`, r/R/vorob.R:63.  One row is not a matrix any more: `as_double_matrix` stops with an error in the call of `hypervolume` that
follows (r/R/utils.R:57). -/
def rEafAt [Inhabited L] (el : EafLib K L) (nobj : ℕ) (x : ℕ → ℕ → K) (labels : List L) (c : K) : CallOut (List (ℕ → K)) :=
  let ord := el.order labels
  let table (o : Option (List (List K))) : CallOut (List (ℕ → K)) :=
    match o with
    | none => .undefined
    | some rows => if rows.length = 1 then .error else .value (rows.map (fun row d => row.getD d 0))
  if nobj = 2 then
    table (rEaf2d el.V el.tol (fun _ => false) x labels (some [c]) ord (el.sortX (orderRows (transformMax (fun _ => false) x) ord) labels.length)
      (el.sortY (orderRows (transformMax (fun _ => false) x) ord) labels.length) (2 * labels.length + 1))
  else if nobj = 3 then
    table (rEaf3d el.V el.tol el.mn el.mx el.junk (fun _ => false) x labels (some [c]) ord (el.sortZ (orderRows (transformMax (fun _ => false) x) ord) labels.length)
      (labels.length + 3) el.fuel)
  else .error

/-- R `vorobT`, r/R/vorob.R:37-71. -/
def rVorobT [Inhabited L] (lib : HvLib K) (el : EafLib K L) (nobj : ℕ) (data : ℕ → ℕ → K) (labels : List L) (reference : List K) (maximise : List Bool) (iterations : ℕ) :
    VorobOut (K × List (ℕ → K) × K) :=
  match rVorobArguments nobj labels.length data reference maximise with
  | .error => .error
  | .undefined => .undefined
  | .value (x, r) =>
    match seqCalls ((rSplit x labels).map (rHvRows lib nobj r)) with
    | .error => .error
    | .undefined => .undefined
    | .value hs =>
      let avg := npMean hs
      match vorobSearch (rEafAt el nobj x labels) (rHvRows lib nobj r) avg iterations 0 100 none with
      | .error => .error
      | .undefined => .undefined
      | .running => .running
      | .value (c, VE) =>
        match transformMaximise (tableOfList VE) nobj maximise with              -- l. 69
        | none => .error
        | some t => .value (c, (List.range VE.length).map t, avg)

/-- R `vorobDev` for a matrix `VE`, r/R/vorob.R:93-115. -/
def rVorobDevOf (lib : HvLib K) (nobj : ℕ) (data : ℕ → ℕ → K) (labels : List L) (reference : List K) (maximise : List Bool) (veCols veRows : ℕ) (VE : ℕ → ℕ → K) : VorobOut K :=
  match transformMaximise data nobj maximise, transformMaximise VE veCols maximise with
  | some _, some VE =>
    match rVorobArguments nobj labels.length data reference maximise with
    | .error => .error
    | .undefined => .undefined
    | .value (x, r) =>
      let VE := (List.range veRows).map VE
      match rHvRows lib veCols r VE, seqCalls ((rSplit x labels).map (rHvRows lib nobj r)) with
      | .value H2, .value h1 =>
        if veCols ≠ nobj then .error                                           -- rbind
        else
          match seqCalls ((rSplit x labels).map (fun g => rHvRows lib nobj r (g ++ VE))) with
          | .value hU => .value (2 * hU.sum / ((rSplit x labels).length : K) - npMean h1 - H2)
          | .error => .error
          | .undefined => .undefined
      | .undefined, _ => .undefined
      | _, .undefined => .undefined
      | _, _ => .error
  | _, _ => .error

/-- R `vorobDev`, r/R/vorob.R:78-115. -/
def rVorobDev [Inhabited L] (lib : HvLib K) (el : EafLib K L) (nobj : ℕ) (data : ℕ → ℕ → K) (labels : List L) (reference : List K) (maximise : List Bool) (VE : Option (ArrArg K))
    (iterations : ℕ) : VorobOut K :=
  match VE with
  | none =>
    match rVorobT lib el nobj data labels reference maximise iterations with
    | .error => .error
    | .undefined => .undefined
    | .running => .running
    | .value (_, VE, _) => rVorobDevOf lib nobj data labels reference maximise nobj VE.length (tableOfList VE)
  | some (.vec _) => .error
  | some (.mat m veCols t) => rVorobDevOf lib nobj data labels reference maximise veCols m t

end

end Moo
