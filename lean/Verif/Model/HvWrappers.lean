import Verif.Model.HvContrib

/-!
# Model of the hypervolume functions of the Python and R packages

`hypervolume` and the class `Hypervolume` of `_moocore.py`, `hypervolume` and `hv_contributions` of `hv.R`: how the arguments are recycled, checked and negated
before `fpli_hv` is called.  The table `data` has `npoints` rows and `nobj` columns.  The arguments `ref` and `maximise` are lists (a single value is a list of length 1, as
in R, and as after `np.atleast_1d` in Python).
-/

set_option autoImplicit false

namespace Moo

/-- How a call may end. -/
inductive CallOut (β : Type*) where
  /-- a normal return -/
  | value (v : β)
  /-- an exception in Python (ValueError or IndexError), an error in R (`stop`, or a failed `assert`, which is `Rf_error` in the R package, c/common.h:9-11) -/
  | error
  /-- a violated `ASSUME` in the Python package: the process is aborted, or the behaviour is undefined if compiled with `NDEBUG` (c/gcc_attribs.h:107);
  a computation with `NA` in R -/
  | undefined

/-- What the C library does in a call of `fpli_hv` with a given table and its numbers of columns and rows. -/
abbrev HvLib (K : Type*) := (ℕ → ℕ → K) → ℕ → ℕ → HvEnv K

section
variable {β : Type*}

/-- `atleast_1d_of_length_n`, python/src/moocore/_utils.py:49-57; `none` is the ValueError. -/
def atleast1dOfLengthN (x : List β) (n : ℕ) : Option (List β) :=
  match x with
  | [a] => some (List.replicate n a)
  | _ => if x.length = n then some x else none

variable {K : Type*} [CommRing K] [LinearOrder K]

/-- `x[mask] = -x[mask]` for a vector, python/src/moocore/_moocore.py:430 and 480; `none` is the IndexError of a mask of the wrong length. -/
def npNegateMask (x : List K) (mask : List Bool) : Option (List K) :=
  if mask.length = x.length then some (List.zipWith (fun v m => if m then -v else v) x mask) else none

/-- `data[:, mask] = -data[:, mask]`, python/src/moocore/_moocore.py:428 and 516 (the mask has one entry for each column). -/
def npNegateColumns (data : ℕ → ℕ → K) (mask : List Bool) : ℕ → ℕ → K := fun i k => if mask.getD k false then -data i k else data i k

/-- `_hypervolume`, python/src/moocore/_moocore.py:329-333, with the condition `ASSUME(d > 2)` of `fpli_hv`, c/hv.c:1138-1140. -/
def pyHypervolumeC (lib : HvLib K) (data : ℕ → ℕ → K) (nobj npoints : ℕ) (ref : List K) : CallOut K :=
  if npoints ≠ 0 ∧ nobj < 2 then .undefined
  else .value (fpliHv data nobj npoints (fun k => ref.getD k 0) (lib data nobj npoints))

/-- The end of `hypervolume`, python/src/moocore/_moocore.py:425-432. -/
def pyMirrorCall (lib : HvLib K) (data : ℕ → ℕ → K) (nobj npoints : ℕ) (r : List K) (m : List Bool) : CallOut K :=
  if m.any id then
    match npNegateMask r m with
    | some r' => pyHypervolumeC lib (npNegateColumns data m) nobj npoints r'
    | none => .error
  else pyHypervolumeC lib data nobj npoints r

/-- `hypervolume`, python/src/moocore/_moocore.py:415-432. -/
def pyHypervolume (lib : HvLib K) (data : ℕ → ℕ → K) (nobj npoints : ℕ) (ref : List K) (maximise : List Bool) : CallOut K :=
  match atleast1dOfLengthN ref nobj, atleast1dOfLengthN maximise nobj with                    -- l. 417, 423
  | some r, some m =>
    if r.length ≠ nobj then .error                                                             -- l. 418-421
    else pyMirrorCall lib data nobj npoints r m
  | _, _ => .error

/-- The attributes of a `Hypervolume` object. -/
structure HvObject (K : Type*) where
  ref : List K
  maximise : List Bool
  nobj : ℕ

/-- The end of `Hypervolume.__init__`, python/src/moocore/_moocore.py:479-481. -/
def hvObjectFinish (ref : List K) (maximise : List Bool) (n : ℕ) : Option (HvObject K) :=
  if maximise.any id then (npNegateMask ref maximise).map (fun r => ⟨r, maximise, n⟩)
  else some ⟨ref, maximise, n⟩

/-- `Hypervolume.__init__`, python/src/moocore/_moocore.py:464-481; `none` is an exception. -/
def hvObjectInit (ref : List K) (maximise : List Bool) : Option (HvObject K) :=
  let n := maximise.length
  if n = 1 then
    let n := ref.length
    hvObjectFinish ref (if n > 1 then List.replicate n (maximise.getD 0 false) else maximise) n        -- l. 467-470
  else if ref.length = 1 then hvObjectFinish (List.replicate n (ref.getD 0 0)) maximise n              -- l. 472-473
  else if n ≠ ref.length then none                                                             -- l. 474-477
  else hvObjectFinish ref maximise n

/-- `Hypervolume.__call__`, python/src/moocore/_moocore.py:497-518.  The object is not changed. -/
def hvObjectCall (lib : HvLib K) (o : HvObject K) (data : ℕ → ℕ → K) (ncol npoints : ℕ) : CallOut K :=
  let run (ref : List K) (maximise : List Bool) (nobj : ℕ) : CallOut K :=
    pyHypervolumeC lib (if maximise.any id then npNegateColumns data maximise else data) nobj npoints ref
  if o.nobj = 1 then run (List.replicate ncol (o.ref.getD 0 0)) (List.replicate ncol (o.maximise.getD 0 false)) ncol   -- l. 502-505
  else if o.nobj ≠ ncol then .error                                                            -- l. 506-509
  else run o.ref o.maximise o.nobj

/-- `Hypervolume(ref, maximise)(data)` -/
def pyHypervolumeObject (lib : HvLib K) (data : ℕ → ℕ → K) (nobj npoints : ℕ) (ref : List K) (maximise : List Bool) : CallOut K :=
  match hvObjectInit ref maximise with
  | none => .error
  | some o => hvObjectCall lib o data nobj npoints

/-- The part that `hypervolume` and `hv_contributions` of R share, r/R/hv.R:37-51 and 95-109 with `transform_maximise` and `as_double_matrix` of r/R/utils.R:37-68: the table and
the reference point passed to C.  With a logical index as long as the vector, `reference[maximise] <- -reference[maximise]` negates the marked entries; a longer index extends
the vector with `NA`.  The assertion `nobj == reference_len` of r/src/Rmoocore.c:360 and 371 is included. -/
def rHvArguments (data : ℕ → ℕ → K) (nobj npoints : ℕ) (reference : List K) (maximise : List Bool) : CallOut ((ℕ → ℕ → K) × List K) :=
  if npoints < 1 ∨ nobj < 2 then .error                                                        -- as_double_matrix
  else
    let reference := if reference.length = 1 then List.replicate nobj (reference.getD 0 0) else reference
    let toC (x : ℕ → ℕ → K) (r : List K) : CallOut ((ℕ → ℕ → K) × List K) := if r.length = nobj then .value (x, r) else .error
    if maximise.any id then
      if maximise.all id then toC (fun i k => -data i k) (reference.map (fun v => -v))
      else if maximise.length ≠ nobj then .error
      else if reference.length < nobj then .undefined
      else if reference.length > nobj then .error
      else toC (npNegateColumns data maximise) (List.zipWith (fun v m => if m then -v else v) reference maximise)
    else toC data reference

/-- R `hypervolume`, r/R/hv.R:37-54, and `hypervolume_C`, r/src/Rmoocore.c:354-363. -/
def rHypervolume (lib : HvLib K) (data : ℕ → ℕ → K) (nobj npoints : ℕ) (reference : List K) (maximise : List Bool) : CallOut K :=
  match rHvArguments data nobj npoints reference maximise with
  | .error => .error
  | .undefined => .undefined
  | .value (x, r) => .value (fpliHv x nobj npoints (fun k => r.getD k 0) (lib x nobj npoints))

/-- R `hv_contributions`, r/R/hv.R:95-112, and `hv_contributions_C`, r/src/Rmoocore.c:365-376; the assertion `hvc[i] >= 0` of c/hv_contrib.c:47. -/
def rHvContributions (lib : HvLib K) (tol : K) (data : ℕ → ℕ → K) (nobj npoints : ℕ) (reference : List K) (maximise : List Bool) : CallOut (List K) :=
  match rHvArguments data nobj npoints reference maximise with
  | .error => .error
  | .undefined => .undefined
  | .value (x, r) =>
    let ref : ℕ → K := fun k => r.getD k 0
    let res := (List.range npoints).map (hvContribution x nobj npoints ref tol (lib x nobj npoints) (fun i => lib (replaceRow x ref i) nobj npoints))
    if res.all (fun v => decide (0 ≤ v)) then .value res else .error

end

end Moo
