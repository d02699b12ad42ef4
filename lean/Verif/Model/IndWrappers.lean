import Verif.Model.Igd
import Verif.Model.HvWrappers

/-!
# Model of the unary quality indicators of the Python and R packages

`epsilon_additive`, `epsilon_mult`, `igd`, `igd_plus` and `avg_hausdorff_dist` of `_moocore.py`, and of `epsilon.R` and `igd.R` with `unary_metric_ref` of `Rmoocore.c`.
-/

set_option autoImplicit false

namespace Moo

/-- How a call may end. -/
inductive IndOut (β : Type*) where
  /-- a normal return -/
  | value (v : β)
  /-- an exception in Python, an error in R -/
  | error
  /-- the process ends (`exit` in `fatal_error`, c/libutil.c:6-13) -/
  | exit
  /-- a logical vector with `NA` is used in R -/
  | undefined

/-- A numerical array given by the caller. -/
inductive ArrArg (K : Type*) where
  /-- an array with one dimension (in R: a vector) -/
  | vec (l : List K)
  /-- an array with two dimensions (in R: a matrix or a data frame) -/
  | mat (nrow ncol : ℕ) (t : ℕ → ℕ → K)

/-- The C functions. -/
inductive Metric where
  | epsAdd
  | epsMul
  | invGd
  | invGdPlus
  | hausdorff (p : ℕ)

noncomputable section

/-- The choice of the C function: python/src/moocore/_moocore.py:194, 239, 264-266, 308-310 and 326, and `unary_metric_ref`, r/src/Rmoocore.c:446-465; `none` is `fatal_error`
(c/epsilon.h:48 and 58). -/
def callMetric (f : Metric) (data : ℕ → ℕ → ℝ) (nobj npoints : ℕ) (ref : ℕ → ℕ → ℝ) (refSize : ℕ) (maximise : ℕ → Bool) : Option (Ext ℝ) :=
  match f with
  | .epsAdd => some (epsilonAdditive data nobj npoints ref refSize maximise)
  | .epsMul => epsilonMult data nobj npoints ref refSize maximise
  | .invGd => some (igd data nobj npoints ref refSize maximise)
  | .invGdPlus => some (igdPlus data nobj npoints ref refSize maximise)
  | .hausdorff p => some (avgHausdorffDist data nobj npoints ref refSize maximise p)

/-- `np.atleast_2d`: a vector is a single row. -/
def atleast2d {K : Type*} [Zero K] : ArrArg K → ℕ × ℕ × (ℕ → ℕ → K)
  | .vec l => (1, l.length, fun _ k => l.getD k 0)
  | .mat nrow ncol t => (nrow, ncol, t)

/-- `_unary_refset_common`, python/src/moocore/_moocore.py:160-176, and the call of the C function. -/
def pyUnary (f : Metric) (data ref : ArrArg ℝ) (maximise : List Bool) : IndOut (Ext ℝ) :=
  match data with
  | .vec _ => .error                                                          -- data.shape[1] (l. 167) raises an IndexError
  | .mat npoints nobj x =>
    let r := atleast2d ref                                                    -- l. 166
    if nobj ≠ r.2.1 then .error                                               -- l. 168-171
    else match atleast1dOfLengthN maximise nobj with                          -- l. 172
      | none => .error
      | some m => match callMetric f x nobj npoints r.2.2 r.1 (fun k => m.getD k false) with
        | none => .exit
        | some v => .value v

/-- Python `epsilon_additive`, python/src/moocore/_moocore.py:269-310. -/
def pyEpsilonAdditive (data ref : ArrArg ℝ) (maximise : List Bool) : IndOut (Ext ℝ) := pyUnary .epsAdd data ref maximise

/-- Python `epsilon_mult`, python/src/moocore/_moocore.py:313-326. -/
def pyEpsilonMult (data ref : ArrArg ℝ) (maximise : List Bool) : IndOut (Ext ℝ) := pyUnary .epsMul data ref maximise

/-- Python `igd`, python/src/moocore/_moocore.py:179-194. -/
def pyIgd (data ref : ArrArg ℝ) (maximise : List Bool) : IndOut (Ext ℝ) := pyUnary .invGd data ref maximise

/-- Python `igd_plus`, python/src/moocore/_moocore.py:197-239. -/
def pyIgdPlus (data ref : ArrArg ℝ) (maximise : List Bool) : IndOut (Ext ℝ) := pyUnary .invGdPlus data ref maximise

/-- Python `avg_hausdorff_dist`, python/src/moocore/_moocore.py:242-266: `p` may be any number; `ffi.cast("unsigned int", p)` drops its fractional part and reduces it modulo `2^32`. -/
def pyAvgHausdorff (data ref : ArrArg ℝ) (maximise : List Bool) (p : ℝ) : IndOut (Ext ℝ) :=
  if p ≤ 0 then .error else pyUnary (.hausdorff (⌊p⌋₊ % 2 ^ 32)) data ref maximise

/-- `as_double_matrix`, r/R/utils.R:54-69 (for numerical arguments). -/
def asDoubleMatrix {K : Type*} : ArrArg K → Option (ℕ × ℕ × (ℕ → ℕ → K))
  | .vec _ => none
  | .mat nrow ncol t => if nrow < 1 then none else if ncol < 2 then none else some (nrow, ncol, t)

/-- `unary_common`, r/R/epsilon.R:102-111, with `unary_metric_ref`, r/src/Rmoocore.c:434-469: `rep_len` repeats the vector as often as needed; an empty vector gives `NA`s. -/
def rUnary (f : Metric) (data ref : ArrArg ℝ) (maximise : List Bool) : IndOut (Ext ℝ) :=
  match asDoubleMatrix data, asDoubleMatrix ref with
  | some (npoints, nobj, x), some (refSize, nc, r) =>
    if nc ≠ nobj then .error
    else if maximise.length = 0 then .undefined
    else match callMetric f x nobj npoints r refSize (fun k => maximise.getD (k % maximise.length) false) with
      | none => .error                                                        -- fatal_error is Rf_error, c/common.h:8
      | some v => .value v
  | _, _ => .error

/-- R `epsilon_additive`, r/R/epsilon.R:91-93. -/
def rEpsilonAdditive (data ref : ArrArg ℝ) (maximise : List Bool) : IndOut (Ext ℝ) := rUnary .epsAdd data ref maximise

/-- R `epsilon_mult`, r/R/epsilon.R:98-100. -/
def rEpsilonMult (data ref : ArrArg ℝ) (maximise : List Bool) : IndOut (Ext ℝ) := rUnary .epsMul data ref maximise

/-- R `igd`, r/R/igd.R:124-126. -/
def rIgd (data ref : ArrArg ℝ) (maximise : List Bool) : IndOut (Ext ℝ) := rUnary .invGd data ref maximise

/-- R `igd_plus`, r/R/igd.R:131-133. -/
def rIgdPlus (data ref : ArrArg ℝ) (maximise : List Bool) : IndOut (Ext ℝ) := rUnary .invGdPlus data ref maximise

/-- R `avg_hausdorff_dist`, r/R/igd.R:139-141: the integer is converted to `unsigned int`. -/
def rAvgHausdorff (data ref : ArrArg ℝ) (maximise : List Bool) (p : ℤ) : IndOut (Ext ℝ) := rUnary (.hausdorff (p % 2 ^ 32).toNat) data ref maximise

end

end Moo
