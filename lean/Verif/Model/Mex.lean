import Verif.Model.HvWrappers

/-!
# Model of the MATLAB and Octave interface, c/Hypervolume_MEX.c

A MATLAB array is stored by columns.  `mxGetPr` gives the data of an array of doubles; for other numeric classes (`single`, `int32`, ...) what it points to are not
doubles.  Reads are checked: a read outside of a block or of an array that does not hold doubles gives `none`.  Numbers of rows and columns fit in an `int`.
`mexErrMsgTxt` does not return.  Memory of `mxMalloc` that is not released is released by MATLAB when the function returns.
-/

set_option autoImplicit false

namespace Moo

variable {K : Type*} [CommRing K] [LinearOrder K]

/-- An argument (`const mxArray *`): a character array, another array that is not numeric, or a numeric array with its numbers of rows and columns; `buf` is
the block of doubles of an array of class `double` and `none` for the other numeric classes. -/
inductive MxArg (K : Type*)
  | char
  | other
  | numeric (rows cols : ℕ) (buf : Option (List K))

/-- What a call does: print the help text (and return nothing), stop with an error message, do something undefined, or return a number. -/
inductive MexOut (K : Type*)
  | help
  | error
  | undefined
  | value (v : K)

/-- c/Hypervolume_MEX.c:276-277: the inner loop; the list holds the remaining values of `j`. -/
def mexRow (buf : List K) (popsize i : ℕ) : List ℕ → Option (List K)
  | [] => some []
  | j :: js =>
    match buf[i + j * popsize]?, mexRow buf popsize i js with
    | some v, some r => some (v :: r)
    | _, _ => none

/-- c/Hypervolume_MEX.c:274-277: the matrix by rows, `data[k++] = MatLab_Obj[i+j*popsize]`; the list holds the remaining values of `i`. -/
def mexData (buf : List K) (nobj popsize : ℕ) : List ℕ → Option (List K)
  | [] => some []
  | i :: is =>
    match mexRow buf popsize i (List.range nobj), mexData buf nobj popsize is with
    | some r, some rs => some (r ++ rs)
    | _, _ => none

/-- c/Hypervolume_MEX.c:232-233: `vector[k] = data[k]`, for the remaining values of `k`. -/
def dataMaximumInit (data : List K) : List ℕ → Option (List K)
  | [] => some []
  | k :: ks =>
    match data[k]?, dataMaximumInit data ks with
    | some v, some r => some (v :: r)
    | _, _ => none

/-- c/Hypervolume_MEX.c:236-239: the inner loop, `n` over the entries of `vector`, with `k` increasing in step. -/
def dataMaximumRow (data : List K) : List K → ℕ → Option (List K)
  | [], _ => some []
  | v :: vs, k =>
    match data[k]?, dataMaximumRow data vs (k + 1) with
    | some w, some r => some ((if v < w then w else v) :: r)
    | _, _ => none

/-- c/Hypervolume_MEX.c:235-240: `m` rows are left and the next one starts at `k`. -/
def dataMaximumLoop (data : List K) (nobj : ℕ) : ℕ → ℕ → List K → Option (List K)
  | 0, _, vec => some vec
  | m + 1, k, vec =>
    match dataMaximumRow data vec k with
    | none => none
    | some vec => dataMaximumLoop data nobj m (k + nobj) vec

/-- `data_maximum`, c/Hypervolume_MEX.c:225-242. -/
def dataMaximum (data : List K) (nobj rows : ℕ) : Option (List K) :=
  match dataMaximumInit data (List.range nobj) with
  | none => none
  | some vec => dataMaximumLoop data nobj (rows - 1) nobj vec

/-- `fpli_hv` on the block `data`, c/hv.c:1136-1167; undefined for `d ≤ 1` and `n > 0` because of `ASSUME (d > 2)` in line 1140. -/
def mexHv (data : List K) (nobj popsize : ℕ) (ref : List K) (lib : HvLib K) : MexOut K :=
  if popsize ≠ 0 ∧ nobj ≤ 1 then MexOut.undefined
  else
    let pts : ℕ → ℕ → K := fun i k => data.getD (i * nobj + k) 0
    MexOut.value (fpliHv pts nobj popsize (fun k => ref.getD k 0) (lib pts nobj popsize))

/-- `mexFunction`, c/Hypervolume_MEX.c:245-304; `args` are the arguments of the call (`prhs`). -/
def mexFunction (args : List (MxArg K)) (lib : HvLib K) : MexOut K :=
  match args with
  | [] => MexOut.help
  | MxArg.char :: _ => MexOut.help
  | MxArg.other :: _ => MexOut.error
  | MxArg.numeric popsize nobj buf :: rest =>
    match (match buf with
      | some b => mexData b nobj popsize (List.range popsize)
      | none => if popsize * nobj = 0 then some [] else none) with
    | none => MexOut.undefined
    | some data =>
      match rest with
      | [] =>
        match dataMaximum data nobj popsize with
        | none => MexOut.undefined
        | some reference => mexHv data nobj popsize reference lib
      | MxArg.numeric r c refbuf :: _ =>
        if nobj ≠ r * c then MexOut.error
        else match refbuf with
          | some reference => mexHv data nobj popsize reference lib
          | none => if popsize = 0 then MexOut.value 0 else MexOut.undefined
      | _ :: _ => MexOut.error

end Moo
