import Verif.Model.Whv
import Verif.Model.HvWrappers
import Verif.Model.DomWrappers

/-!
# Model of the functions on weighted hypervolumes of the Python and R packages

`whv_rect`, `total_whv_rect` and `get_ideal` of `_moocore.py`, `whv.R` and `utils.R`, and `choose_eafdiff` of `largest_eafdiff.R`.
-/

set_option autoImplicit false

namespace Moo

section
variable {K : Type*} [Field K] [LinearOrder K] [IsStrictOrderedRing K]

/-- What the two calls of `qsort` in `rect_weighted_hv2d` do. -/
structure WhvLib (K : Type*) where
  /-- c/whv.c:118: the order of the rows -/
  sortPts : (ℕ → ℕ → K) → ℕ → List ℕ
  /-- c/whv.c:119-120: the sorted rectangles -/
  sortRects : List (WRect K) → List (WRect K)

/-- The rows of the table of rectangles, c/whv.c:89-93. -/
def rectRows (m : ℕ) (t : ℕ → ℕ → K) : List (WRect K) := (List.range m).map (fun i => ⟨t i 0, t i 1, t i 2, t i 3, t i 4⟩)

/-- The call of `rect_weighted_hv2d`; `none` is a failed assertion. -/
def callRectWhv (wl : WhvLib K) (x : ℕ → ℕ → K) (n m : ℕ) (t : ℕ → ℕ → K) (ref : List K) : Option K :=
  rectWeightedHv2d x n (rectRows m t) (fun k => ref.getD k 0) (wl.sortPts x n) (wl.sortRects (whvPreprocess (rectRows m t) (fun k => ref.getD k 0)))

/-- The argument `maximise` in Python. -/
inductive PyMaximise where
  /-- a single value -/
  | scalar (b : Bool)
  /-- a list -/
  | list (l : List Bool)

/-- The condition `not maximise` of python/src/moocore/_moocore.py:1601: true for `False` and for the empty list. -/
def PyMaximise.isFalsy : PyMaximise → Bool
  | .scalar b => !b
  | .list l => l.isEmpty

/-- Python `whv_rect`, python/src/moocore/_moocore.py:1571-1613.  `isArray` says whether `rectangles` is an array of floating-point numbers: a list has no attribute `shape`.
(The bytes of an integer array would be taken as floating-point numbers; this is not modelled.)  A failed assertion of C is undefined. -/
def pyWhvRectCall (wl : WhvLib K) (isArray : Bool) (x rectangles : ArrArg K) (ref : List K) (maximise : PyMaximise) : CallOut K :=
  match x, rectangles with
  | .mat n nobj x, .mat m cols t =>
    if nobj ≠ 2 then .error                                                    -- l. 1590
    else if isArray = false then .error
    else if cols ≠ 5 then .error                                               -- l. 1592
    else
      match atleast1dOfLengthN ref nobj with                                   -- l. 1597
      | none => .error
      | some r =>
        if maximise.isFalsy = false then .error                                -- l. 1601: AssertionError
        else
          match callRectWhv wl x n m t r with
          | some v => .value v
          | none => .undefined
  | _, _ => .error                                                             -- IndexError of shape[1]

/-- Python `get_ideal`, python/src/moocore/_moocore.py:1616-1620; only called if nothing is maximised: for the empty list `np.where` raises an exception, and `min` of no rows does too. -/
def pyGetIdeal (x : ℕ → ℕ → K) (n : ℕ) (maximise : PyMaximise) : Option (List K) :=
  if n = 0 then none
  else
    match maximise with
    | .scalar b => some (if b then [colMax x n 0, colMax x n 1] else [colMin x n 0, colMin x n 1])
    | .list l => (atleast1dOfLengthN l 2).map (fun m => [if m.getD 0 false then colMax x n 0 else colMin x n 0, if m.getD 1 false then colMax x n 1 else colMin x n 1])

/-- The table after the call of `rect_weighted_hv2d`, which sorts the rows in place unless it returns early, c/whv.c:108-118. -/
def afterWhv (wl : WhvLib K) (x : ℕ → ℕ → K) (n m : ℕ) (t : ℕ → ℕ → K) (ref : List K) : ℕ → ℕ → K :=
  if m = 0 ∨ n = 0 ∨ (whvPreprocess (rectRows m t) (fun k => ref.getD k 0)).length = 0 then x else fun i => x ((wl.sortPts x n).getD i 0)

/-- Python `total_whv_rect`, python/src/moocore/_moocore.py:1623-1723. -/
def pyTotalWhvRect (lib : HvLib K) (wl : WhvLib K) (isArray : Bool) (x rectangles : ArrArg K) (ref : List K) (maximise : PyMaximise) (ideal : Option (List K)) (scalefactor : K) :
    CallOut K :=
  match x, rectangles with
  | .mat n nobj xs, .mat m _ t =>
    if nobj ≠ 2 then .error                                                    -- l. 1704
    else if scalefactor ≤ 0 ∨ scalefactor > 1 then .error                      -- l. 1710
    else
      match atleast1dOfLengthN ref nobj with                                   -- l. 1713
      | none => .error
      | some r =>
        match pyWhvRectCall wl isArray x rectangles r maximise with                -- l. 1714
        | .error => .error
        | .undefined => .undefined
        | .value whv =>
          let xs := afterWhv wl xs n m t r
          match pyHypervolume lib xs nobj n r [false] with                     -- l. 1715
          | .error => .error
          | .undefined => .undefined
          | .value hv =>
            match (match ideal with                                            -- l. 1716-1720
              | none => pyGetIdeal xs n maximise
              | some l => atleast1dOfLengthN l nobj) with
            | none => .error
            | some i => .value (hv + scalefactor * |(r.getD 0 0 - i.getD 0 0) * (r.getD 1 0 - i.getD 1 0)| * whv)
  | _, _ => .error

/-- R `whv_rect`, r/R/whv.R:35-60, and `rect_weighted_hv2d_C`, r/src/Rmoocore.c:380-391.  A failed assertion of C is an error. -/
def rWhvRectCall (wl : WhvLib K) (x rectangles : ArrArg K) (reference : List K) (maximise : List Bool) : CallOut K :=
  match asDoubleMatrix x, rectangles with
  | some (n, nobj, x), .mat m cols t =>
    if nobj ≠ 2 then .error
    else if cols ≠ 5 then .error
    else
      let r := if reference.length = 1 then List.replicate nobj (reference.getD 0 0) else reference
      if maximise.any id then .error                                           -- stopifnot(maximise == FALSE)
      else if r.length ≠ 2 then .error                                         -- Rmoocore.c:388
      else
        match callRectWhv wl x n m t r with
        | some v => .value v
        | none => .error
  | _, _ => .error

/-- R `get_ideal`, r/R/utils.R:7-14, for two columns. -/
def rGetIdeal (x : ℕ → ℕ → K) (n : ℕ) (maximise : List Bool) : List K :=
  [if maximise.getD 0 false then colMax x n 0 else colMin x n 0, if maximise.getD 1 false then colMax x n 1 else colMin x n 1]

/-- R `total_whv_rect`, r/R/whv.R:78-99, for `maximise` with at least one element. -/
def rTotalWhvRect (lib : HvLib K) (wl : WhvLib K) (x rectangles : ArrArg K) (reference : List K) (maximise : List Bool) (ideal : Option (List K)) (scalefactor : K) : CallOut K :=
  match x with
  | .vec _ => .error                                                           -- as.matrix makes a matrix with one column
  | .mat n nobj xs =>
    let mx := (List.range nobj).map (fun k => maximise.getD (k % maximise.length) false)      -- rep_len
    if nobj ≠ 2 then .error
    else if scalefactor ≤ 0 ∨ scalefactor > 1 then .error
    else
      match rHypervolume lib xs nobj n reference mx with
      | .error => .error
      | .undefined => .undefined
      | .value hv =>
        match rWhvRectCall wl x rectangles reference mx with
        | .error => .error
        | .undefined => .undefined
        | .value whv =>
          let i := ideal.getD (rGetIdeal xs n mx)
          if i.length ≠ nobj then .error
          else
            let d := (List.range nobj).map (fun k => reference.getD (k % reference.length) 0 - i.getD k 0)   -- a single number is repeated
            .value (hv + scalefactor * |d.prod| * whv)

/-- R `choose_eafdiff`, r/R/largest_eafdiff.R:114-121, on the rows of a matrix. -/
def rChooseEafdiff (rows : List (List K)) (left : Bool) : List (List K) :=
  if left then rows.filter (fun r => decide (0 < r.getLastD 0))
  else (rows.filter (fun r => decide (r.getLastD 0 < 0))).map (fun r => r.dropLast ++ [|r.getLastD 0|])

end

end Moo
