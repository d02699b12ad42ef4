import Verif.Model.Basic
import Mathlib.Order.Defs.LinearOrder

/-!
# Model of the bounds code of the command-line programs

`data_bounds`, `any_less_than`, `force_bounds` of c/nondominated.c, `data_bounds` of c/main-hv.c and `calculate_uev` of c/ndsort.c.
Values are elements of a linear order (there is no arithmetic); NaN is not modelled.  Tables of points are functions of the row; a row is a
function of the objective, so `memcpy` of `dim` doubles copies the row.
-/

set_option autoImplicit false

namespace Moo

variable {α : Type*} [LinearOrder α]

/-- The update of `(*minimum)[n]` and `(*maximum)[n]` with one row, c/nondominated.c:200-205 and c/main-hv.c:155-158. -/
def boundsRow (nobj : ℕ) (row : ℕ → α) (mm : (ℕ → α) × (ℕ → α)) : (ℕ → α) × (ℕ → α) :=
  (List.range nobj).foldl (fun mm n =>
    (if mm.1 n > row n then upd mm.1 n (row n) else mm.1, if mm.2 n < row n then upd mm.2 n (row n) else mm.2)) mm

/-- `data_bounds`, c/nondominated.c:176-207.  `inf`, `negInf` are INFINITY and -DBL_MAX; the arguments are `none` for NULL. -/
def dataBounds (inf negInf : α) (nobj rows : ℕ) (data : ℕ → ℕ → α) (minimum maximum : Option (ℕ → α)) : (ℕ → α) × (ℕ → α) :=
  (List.range rows).foldl (fun mm r => boundsRow nobj (data r) mm) (minimum.getD (fun _ => inf), maximum.getD (fun _ => negInf))

/-- `data_bounds`, c/main-hv.c:132-161: a missing bound is initialised with the first row, and then the first row is skipped for both. -/
def dataBoundsHv (nobj rows : ℕ) (data : ℕ → ℕ → α) (minimum maximum : Option (ℕ → α)) : (ℕ → α) × (ℕ → α) :=
  let first := if minimum.isNone || maximum.isNone then 1 else 0
  (List.range' first (rows - first)).foldl (fun mm r => boundsRow nobj (data r) mm) (minimum.getD (data 0), maximum.getD (data 0))

/-- `any_less_than`, c/nondominated.c:209-217. -/
def anyLessThan (a b : ℕ → α) (dim : ℕ) : Bool := (List.range dim).any fun d => decide (a d < b d)

/-- The array `outbounds`, c/nondominated.c:264-270. -/
def outbounds (dim : ℕ) (points : ℕ → ℕ → α) (lbound ubound : ℕ → α) (n : ℕ) : Bool :=
  anyLessThan (points n) lbound dim || anyLessThan ubound (points n) dim

section
variable {β : Type*}

/-- The search for `outbounds_found`, c/nondominated.c:262-270 (`none` stands for -1): the last value assigned going downwards. -/
def fbFound (out : ℕ → Bool) (size : ℕ) : Option ℕ :=
  (List.range size).reverse.foldl (fun f n => if out n then some n else f) none

/-- `for (k = 0; outbounds_found >= cumsizes[k]; k++);`, c/nondominated.c:285.  `none`: `cumsizes` read outside. -/
def fbFindSet (cum : ℕ → ℕ) (found : ℕ) : ℕ → ℕ → Option ℕ
  | 0, _ => none
  | f + 1, k => if found ≥ cum k then fbFindSet cum found f (k + 1) else some k

/-- The state of the deletion loop: the points, `n`, `n2` and `ssizes`. -/
structure FbSt (β : Type*) where
  pts : ℕ → β
  n : ℕ
  n2 : ℕ
  ss : ℕ → ℤ

/-- The loop `while (n2 < cumsizes[k])`, c/nondominated.c:292-300; the fuel is `cumsizes[k] - n2`, one iteration each. -/
def fbWhile (out : ℕ → Bool) (k : ℕ) : ℕ → FbSt β → FbSt β
  | 0, s => s
  | f + 1, s =>
    if out s.n2 then fbWhile out k f { s with n2 := s.n2 + 1, ss := upd s.ss k (s.ss k - 1) }
    else fbWhile out k f { s with pts := upd s.pts s.n (s.pts s.n2), n := s.n + 1, n2 := s.n2 + 1 }

/-- The loop over the sets, c/nondominated.c:291-301; the first argument is `nsets - k`. -/
def fbSets (out : ℕ → Bool) (cum : ℕ → ℕ) : ℕ → ℕ → FbSt β → FbSt β
  | 0, _, s => s
  | f + 1, k, s => fbSets out cum f (k + 1) (fbWhile out k (cum k - s.n2) s)

/-- The new cumulative sizes, c/nondominated.c:306-308. -/
def fbCum (ss : ℕ → ℤ) : ℕ → ℤ
  | 0 => ss 0
  | k + 1 => ss (k + 1) + fbCum ss k

/-- `force_bounds`, c/nondominated.c:255-313: the returned flag, the rows and the cumulative sizes.  `none`: a read outside of `cumsizes`.
The array `out` is the result of the test for every row (`outbounds` above). -/
def forceBounds (out : ℕ → Bool) (pts : ℕ → β) (cum : ℕ → ℕ) (nsets : ℕ) : Option (Bool × (ℕ → β) × (ℕ → ℤ)) :=
  match fbFound out (cum (nsets - 1)) with
  | none => some (false, pts, fun k => cum k)
  | some found =>
    let ss : ℕ → ℤ := fun k => if k = 0 then cum 0 else (cum k : ℤ) - cum (k - 1)
    match fbFindSet cum found nsets 0 with
    | none => none
    | some k =>
      let s := fbSets out cum (nsets - k) k ⟨pts, found, found + 1, upd ss k (ss k - 1)⟩
      some (true, s.pts, fbCum s.ss)

end

/-- `for (j = 0; j < size; j++) if (points[j * dim + i] == v) { uev[j] = true; break; }`, c/ndsort.c:107-112 and 113-118. -/
def uevMark (points : ℕ → ℕ → α) (i : ℕ) (v : α) : List ℕ → (ℕ → Bool) → (ℕ → Bool)
  | [], uev => uev
  | j :: js, uev => if points j i = v then upd uev j true else uevMark points i v js uev

/-- `calculate_uev`, c/ndsort.c:93-121, with the array `uev` given (its contents are overwritten).  The two assertions only exclude infinite bounds. -/
def calculateUev (uev : ℕ → Bool) (points : ℕ → ℕ → α) (dim size : ℕ) (lbound ubound : ℕ → α) : ℕ → Bool :=
  (List.range dim).foldl
    (fun u i => uevMark points i (lbound i) (List.range size) (uevMark points i (ubound i) (List.range size) u))
    (fun j => if j < size then false else uev j)

end Moo
