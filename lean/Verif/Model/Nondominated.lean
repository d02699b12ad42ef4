import Verif.Model.Basic
import Mathlib.Order.Defs.LinearOrder
import Mathlib.Algebra.Group.Defs
import Mathlib.Data.Int.Init

/-!
# Model of `c/nondominated.h` (dominance filtering)

`points + k * dim` is modelled as the row `pts k : ℕ → α`.  The tables are total
functions; rows `≥ size` and columns `≥ dim` hold arbitrary values.
`signed char *minmax` is modelled as `ℕ → ℤ`.
-/

set_option autoImplicit false

namespace Moo

/-- `enum objs_agree_t`, c/common.h:158. -/
def AGREE_MINIMISE : ℤ := -1
def AGREE_NONE : ℤ := 0
def AGREE_MAXIMISE : ℤ := 1

/-- `minmax_from_bool`, c/common.h:160-170. (Allocation not modelled.) -/
def minmaxFromBool (maximise : ℕ → Bool) : ℕ → ℤ :=
  fun k => if maximise k then AGREE_MAXIMISE else AGREE_MINIMISE

/-- `nondom_init`, c/nondominated.h:7-14. -/
def nondomInit : ℕ → Bool := fun _ => true

/-- What a call of `find_nondominated_set_` may end in: a return value together with the
final contents of `nondom[]`, or a failed `eaf_assert`. -/
inductive NdOut where
  | done (ret : ℤ) (nondom : ℕ → Bool)
  | assertFail

section
variable {α : Type*} [LinearOrder α]

/-- The three branches of the loop `for (d = 0; d < dim; d++)`,
c/nondominated.h:198-218.  Returns the final `(j_leq_k, k_leq_j)`. -/
def leqPair (dim : ℕ) (minmax : ℕ → ℤ) (agree : ℤ) (pj pk : ℕ → α) : Bool × Bool :=
  (List.range dim).foldl (fun s d =>
    if agree < 0 then (s.1 && decide (pj d ≤ pk d), s.2 && decide (pk d ≤ pj d))
    else if agree > 0 then (s.1 && decide (pj d ≥ pk d), s.2 && decide (pk d ≥ pj d))
    else if minmax d < 0 then (s.1 && decide (pj d ≤ pk d), s.2 && decide (pk d ≤ pj d))
    else if minmax d > 0 then (s.1 && decide (pj d ≥ pk d), s.2 && decide (pk d ≥ pj d))
    else s) (true, true)

/-- How the inner or outer loop of `find_nondominated_set_` ends. -/
inductive NdStep where
  | cont (nondom : ℕ → Bool)
  | ret (r : ℤ) (nondom : ℕ → Bool)
  | assertFail

/-- The inner loop `for (j = k + 1; j < size; j++)`, c/nondominated.h:182-230;
the list holds the remaining values of `j`. -/
def ndInner (pts : ℕ → ℕ → α) (dim : ℕ) (minmax : ℕ → ℤ) (agree : ℤ)
    (findDominated keepWeakly : Bool) (k : ℕ) : List ℕ → (ℕ → Bool) → NdStep
  | [], nd => .cont nd
  | j :: js, nd =>
    if !nd k then .cont nd                                            -- l. 184 break
    else if !nd j then ndInner pts dim minmax agree findDominated keepWeakly k js nd  -- l. 185
    else
      let lq := leqPair dim minmax agree (pts j) (pts k)
      let ndk := !lq.1 || (keepWeakly && lq.2)                        -- l. 221
      let ndj := !lq.2 || lq.1                                        -- l. 223
      let nd' := upd (upd nd k ndk) j ndj
      if !(ndk || ndj) then .assertFail                               -- l. 225
      else if findDominated && (!ndk || !ndj) then                    -- l. 227
        .ret (if ndk then (j : ℤ) else (k : ℤ)) nd'
      else ndInner pts dim minmax agree findDominated keepWeakly k js nd'

/-- The outer loop `for (k = 0; k < size - 1; k++)`, c/nondominated.h:181-231;
the list holds the remaining values of `k`. -/
def ndOuter (pts : ℕ → ℕ → α) (dim size : ℕ) (minmax : ℕ → ℤ) (agree : ℤ)
    (findDominated keepWeakly : Bool) : List ℕ → (ℕ → Bool) → NdStep
  | [], nd => .cont nd
  | k :: ks, nd =>
    match ndInner pts dim minmax agree findDominated keepWeakly k
        (List.range' (k + 1) (size - (k + 1))) nd with
    | .cont nd' => ndOuter pts dim size minmax agree findDominated keepWeakly ks nd'
    | .ret r nd' => .ret r nd'
    | .assertFail => .assertFail

/-- `compare_x_asc_y_asc`, c/nondominated.h:44-52. -/
def compareXascYasc (p1 p2 : ℕ → α) : ℤ :=
  if p1 0 < p2 0 then -1 else if p1 0 > p2 0 then 1
  else if p1 1 < p2 1 then -1 else if p1 1 > p2 1 then 1 else 0

/-- The result of `generate_sorted_pp_2d`, c/nondominated.h:54-63: the list of row numbers
`(p[k] - points) / 2`, in an order that `qsort` may leave. -/
def SortedPP2d (pts : ℕ → ℕ → α) (size : ℕ) (p : List ℕ) : Prop :=
  Qsort (fun a b => compareXascYasc (pts a) (pts b)) (List.range size) p

/-- The scan of `find_dominated_2d_`, c/nondominated.h:73-88.  `k` is the row `p[k]`, the list
holds the rows `p[j], p[j+1], ...`.  The nested loops
`do { while (j < size && p[j][1] >= p[k][1]) {..; j++;} k = j; j++; } while (j < size);`
are flattened into one loop: either `p[j]` satisfies the inner condition (body, `j++`) or it
does not (`k = j; j++`). -/
def findDominated2dScan (pts : ℕ → ℕ → α) (keepWeakly : Bool) : ℕ → List ℕ → ℤ
  | _, [] => -1
  | k, j :: js =>
    if pts j 1 ≥ pts k 1 then
      if !keepWeakly || decide (pts j 0 ≠ pts k 0) || decide (pts j 1 ≠ pts k 1) then (j : ℤ)
      else findDominated2dScan pts keepWeakly k js
    else findDominated2dScan pts keepWeakly j js

/-- `find_dominated_2d_`, c/nondominated.h:68-92, for `size ≥ 1`
(`p` is the sorted array of rows). With `size = 0` the C code would read `p[0]`
out of bounds only if `1 < size`, so the empty case also returns -1. -/
def findDominated2d (pts : ℕ → ℕ → α) (keepWeakly : Bool) : List ℕ → ℤ
  | [] => -1
  | k :: js => findDominated2dScan pts keepWeakly k js

/-- The scan of `find_nondominated_set_delete_weakly_2d_` (c/nondominated.h:104-113) and of
`find_nondominated_set_keep_weakly_2d_` (c/nondominated.h:130-141); the two functions differ only in
the test of line 133.  `k` is the row `p[k]`, `pos` the current value of `j` and the list the rows
`p[j], ...`; loops flattened as in `findDominated2dScan`.  Returns `nondom[]` (indexed by *sorted position*) and
`n_dominated`. -/
def nd2dScan (pts : ℕ → ℕ → α) (keepWeakly : Bool) :
    ℕ → ℕ → List ℕ → (ℕ → Bool) → ℤ → (ℕ → Bool) × ℤ
  | _, _, [], nd, c => (nd, c)
  | k, pos, j :: js, nd, c =>
    if pts j 1 ≥ pts k 1 then
      if !keepWeakly || decide (pts j 0 ≠ pts k 0) || decide (pts j 1 ≠ pts k 1) then
        nd2dScan pts keepWeakly k (pos + 1) js (upd nd pos false) (c + 1)
      else nd2dScan pts keepWeakly k (pos + 1) js nd c
    else nd2dScan pts keepWeakly j (pos + 1) js nd c

/-- The loop `nondom_new[(p[k] - points) / 2] = nondom[k]` and the `memcpy` back into `nondom`,
c/nondominated.h:115-118 and 143-146.  `pos` is the position of the head of the list.
Entries of `nondom_new` not written hold `garbage`. -/
def ndUnsort (nd : ℕ → Bool) : ℕ → List ℕ → (ℕ → Bool) → (ℕ → Bool)
  | _, [], new => new
  | pos, r :: rs, new => ndUnsort nd (pos + 1) rs (upd new r (nd pos))

/-- `find_nondominated_set_delete_weakly_2d_` / `..._keep_weakly_2d_`,
c/nondominated.h:99-150.  The value returned is `n_dominated` (lines 121, 149), although the
comment at lines 95-98 promises the number of nondominated points. -/
def findNondominatedSet2d (pts : ℕ → ℕ → α) (keepWeakly : Bool) (garbage : ℕ → Bool)
    (nd : ℕ → Bool) : List ℕ → ℤ × (ℕ → Bool)
  | [] => (0, garbage)
  | k :: js =>
    let r := nd2dScan pts keepWeakly k 1 js nd 0
    (r.2, ndUnsort r.1 0 (k :: js) garbage)

end

section
variable {α : Type*} [LinearOrder α] [Neg α]

/-- `force_agree_minimize`, c/nondominated.h:16-42.  `none` is a failed `eaf_assert`
(line 20 when `agree == AGREE_MINIMISE`, line 36 when some objective is maximised and some is
ignored). Lines 23-30: no copy when no objective is maximised. -/
def forceAgreeMinimize (pts : ℕ → ℕ → α) (dim : ℕ) (minmax : ℕ → ℤ) (agree : ℤ) :
    Option (ℕ → ℕ → α) :=
  if agree = AGREE_MINIMISE then none
  else if (List.range dim).all (fun d => !decide (minmax d > 0)) then some pts
  else if (List.range dim).any (fun d => decide (minmax d = 0)) then none
  else some (fun k d => if d < dim ∧ minmax d > 0 then -(pts k d) else pts k d)

/-- The number of `true` flags among the first `size`, c/nondominated.h:235-238. -/
def countFlags (nd : ℕ → Bool) (size : ℕ) : ℤ :=
  (List.range size).foldl (fun c k => if nd k then c + 1 else c) (0 : ℤ)

/-- `find_nondominated_set_`, c/nondominated.h:159-239.
`sortFn` stands for the `qsort` call inside `generate_sorted_pp_2d`: it maps the (possibly negated)
points to the sorted list of rows; `garbage` is the initial content of the `malloc`ed
`nondom_new`. -/
def findNondominatedSet_ (sortFn : (ℕ → ℕ → α) → ℕ → List ℕ) (garbage : ℕ → Bool)
    (pts : ℕ → ℕ → α) (dim size : ℕ)
    (minmax : ℕ → ℤ) (agree : ℤ) (nd : ℕ → Bool) (findDominated keepWeakly : Bool) : NdOut :=
  if size < 2 then .done size nd                                       -- l. 164
  else if dim = 2 then                                                 -- l. 167
    match forceAgreeMinimize pts 2 minmax agree with
    | none => .assertFail
    | some pp =>
      if findDominated then .done (findDominated2d pp keepWeakly (sortFn pp size)) nd
      else
        let r := findNondominatedSet2d pp keepWeakly garbage nd (sortFn pp size)
        .done r.1 r.2
  else
    match ndOuter pts dim size minmax agree findDominated keepWeakly (List.range (size - 1)) nd with
    | .assertFail => .assertFail
    | .ret r nd' => .done r nd'
    | .cont nd' => if findDominated then .done (-1) nd' else .done (countFlags nd' size) nd'

/-- `find_dominated_point`, c/nondominated.h:241-253. -/
def findDominatedPoint (sortFn : (ℕ → ℕ → α) → ℕ → List ℕ) (garbage : ℕ → Bool)
    (pts : ℕ → ℕ → α) (dim size : ℕ) (minmax : ℕ → ℤ) : Option ℤ :=
  match findNondominatedSet_ sortFn garbage pts dim size minmax AGREE_NONE nondomInit true false with
  | .done r _ => some r
  | .assertFail => none

/-- `find_nondominated_set_agree`, c/nondominated.h:255-263. -/
def findNondominatedSetAgree (sortFn : (ℕ → ℕ → α) → ℕ → List ℕ) (garbage : ℕ → Bool)
    (pts : ℕ → ℕ → α) (dim size : ℕ) (minmax : ℕ → ℤ) (agree : ℤ) (nd : ℕ → Bool) : NdOut :=
  findNondominatedSet_ sortFn garbage pts dim size minmax agree nd false false

/-- `find_nondominated_set`, c/nondominated.h:265-272. -/
def findNondominatedSet (sortFn : (ℕ → ℕ → α) → ℕ → List ℕ) (garbage : ℕ → Bool)
    (pts : ℕ → ℕ → α) (dim size : ℕ) (minmax : ℕ → ℤ) (nd : ℕ → Bool) : NdOut :=
  findNondominatedSet_ sortFn garbage pts dim size minmax AGREE_NONE nd false false

/-- `find_weak_nondominated_set`, c/nondominated.h:274-281. -/
def findWeakNondominatedSet (sortFn : (ℕ → ℕ → α) → ℕ → List ℕ) (garbage : ℕ → Bool)
    (pts : ℕ → ℕ → α) (dim size : ℕ) (minmax : ℕ → ℤ) (nd : ℕ → Bool) : NdOut :=
  findNondominatedSet_ sortFn garbage pts dim size minmax AGREE_NONE nd false true

/-- `is_nondominated`, c/nondominated.h:316-326. `none` is a failed assertion. -/
def isNondominated (sortFn : (ℕ → ℕ → α) → ℕ → List ℕ) (garbage : ℕ → Bool)
    (data : ℕ → ℕ → α) (nobj npoint : ℕ) (maximise : ℕ → Bool) (keepWeakly : Bool) :
    Option (ℕ → Bool) :=
  match findNondominatedSet_ sortFn garbage data nobj npoint (minmaxFromBool maximise) AGREE_NONE
      nondomInit false keepWeakly with
  | .done _ nd => some nd
  | .assertFail => none

/-- Outcome of `get_nondominated_set`. -/
inductive GetNdOut (α : Type*) where
  /-- normal return: the rows of the block `pareto_set` and the returned size -/
  | done (rows : List (ℕ → α)) (newSize : ℤ)
  /-- `memcpy` beyond the `new_size * dim` doubles allocated at l. 302 -/
  | heapOverflow
  /-- a failed `eaf_assert` (l. 310 or inside `find_nondominated_set`) or `fatal_error` (l. 298) -/
  | abort

/-- The copy loop of `get_nondominated_set`, c/nondominated.h:305-309.  `cap` is the number of rows allocated,
`out` the rows written so far (`k = out.length`). `none`: a write outside of the allocated block. -/
def getNdCopy (pts : ℕ → ℕ → α) (nd : ℕ → Bool) (dim : ℕ) (cap : ℤ) :
    List ℕ → List (ℕ → α) → Option (List (ℕ → α))
  | [], out => some out
  | n :: ns, out =>
    if !nd n then getNdCopy pts nd dim cap ns out
    else if (out.length : ℤ) + 1 ≤ cap ∨ dim = 0 then getNdCopy pts nd dim cap ns (out ++ [pts n])
    else none

/-- `get_nondominated_set`, c/nondominated.h:283-314. -/
def getNondominatedSet (sortFn : (ℕ → ℕ → α) → ℕ → List ℕ) (garbage : ℕ → Bool)
    (pts : ℕ → ℕ → α) (dim size : ℕ) (minmax : ℕ → ℤ) : GetNdOut α :=
  match findNondominatedSet sortFn garbage pts dim size minmax nondomInit with
  | .assertFail => .abort
  | .done newSize nd =>
    if newSize > size then .abort                                       -- l. 297
    else match getNdCopy pts nd dim newSize (List.range size) [] with
      | none => .heapOverflow
      | some rows => if (rows.length : ℤ) = newSize then .done rows newSize else .abort  -- l. 310

end

end Moo
