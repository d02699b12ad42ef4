import Verif.Model.Whv
import Verif.Model.Hv
import Mathlib.Data.List.Basic

/-!
# Model of the memory of the arrays that the Python functions get from their caller

Arrays are held in numbered blocks of memory; a block contains the rows of a table.  Two Python objects may refer to the same block.  What NumPy does is modelled by its
documented behaviour: `np.asarray(x, dtype=float)` returns `x` itself if it is an array of doubles of the class `ndarray`; if it is an array of a subclass (such as `np.matrix`), or an object
that exports its memory, it returns a new array object for the same memory; everything else (lists, arrays of integers) is converted into new memory.
-/

set_option autoImplicit false

namespace Moo

/-- The blocks with a number below `next` are in use. -/
structure PyMem (K : Type*) where
  next : ℕ
  block : ℕ → List (List K)

/-- An argument as given by the caller. -/
inductive PyArg (K : Type*) where
  /-- an array of doubles of the class `ndarray`; `contiguous` says that its rows follow each other in memory -/
  | ndarray (block : ℕ) (contiguous : Bool)
  /-- another object that shares the memory of an array of doubles: an array of a subclass of `ndarray`, a data frame, ... -/
  | view (block : ℕ) (contiguous : Bool)
  /-- a list of lists, an array of integers, ... -/
  | other (rows : List (List K))

/-- An array inside the library. -/
structure NpArr where
  block : ℕ
  contiguous : Bool

section
variable {K : Type*}

/-- A new block. -/
def PyMem.alloc (m : PyMem K) (rows : List (List K)) : PyMem K × ℕ := (⟨m.next + 1, upd m.block m.next rows⟩, m.next)

/-- A block is overwritten. -/
def PyMem.write (m : PyMem K) (b : ℕ) (rows : List (List K)) : PyMem K := { m with block := upd m.block b rows }

/-- The rows that an argument stands for. -/
def PyArg.rows (m : PyMem K) : PyArg K → List (List K)
  | .ndarray b _ => m.block b
  | .view b _ => m.block b
  | .other rows => rows

/-- `np.asarray(x, dtype=float)`, and whether the result is the same object, python/src/moocore/_utils.py:5-12 (`id(x) != id(x_)` is `x_copied`). -/
def asarrayMaybeCopy (m : PyMem K) : PyArg K → PyMem K × NpArr × Bool
  | .ndarray b c => (m, ⟨b, c⟩, false)
  | .view b c => (m, ⟨b, c⟩, true)
  | .other rows => ((m.alloc rows).1, ⟨(m.alloc rows).2, true⟩, true)

/-- `np.ascontiguousarray`, python/src/moocore/_utils.py:30: a copy if the array is not contiguous. -/
def ascontiguous (m : PyMem K) (a : NpArr) : PyMem K × ℕ := if a.contiguous then (m, a.block) else m.alloc (m.block a.block)

/-- `data[:, mask] = -data[:, mask]` on a row. -/
def negateRow [Neg K] (mask : List Bool) (row : List K) : List K := row.mapIdx (fun k v => if mask.getD k false then -v else v)

/-- What `hypervolume`, `Hypervolume.__call__`, `pareto_rank` and `whv_hype` do with their data, python/src/moocore/_moocore.py:415 and 425-428, 497 and 512-516, 958 and 961-965,
1835 and 1845-1848: `maximise` has one entry for each column. -/
def mirrorData [Neg K] (m : PyMem K) (arg : PyArg K) (maximise : List Bool) : PyMem K × NpArr :=
  let r := asarrayMaybeCopy m arg
  let m := r.1
  let data := r.2.1
  let copied := r.2.2
  if maximise.any id then
    let q : PyMem K × NpArr := if copied then (m, data) else ((m.alloc (m.block data.block)).1, ⟨(m.alloc (m.block data.block)).2, true⟩)
    (q.1.write q.2.block ((q.1.block q.2.block).map (negateRow maximise)), q.2)
  else (m, data)

/-- The data as the C function sees them (`np2d_to_double_array`, python/src/moocore/_utils.py:25-32), and the memory after the call: the C functions `fpli_hv`, `pareto_rank` and
`whv_hype_*` only read them (their parameter is a pointer to `const double`). -/
def passMirrored [Neg K] (m : PyMem K) (arg : PyArg K) (maximise : List Bool) : PyMem K × List (List K) :=
  let r := mirrorData m arg maximise
  let q := ascontiguous r.1 r.2
  (q.1, q.1.block q.2)

/-- `normalise`, python/src/moocore/_moocore.py:1067 and 1082-1100: `np.array` always copies, and `agree_normalise` overwrites the copy, which is returned; `f` is what it computes
(see C22). -/
def pyNormaliseMem (f : List (List K) → List (List K)) (m : PyMem K) (arg : PyArg K) : PyMem K × ℕ :=
  let q := m.alloc (arg.rows m)
  (q.1.write q.2 (f (q.1.block q.2)), q.2)

end

section
variable {K : Type*} [Ring K] [LinearOrder K]

/-- The row of a rectangle, as in c/whv.c:89-97. -/
def rectOfRow (row : List K) : WRect K := ⟨row.getD 0 0, row.getD 1 0, row.getD 2 0, row.getD 3 0, row.getD 4 0⟩

/-- Converse of `rectOfRow`. -/
def rowOfRect (r : WRect K) : List K := [r.l0, r.l1, r.u0, r.u1, r.color]

/-- The rows as a table. -/
def tableOf (rows : List (List K)) : ℕ → ℕ → K := fun i k => (rows.getD i []).getD k 0

/-- The memory of the points after `rect_weighted_hv2d`: line 118 of c/whv.c sorts it in place (`ps` is the resulting order), unless the function has returned before. -/
def whvDataAfter (data rects : List (List K)) (ref : ℕ → K) (ps : List ℕ) : List (List K) :=
  if rects.length = 0 ∨ data.length = 0 then data
  else if (whvPreprocess (rects.map rectOfRow) ref).length = 0 then data
  else ps.map (fun i => data.getD i [])

/-- The memory of the rectangles after `rect_weighted_hv2d`: lines 33-38 of c/whv.c clip them in place, and line 119 sorts them in place if no rectangle was skipped (otherwise it sorts
a copy, lines 46-71). -/
def whvRectsAfter (data rects : List (List K)) (ref : ℕ → K) (rs : List (WRect K)) : List (List K) :=
  if rects.length = 0 ∨ data.length = 0 then rects
  else
    let clipped := (rects.map rectOfRow).map (WRect.clip ref)
    if (rectSkip clipped 0).length = 0 then rs.map rowOfRect else clipped.map rowOfRect

/-- Python `whv_rect`, python/src/moocore/_moocore.py:1587-1613, for two objectives, five columns of rectangles and no maximisation.  `rectangles` has to be an array (of doubles).
`sortX` and `sortR` give the results of the two calls of `qsort`.  The result is the value (`none`: failed assertion) and the memory after the call. -/
def pyWhvRect (sortX : (ℕ → ℕ → K) → ℕ → List ℕ) (sortR : List (WRect K) → List (WRect K)) (m : PyMem K) (x : PyArg K) (rectangles : NpArr) (ref : ℕ → K) : Option K × PyMem K :=
  let a := asarrayMaybeCopy m x
  let cx := ascontiguous a.1 a.2.1
  let cr := ascontiguous cx.1 rectangles
  let m := cr.1
  let data := m.block cx.2
  let rects := m.block cr.2
  let ps := sortX (tableOf data) data.length
  let rs := sortR (whvPreprocess (rects.map rectOfRow) ref)
  (rectWeightedHv2d (tableOf data) data.length (rects.map rectOfRow) ref ps rs,
    (m.write cx.2 (whvDataAfter data rects ref ps)).write cr.2 (whvRectsAfter data rects ref rs))

/-- R `whv_rect`, r/R/whv.R:35-60: `t(x)` and `t(rectangles)` are new matrices, so C changes only these. -/
def rWhvRect (sortX : (ℕ → ℕ → K) → ℕ → List ℕ) (sortR : List (WRect K) → List (WRect K)) (m : PyMem K) (x rectangles : ℕ) (ref : ℕ → K) : Option K × PyMem K :=
  let cx := m.alloc (m.block x)
  let cr := cx.1.alloc (cx.1.block rectangles)
  let m := cr.1
  let data := m.block cx.2
  let rects := m.block cr.2
  let ps := sortX (tableOf data) data.length
  let rs := sortR (whvPreprocess (rects.map rectOfRow) ref)
  (rectWeightedHv2d (tableOf data) data.length (rects.map rectOfRow) ref ps rs,
    (m.write cx.2 (whvDataAfter data rects ref ps)).write cr.2 (whvRectsAfter data rects ref rs))

end

end Moo
