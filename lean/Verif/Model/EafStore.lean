import Verif.Model.Eaf2d
import Verif.Model.BitArray
import Mathlib.Data.List.GetD

/-!
# Model of the memory of an attainment surface (`eaf_t`), c/eaf.c:80-165, and of `eaf2matrix`, `eaf_compute_matrix`

Memory blocks are lists whose length is the number of allocated elements.  The contents of fresh memory are arbitrary (`junk`).  The new capacity when a block
is full, computed in floating point at c/eaf.c:131, is a parameter `grow`.  Failure to allocate is not modelled.
An access outside of a block or a failed assertion gives `none`.
-/

set_option autoImplicit false

namespace Moo

variable {α : Type*}

/-- `eaf_t`, c/eaf.h:67-74. -/
structure EafT (α : Type*) where
  nruns : ℕ
  size : ℕ
  maxsize : ℕ
  nreallocs : ℕ
  bits : List (BitVec 64)
  data : List α

/-- `realloc`: the first elements are kept, others have arbitrary contents. -/
def resize {β : Type*} (l : List β) (n : ℕ) (junk : ℕ → β) : List β := (List.range n).map (fun i => l.getD i (junk i))

/-- Everything about the memory that the C standard leaves open. -/
structure EafEnv (α : Type*) where
  junkData : ℕ → α
  junkBits : ℕ → BitVec 64
  /-- `(size_t) ((double) maxsize * (1.0 + 1.0 / pow(2, nreallocs / 4.0)))`, arguments `nreallocs`, `maxsize` -/
  grow : ℕ → ℕ → ℕ

/-- `eaf_create`, c/eaf.c:80-96. -/
def eafCreate (V : EafEnv α) (nobj nruns npoints : ℕ) : EafT α :=
  let maxsize := 256 + npoints / (2 * nruns)
  ⟨nruns, 0, maxsize, 0, resize [] (maxsize * bitNwords nruns) V.junkBits, resize [] (nobj * maxsize) V.junkData⟩

/-- `eaf_realloc`, c/eaf.c:112-121; with size 0 the call `realloc(p, 0)` may return `NULL`, which fails the assertion. -/
def eafRealloc (V : EafEnv α) (e : EafT α) (nobj : ℕ) : Option (EafT α) :=
  if nobj * e.maxsize = 0 then none
  else some { e with
    data := resize e.data (nobj * e.maxsize) V.junkData
    bits := resize e.bits (e.maxsize * bitNwords e.nruns) V.junkBits }

/-- `eaf_store_point_help`, c/eaf.c:122-144, without the returned pointer, which is `data + nobj * size`.  `saved k ≠ 0` is the conversion to `bool`. -/
def eafStorePointHelp (V : EafEnv α) (e : EafT α) (nobj : ℕ) (saved : ℕ → ℤ) : Option (EafT α) :=
  match (if e.size = e.maxsize then
      if e.size < 2147483647 / 2 then
        eafRealloc V { e with maxsize := V.grow e.nreallocs e.maxsize + 100, nreallocs := e.nreallocs + 1 } nobj
      else none
    else some e) with
  | none => none
  | some e =>
    match bitStoreRow e.nruns e.size (fun k => (saved k).natAbs) e.nruns e.bits with
    | none => none
    | some bits => some { e with bits := bits }

/-- `pos[0] = p 0; ...; pos[k-1] = p (k-1)` with `pos` at index `b` of the block; checked. -/
def writeCoords (b : ℕ) (p : ℕ → α) : ℕ → List α → Option (List α)
  | 0, l => some l
  | k + 1, l =>
    match writeCoords b p k l with
    | none => none
    | some l => if b + k < l.length then some (l.set (b + k) (p k)) else none

/-- `eaf_store_point_2d`, c/eaf.c:156-165 (`nobj = 2`) and `eaf_store_point_3d`, c/eaf3d.c:766-776 (`nobj = 3`). -/
def eafStorePoint (V : EafEnv α) (nobj : ℕ) (e : EafT α) (p : ℕ → α) (saved : ℕ → ℤ) : Option (EafT α) :=
  match eafStorePointHelp V e nobj saved with
  | none => none
  | some e =>
    match writeCoords (nobj * e.size) p nobj e.data with
    | none => none
    | some data => some { e with data := data, size := e.size + 1 }

/-- The calls of `eaf_store_point` made by the sweep, one after the other. -/
def eafStoreAll (V : EafEnv α) (nobj : ℕ) : List ((ℕ → α) × (ℕ → ℤ)) → EafT α → Option (EafT α)
  | [], e => some e
  | r :: rs, e =>
    match eafStorePoint V nobj e r.1 r.2 with
    | none => none
    | some e => eafStoreAll V nobj rs e

/-- `eaf_adjust_memory`, c/eaf.c:146-154. -/
def eafAdjustMemory (V : EafEnv α) (e : EafT α) (nobj : ℕ) : Option (EafT α) :=
  if e.size < e.maxsize then eafRealloc V { e with maxsize := e.size } nobj else some e

/-- One attainment surface of `eaf2d` in memory: c/eaf.c:360, 419-420 for every stored point, 423. -/
def eafSurface2d [LinearOrder α] (V : EafEnv α) (nruns npoints : ℕ) (out : List (α × α × (ℕ → ℤ))) : Option (EafT α) :=
  match eafStoreAll V 2 (out.map (fun o => ((fun d => if d = 0 then o.1 else o.2.1), o.2.2))) (eafCreate V 2 nruns npoints) with
  | none => none
  | some e => eafAdjustMemory V e 2

/-- The loop over the points of one level in `eaf2matrix`, c/eaf.c:247-253: the rows written for points `0 .. size-1`, each with `nobj` coordinates
followed by the percentile.  The writes `rmat[j + pos * ncol]` are sequential; they are modelled by the list of the rows. -/
def eafRows (e : EafT α) (nobj : ℕ) (p : α) : Option (List (List α)) :=
  (List.range e.size).mapM (fun i => ((List.range nobj).mapM (fun j => e.data[j + i * nobj]?)).map (fun c => c ++ [p]))

/-- `eaf2matrix`, c/eaf.c:239-256, as a list of rows (the flat layout is in Verif/Model/Matrix.lean); `perc k` is the percentile of level number `k`. -/
def eafMatrixRows (nobj : ℕ) (perc : ℕ → α) : ℕ → List (EafT α) → Option (List (List α))
  | _, [] => some []
  | k, e :: es =>
    match eafRows e nobj (perc k), eafMatrixRows nobj perc (k + 1) es with
    | some r, some rs => some (r ++ rs)
    | _, _ => none

/-- `eaf_compute_matrix`, c/eaf.c:258-272, for two objectives. -/
def eafComputeMatrix2d [LinearOrder α] (V : EafEnv α) (pts : ℕ → ℕ → α) (cumsize : ℕ → ℕ) (nruns : ℕ) (level : List ℤ) (perc : ℕ → α)
    (sx sy : List ℕ) (fuel : ℕ) : Option (List (List α)) :=
  match eaf2d pts cumsize nruns level sx sy fuel with
  | none => none
  | some outs =>
    match outs.mapM (fun out => eafSurface2d V nruns (cumsize (nruns - 1)) out) with
    | none => none
    | some es => eafMatrixRows 2 perc 0 es

end Moo
