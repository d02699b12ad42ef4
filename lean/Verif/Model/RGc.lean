import Mathlib.Data.List.Basic
import Mathlib.Data.Int.Notation

/-!
# Model of the C functions of the R package, r/src/Rmoocore.c, as programs on R objects

What is modelled: which R objects the functions allocate, protect, read, write, put into each other and return, which blocks they get from `malloc` and release, where
they stop with `Rf_error`, and the garbage collector of R, which may run whenever R allocates memory and may release any object that R cannot reach (R extensions manual,
section "Handling the effects of garbage collection").  The numbers in the objects are not modelled here; sizes that the library computes
are parameters.  `malloc` succeeds.  A block that is released is not allocated again, so that every later use of it is an error of the model.
-/

set_option autoImplicit false

namespace Moo

/-- The types of R objects that occur: NULL, double, integer, logical, character strings, the elements of the latter, lists. -/
inductive RKind
  | nil | real | int | lgl | str | chr | vec
  deriving DecidableEq, Repr

/-- An R object.  `nrow` and `ncol` are the dimensions of a matrix, `isMat` says that it is one, `na` that `Rf_asInteger` and `Rf_asLogical` give NA;
`elts` are the elements (of lists and of vectors of strings) and `attrs` the attributes, both as numbers of objects. -/
structure RObj where
  kind : RKind
  len : ℕ
  isMat : Bool := false
  nrow : ℕ := 0
  ncol : ℕ := 0
  na : Bool := false
  elts : List ℕ := []
  attrs : List (String × ℕ) := []
  deriving DecidableEq, Repr

/-- The state of R: the objects that exist (`none`: never allocated or released), the number of the next object, the stack of protected objects
(the top first), the blocks from `malloc` that have not been released, the number of the next block, and the objects that R keeps whatever the C function does (the
arguments of `.Call`, NULL and all that R uses elsewhere). -/
structure RSt where
  obj : ℕ → Option RObj
  next : ℕ
  pst : List ℕ
  blocks : List ℕ
  bnext : ℕ
  keep : ℕ → Prop

/-- What must not happen: the use of an object that the collector has released, an index outside of an object, `UNPROTECT` of more than is protected, the use or
release of a block that is not allocated, a failing assertion. -/
inductive RUb
  | released | outOfBounds | protectStack | badBlock | assertion
  deriving DecidableEq, Repr

/-- Programs: `pure a`, `Rf_error`, or an operation of R or of the C library followed by a program. -/
inductive RProg (α : Type) : Type
  | pure (a : α) : RProg α
  /-- `Rf_error`: control goes back to R. -/
  | jump : RProg α
  /-- A failing assertion. -/
  | abort : RProg α
  /-- `Rf_allocVector`, `Rf_allocMatrix`, `Rf_mkChar`, `Rf_ScalarReal`: the collector may run, and R may fail with an error. -/
  | alloc (o : RObj) (next : ℕ → RProg α) : RProg α
  /-- `PROTECT`. -/
  | protect (x : ℕ) (next : RProg α) : RProg α
  /-- `UNPROTECT`. -/
  | unprotect (n : ℕ) (next : RProg α) : RProg α
  /-- `Rf_isReal`, `Rf_length`, `Rf_nrows`, `Rf_asInteger`, `REAL`, ... and the reading of the data of an argument. -/
  | inspect (x : ℕ) (next : RObj → RProg α) : RProg α
  /-- Write to element `i` of the data. -/
  | write (x i : ℕ) (next : RProg α) : RProg α
  /-- `SET_VECTOR_ELT`, `SET_STRING_ELT`. -/
  | setElt (x i y : ℕ) (next : RProg α) : RProg α
  /-- `Rf_setAttrib`: the collector may run, R protects the arguments; R may fail with an error. -/
  | setAttr (x : ℕ) (a : String) (y : ℕ) (next : RProg α) : RProg α
  /-- `Rf_getAttrib`: the value of an attribute (`none`: `R_NilValue`). -/
  | getAttr (x : ℕ) (a : String) (next : Option ℕ → RProg α) : RProg α
  /-- `Rf_install`: the collector may run, R may fail with an error. -/
  | install (next : RProg α) : RProg α
  /-- `malloc`. -/
  | malloc (next : ℕ → RProg α) : RProg α
  /-- Use of a block. -/
  | useB (b : ℕ) (next : RProg α) : RProg α
  /-- `free`. -/
  | free (b : ℕ) (next : RProg α) : RProg α

/-- Sequencing of programs. -/
def RProg.bind {α β : Type} : RProg α → (α → RProg β) → RProg β
  | .pure a, f => f a
  | .jump, _ => .jump
  | .abort, _ => .abort
  | .alloc o k, f => .alloc o (fun x => (k x).bind f)
  | .protect x k, f => .protect x (k.bind f)
  | .unprotect n k, f => .unprotect n (k.bind f)
  | .inspect x k, f => .inspect x (fun o => (k o).bind f)
  | .write x i k, f => .write x i (k.bind f)
  | .setElt x i y k, f => .setElt x i y (k.bind f)
  | .setAttr x a y k, f => .setAttr x a y (k.bind f)
  | .getAttr x a k, f => .getAttr x a (fun o => (k o).bind f)
  | .install k, f => .install (k.bind f)
  | .malloc k, f => .malloc (fun b => (k b).bind f)
  | .useB b k, f => .useB b (k.bind f)
  | .free b k, f => .free b (k.bind f)

instance : Monad RProg where
  pure := RProg.pure
  bind := RProg.bind

/-! ## The garbage collector and the executions -/

/-- What R can reach: the objects that it keeps, the protected ones, the arguments `extra` of the R function that is running, and what these refer to. -/
inductive RReach (s : RSt) (extra : List ℕ) : ℕ → Prop
  | keep {x : ℕ} : s.keep x → RReach s extra x
  | prot {x : ℕ} : x ∈ s.pst → RReach s extra x
  | arg {x : ℕ} : x ∈ extra → RReach s extra x
  | elt {x y : ℕ} {o : RObj} : RReach s extra x → s.obj x = some o → y ∈ o.elts → RReach s extra y
  | attr {x y : ℕ} {o : RObj} {a : String} : RReach s extra x → s.obj x = some o → (a, y) ∈ o.attrs → RReach s extra y

/-- A run of the garbage collector: some of the objects that cannot be reached are released, possibly none, possibly all. -/
def RGcStep (s : RSt) (extra : List ℕ) (s' : RSt) : Prop :=
  ∃ obj, s' = { s with obj := obj } ∧ ∀ x, obj x = s.obj x ∨ (obj x = none ∧ ¬ RReach s extra x)

/-- The outcome of a program: a value, an error of R (with the state at that moment), or something that must not happen. -/
inductive ROut (α : Type) : Type
  | ret (a : α) (s : RSt)
  | err (s : RSt)
  | ub (e : RUb)

/-- The executions of a program, for every behaviour of the garbage collector; with `fail`, every function of R that allocates memory may also fail and jump back to R. -/
inductive RExec {α : Type} (fail : Bool) : RProg α → RSt → ROut α → Prop
  | pure {a : α} {s : RSt} : RExec fail (.pure a) s (.ret a s)
  | jump {s : RSt} : RExec fail .jump s (.err s)
  | abort {s : RSt} : RExec fail .abort s (.ub .assertion)
  | alloc {o : RObj} {k : ℕ → RProg α} {s s' : RSt} {r : ROut α} : RGcStep s [] s' →
      RExec fail (k s.next) { s' with obj := fun x => if x = s.next then some o else s'.obj x, next := s.next + 1 } r → RExec fail (.alloc o k) s r
  | allocFail {o : RObj} {k : ℕ → RProg α} {s s' : RSt} : fail = true → RGcStep s [] s' → RExec fail (.alloc o k) s (.err s')
  | protect {x : ℕ} {k : RProg α} {s : RSt} {r : ROut α} : (s.obj x).isSome → RExec fail k { s with pst := x :: s.pst } r → RExec fail (.protect x k) s r
  | protectUb {x : ℕ} {k : RProg α} {s : RSt} : s.obj x = none → RExec fail (.protect x k) s (.ub .released)
  | unprotect {n : ℕ} {k : RProg α} {s : RSt} {r : ROut α} : n ≤ s.pst.length → RExec fail k { s with pst := s.pst.drop n } r → RExec fail (.unprotect n k) s r
  | unprotectUb {n : ℕ} {k : RProg α} {s : RSt} : ¬ n ≤ s.pst.length → RExec fail (.unprotect n k) s (.ub .protectStack)
  | inspect {x : ℕ} {k : RObj → RProg α} {s : RSt} {o : RObj} {r : ROut α} : s.obj x = some o → RExec fail (k o) s r → RExec fail (.inspect x k) s r
  | inspectUb {x : ℕ} {k : RObj → RProg α} {s : RSt} : s.obj x = none → RExec fail (.inspect x k) s (.ub .released)
  | write {x i : ℕ} {k : RProg α} {s : RSt} {o : RObj} {r : ROut α} : s.obj x = some o → i < o.len → RExec fail k s r → RExec fail (.write x i k) s r
  | writeUb {x i : ℕ} {k : RProg α} {s : RSt} : s.obj x = none → RExec fail (.write x i k) s (.ub .released)
  | writeOob {x i : ℕ} {k : RProg α} {s : RSt} {o : RObj} : s.obj x = some o → ¬ i < o.len → RExec fail (.write x i k) s (.ub .outOfBounds)
  | setElt {x i y : ℕ} {k : RProg α} {s : RSt} {o : RObj} {r : ROut α} : s.obj x = some o → i < o.len → (s.obj y).isSome →
      RExec fail k { s with obj := fun z => if z = x then some { o with elts := y :: o.elts } else s.obj z } r → RExec fail (.setElt x i y k) s r
  | setEltUb {x i y : ℕ} {k : RProg α} {s : RSt} : s.obj x = none ∨ s.obj y = none → RExec fail (.setElt x i y k) s (.ub .released)
  | setEltOob {x i y : ℕ} {k : RProg α} {s : RSt} {o : RObj} : s.obj x = some o → ¬ i < o.len → RExec fail (.setElt x i y k) s (.ub .outOfBounds)
  | setAttr {x y : ℕ} {a : String} {k : RProg α} {s s' : RSt} {o : RObj} {r : ROut α} : s.obj x = some o → (s.obj y).isSome → RGcStep s [x, y] s' →
      RExec fail k { s' with obj := fun z => if z = x then some { o with attrs := (a, y) :: o.attrs } else s'.obj z } r → RExec fail (.setAttr x a y k) s r
  | setAttrFail {x y : ℕ} {a : String} {k : RProg α} {s s' : RSt} {o : RObj} : fail = true → s.obj x = some o → (s.obj y).isSome → RGcStep s [x, y] s' →
      RExec fail (.setAttr x a y k) s (.err s')
  | setAttrUb {x y : ℕ} {a : String} {k : RProg α} {s : RSt} : s.obj x = none ∨ s.obj y = none → RExec fail (.setAttr x a y k) s (.ub .released)
  | getAttr {x : ℕ} {a : String} {k : Option ℕ → RProg α} {s : RSt} {o : RObj} {r : ROut α} : s.obj x = some o → RExec fail (k (o.attrs.lookup a)) s r → RExec fail (.getAttr x a k) s r
  | getAttrUb {x : ℕ} {a : String} {k : Option ℕ → RProg α} {s : RSt} : s.obj x = none → RExec fail (.getAttr x a k) s (.ub .released)
  | install {k : RProg α} {s s' : RSt} {r : ROut α} : RGcStep s [] s' → RExec fail k s' r → RExec fail (.install k) s r
  | installFail {k : RProg α} {s s' : RSt} : fail = true → RGcStep s [] s' → RExec fail (.install k) s (.err s')
  | malloc {k : ℕ → RProg α} {s : RSt} {r : ROut α} : RExec fail (k s.bnext) { s with blocks := s.bnext :: s.blocks, bnext := s.bnext + 1 } r → RExec fail (.malloc k) s r
  | useB {b : ℕ} {k : RProg α} {s : RSt} {r : ROut α} : b ∈ s.blocks → RExec fail k s r → RExec fail (.useB b k) s r
  | useBUb {b : ℕ} {k : RProg α} {s : RSt} : b ∉ s.blocks → RExec fail (.useB b k) s (.ub .badBlock)
  | free {b : ℕ} {k : RProg α} {s : RSt} {r : ROut α} : b ∈ s.blocks → RExec fail k { s with blocks := s.blocks.erase b } r → RExec fail (.free b k) s r
  | freeUb {b : ℕ} {k : RProg α} {s : RSt} : b ∉ s.blocks → RExec fail (.free b k) s (.ub .badBlock)

/-! ## The operations as programs -/

namespace RP

/-- `Rf_allocMatrix(REALSXP, n, m)`. -/
def allocMatrix (n m : ℕ) : RProg ℕ := .alloc { kind := .real, len := n * m, isMat := true, nrow := n, ncol := m } .pure

/-- `Rf_allocVector`, `Rf_mkChar`, `Rf_ScalarReal`. -/
def allocVector (k : RKind) (n : ℕ) : RProg ℕ := .alloc { kind := k, len := n } .pure

def protect (x : ℕ) : RProg Unit := .protect x (.pure ())
def unprotect (n : ℕ) : RProg Unit := .unprotect n (.pure ())
def inspect (x : ℕ) : RProg RObj := .inspect x .pure
def write (x i : ℕ) : RProg Unit := .write x i (.pure ())
def setElt (x i y : ℕ) : RProg Unit := .setElt x i y (.pure ())
def setAttr (x : ℕ) (a : String) (y : ℕ) : RProg Unit := .setAttr x a y (.pure ())
def getAttr (x : ℕ) (a : String) : RProg (Option ℕ) := .getAttr x a .pure
def install : RProg Unit := .install (.pure ())
def malloc : RProg ℕ := .malloc .pure
def useB (b : ℕ) : RProg Unit := .useB b (.pure ())
def free (b : ℕ) : RProg Unit := .free b (.pure ())

/-- `if (c) Rf_error(...)`. -/
def errorIf (c : Bool) : RProg Unit := if c then .jump else .pure ()

/-- `assert (c)`. -/
def assert (c : Bool) : RProg Unit := if c then .pure () else .abort

/-- `for`, over a list of values of the index. -/
def forL {ι : Type} (f : ι → RProg Unit) : List ι → RProg Unit
  | [] => .pure ()
  | i :: l => (f i).bind (fun _ => forL f l)

/-- `SEXP_2_INT_VECTOR`, r/src/Rcommon.h:94-97; the length. -/
def intVector (x : ℕ) : RProg ℕ := do
  let o ← inspect x
  errorIf (decide (o.kind ≠ .int))
  return o.len

/-- `SEXP_2_DOUBLE_VECTOR`, r/src/Rcommon.h:79-85; the length. -/
def doubleVector (x : ℕ) : RProg ℕ := do
  let o ← inspect x
  errorIf (decide (o.kind ≠ .real))
  return o.len

/-- `SEXP_2_DOUBLE_VECTOR_OR_NULL`, r/src/Rcommon.h:79-86; `none` for NULL. -/
def doubleVectorOrNull (x : ℕ) : RProg (Option ℕ) := do
  let o ← inspect x
  if o.kind = .nil then return none else
  errorIf (decide (o.kind ≠ .real))
  return some o.len

/-- `SEXP_2_DOUBLE_MATRIX`, r/src/Rcommon.h:88-92; the dimensions. -/
def doubleMatrix (x : ℕ) : RProg (ℕ × ℕ) := do
  let o ← inspect x
  errorIf (decide (o.kind ≠ .real) || !o.isMat)
  return (o.nrow, o.ncol)

/-- `SEXP_2_LOGICAL_BOOL_VECTOR`, r/src/Rcommon.h:104-109: a block with a copy; the block and the length. -/
def boolVector (x : ℕ) : RProg (ℕ × ℕ) := do
  let o ← inspect x
  errorIf (decide (o.kind ≠ .lgl))
  let b ← malloc
  useB b
  return (b, o.len)

/-- `SEXP_2_INT`, `SEXP_2_UINT32`, `SEXP_2_LOGICAL`, r/src/Rcommon.h:112-125. -/
def scalar (x : ℕ) : RProg Unit := do
  let o ← inspect x
  errorIf o.na

/-- `SEXP_2_STRING`, r/src/Rcommon.h:127-130. -/
def string (x : ℕ) : RProg Unit := do
  let o ← inspect x
  errorIf (decide (o.kind ≠ .str) || decide (o.len ≠ 1))

/-- `string_vector_push_back`, r/src/Rcommon.h:54-56. -/
def pushString (v i : ℕ) : RProg Unit := do
  let c ← allocVector .chr 0
  setElt v i c

/-- `set_colnames`, r/src/Rcommon.h:139-157, of the matrix `m` with `n` names; `nil` is `R_NilValue`. -/
def setColnames (nil m n : ℕ) : RProg Unit := do
  let names ← allocVector .str n
  protect names
  forL (pushString names) (List.range n)
  let dim ← getAttr m "dimnames"
  match dim with
  | some d =>
    protect d
    setElt d 1 names
    setAttr m "dimnames" d
    unprotect 2
  | none =>
    protect nil
    let d ← allocVector .vec 2
    protect d
    setElt d 1 names
    setAttr m "dimnames" d
    unprotect 3

/-- `compute_eaf_helper`, r/src/Rmoocore.c:8-40: the block with the surfaces. -/
def eafHelper (DATA : ℕ) : RProg ℕ := do
  let _ ← inspect DATA
  let level ← malloc
  useB level
  let eaf ← malloc
  free level
  return eaf

/-- `compute_eaf_C`, r/src/Rmoocore.c:42-58.  `tp` is the result of `eaf_totalpoints`; the loops over the surfaces and their points are one loop over the rows. -/
def computeEaf (tp : ℕ) (DATA CUMSIZES PERCENTILE : ℕ) : RProg ℕ := do
  let d ← inspect DATA
  let _ ← intVector CUMSIZES
  let _ ← doubleVectorOrNull PERCENTILE
  let eaf ← eafHelper DATA
  useB eaf
  let mat ← allocMatrix tp (d.nrow + 1)
  protect mat
  useB eaf
  let _ ← inspect PERCENTILE
  forL (fun pos => forL (fun j => write mat (pos + j * tp)) (List.range (d.nrow + 1))) (List.range tp)
  free eaf
  unprotect 1
  return mat

/-- `compute_eafdiff_C`, r/src/Rmoocore.c:60-101. -/
def computeEafdiff (tp : ℕ) (DATA CUMSIZES INTERVALS : ℕ) : RProg ℕ := do
  let d ← inspect DATA
  let _ ← intVector CUMSIZES
  scalar INTERVALS
  let eaf ← eafHelper DATA
  useB eaf
  let mat ← allocMatrix tp (d.nrow + 1)
  protect mat
  useB eaf
  forL (fun pos => forL (fun j => write mat (pos + j * tp)) (List.range d.nrow)) (List.range tp)
  forL (fun i => write mat (tp + (d.nrow - 1) * tp + i)) (List.range tp)
  free eaf
  unprotect 1
  return mat

/-- `compute_eafdiff_rectangles_C`, r/src/Rmoocore.c:127-165; `nrow` is the number of rectangles. -/
def computeRectangles (nil nrow : ℕ) (DATA CUMSIZES INTERVALS : ℕ) : RProg ℕ := do
  let d ← inspect DATA
  let _ ← intVector CUMSIZES
  scalar INTERVALS
  let eaf ← eafHelper DATA
  useB eaf
  let rects ← malloc
  let xy ← malloc
  let col ← malloc
  free eaf
  useB rects
  let result ← allocMatrix nrow (2 * d.nrow + 1)
  protect result
  useB xy
  forL (fun k => forL (fun i => write result (k + nrow * i)) (List.range (2 * d.nrow))) (List.range nrow)
  free xy
  useB col
  forL (fun k => write result (k + nrow * 2 * d.nrow)) (List.range nrow)
  free col
  free rects
  setColnames nil result 5
  unprotect 1
  return result

/-- The second pass of `compute_eafdiff_polygon_C`, r/src/Rmoocore.c:214-234, over the polygons with their colours (truncated) and numbers of points (with the
terminator); `polygon_copy` (l. 113-125) writes one row per point.  The arguments are `left_len`, `right_len`, `left_ncol`, `right_ncol`. -/
def polyFill (left right leftCol rightCol leftN rightN : ℕ) : List (ℤ × ℕ) → ℕ → ℕ → ℕ → ℕ → RProg Unit
  | [], _, _, _, _ => .pure ()
  | (color, len) :: ps, ll, rl, lc, rc =>
    if 1 ≤ color then do
      forL (fun i => do write left (ll + i); write left (ll + i + leftN)) (List.range len)
      write leftCol lc
      polyFill left right leftCol rightCol leftN rightN ps (ll + len) rl (lc + 1) rc
    else do
      forL (fun i => do write right (rl + i); write right (rl + i + rightN)) (List.range len)
      write rightCol rc
      polyFill left right leftCol rightCol leftN rightN ps ll (rl + len) lc (rc + 1)

/-- The first pass, r/src/Rmoocore.c:183-201: `left_ncol`, `right_ncol`, `left_len`, `right_len`. -/
def polyCount : List (ℤ × ℕ) → ℕ × ℕ × ℕ × ℕ
  | [] => (0, 0, 0, 0)
  | (color, len) :: ps =>
    let c := polyCount ps
    if 1 ≤ color then (c.1 + 1, c.2.1, c.2.2.1 + len, c.2.2.2) else (c.1, c.2.1 + 1, c.2.2.1, c.2.2.2 + len)

/-- `compute_eafdiff_polygon_C`, r/src/Rmoocore.c:167-257.  `ps` are the polygons of `eaf_compute_area` with truncated colours. -/
def computePolygon (ps : List (ℤ × ℕ)) (DATA CUMSIZES INTERVALS : ℕ) : RProg ℕ := do
  let d ← inspect DATA
  let _ ← intVector CUMSIZES
  scalar INTERVALS
  let eaf ← eafHelper DATA
  useB eaf
  let p ← malloc
  let xy ← malloc
  let col ← malloc
  free eaf
  useB xy
  useB col
  let c := polyCount ps
  let leftCol ← allocVector .real c.1
  protect leftCol
  let rightCol ← allocVector .real c.2.1
  protect rightCol
  let left ← allocMatrix c.2.2.1 d.nrow
  protect left
  let right ← allocMatrix c.2.2.2 d.nrow
  protect right
  useB xy
  useB col
  polyFill left right leftCol rightCol c.2.2.1 c.2.2.2 ps 0 0 0 0
  free col
  free xy
  free p
  install
  setAttr left "col" leftCol
  install
  setAttr right "col" rightCol
  let poly ← allocVector .vec 2
  protect poly
  setElt poly 0 left
  setElt poly 1 right
  let names ← allocVector .str 2
  protect names
  pushString names 0
  pushString names 1
  setAttr poly "names" names
  unprotect 6
  return poly

/-- `R_read_datasets`, r/src/Rmoocore.c:259-288, when the file has been read; `ntotal` rows of `nobj` values. -/
def readDatasets (ntotal nobj : ℕ) (FILENAME : ℕ) : RProg ℕ := do
  string FILENAME
  let data ← malloc
  let cumsizes ← malloc
  useB cumsizes
  let DATA ← allocMatrix ntotal (nobj + 1)
  protect DATA
  useB data
  forL (fun i => write DATA i) (List.range (ntotal * nobj))
  useB cumsizes
  forL (fun k => write DATA (ntotal * nobj + k)) (List.range ntotal)
  free data
  free cumsizes
  unprotect 1
  return DATA

/-- `normalise_C`, r/src/Rmoocore.c:292-315; `nil` is `R_NilValue`. -/
def normalise (nil : ℕ) (DATA RANGE LBOUND UBOUND MAXIMISE : ℕ) : RProg ℕ := do
  let d ← doubleMatrix DATA
  let r ← doubleVector RANGE
  let lb ← doubleVector LBOUND
  let ub ← doubleVector UBOUND
  let mx ← boolVector MAXIMISE
  assert (d.1 == lb)
  assert (d.1 == ub)
  assert (d.1 == mx.2)
  assert (r == 2)
  useB mx.1
  forL (fun i => write DATA i) (List.range (d.1 * d.2))
  free mx.1
  unprotect 0
  return nil

/-- `is_nondominated_C`, r/src/Rmoocore.c:317-335. -/
def isNondominated (DATA MAXIMISE KEEP_WEAKLY : ℕ) : RProg ℕ := do
  let d ← doubleMatrix DATA
  let mx ← boolVector MAXIMISE
  scalar KEEP_WEAKLY
  assert (d.1 == mx.2)
  useB mx.1
  let _ ← inspect DATA
  let nd ← malloc
  free mx.1
  let res ← allocVector .lgl d.2
  protect res
  useB nd
  forL (fun i => write res i) (List.range d.2)
  free nd
  unprotect 1
  return res

/-- `pareto_ranking_C`, r/src/Rmoocore.c:337-353. -/
def paretoRanking (DATA : ℕ) : RProg ℕ := do
  let d ← doubleMatrix DATA
  let rank ← allocVector .int d.2
  protect rank
  let _ ← inspect DATA
  let rank2 ← malloc
  useB rank2
  forL (fun i => write rank i) (List.range d.2)
  free rank2
  unprotect 1
  return rank

/-- `hypervolume_C`, r/src/Rmoocore.c:358-367. -/
def hypervolume (DATA REFERENCE : ℕ) : RProg ℕ := do
  let d ← doubleMatrix DATA
  let r ← doubleVector REFERENCE
  assert (d.1 == r)
  allocVector .real 1

/-- `hv_contributions_C`, r/src/Rmoocore.c:369-380. -/
def hvContributions (DATA REFERENCE : ℕ) : RProg ℕ := do
  let d ← doubleMatrix DATA
  let r ← doubleVector REFERENCE
  assert (d.1 == r)
  let hv ← allocVector .real d.2
  protect hv
  let _ ← inspect DATA
  let _ ← inspect REFERENCE
  forL (fun i => write hv i) (List.range d.2)
  unprotect 1
  return hv

/-- `rect_weighted_hv2d_C`, r/src/Rmoocore.c:384-395. -/
def rectWeightedHv2d (DATA RECTANGLES REFERENCE : ℕ) : RProg ℕ := do
  let _ ← doubleMatrix DATA
  let rc ← doubleMatrix RECTANGLES
  let r ← doubleVector REFERENCE
  assert (rc.1 == 5)
  assert (r == 2)
  allocVector .real 1

/-- `whv_hype_C`, r/src/Rmoocore.c:399-426; `dist` says whether the string is known. -/
def whvHype (dist : Bool) (DATA IDEAL REFERENCE NSAMPLES DIST SEED MU : ℕ) : RProg ℕ := do
  let _ ← doubleMatrix DATA
  let i ← doubleVector IDEAL
  let r ← doubleVector REFERENCE
  scalar NSAMPLES
  assert (r == i)
  assert (r == 2)
  string DIST
  scalar SEED
  errorIf (!dist)
  let _ ← inspect MU
  allocVector .real 1

/-- `unary_metric_ref`, r/src/Rmoocore.c:440-478; `extra` is the argument of the averaged Hausdorff distance. -/
def unaryMetric (extra : Option ℕ) (DATA REFERENCE MAXIMISE : ℕ) : RProg ℕ := do
  let d ← doubleMatrix DATA
  let _ ← inspect REFERENCE
  let mx ← boolVector MAXIMISE
  assert (d.1 == mx.2)
  match extra with
  | some p => scalar p
  | none => .pure ()
  useB mx.1
  free mx.1
  allocVector .real 1

end RP

end Moo
