import Mathlib.Data.Int.Notation
import Mathlib.Data.Nat.Notation

/-!
# Model of the integer arithmetic of the C code: sizes of blocks and subscripts

`int` has 32 bits and `size_t` 64.  An operation on two `int` whose result is not an `int` is undefined behaviour (`none`); if one operand is a
`size_t`, the other is converted and the result is reduced modulo 2^64.
-/

set_option autoImplicit false

namespace Moo

/-- The two integer types. -/
inductive CTy
  | int
  | size
deriving DecidableEq

/-- The operators that occur in sizes and subscripts. -/
inductive COp
  | add
  | sub
  | mul
deriving DecidableEq

/-- The operator on the integers. -/
def COp.app : COp → ℤ → ℤ → ℤ
  | .add, a, b => a + b
  | .sub, a, b => a - b
  | .mul, a, b => a * b

/-- An `int` result: undefined if it is not representable. -/
def cint (z : ℤ) : Option ℤ := if -2 ^ 31 ≤ z ∧ z < 2 ^ 31 then some z else none

/-- Conversion to `int` of a value that may not be representable, as all compilers in use do it: modulo 2^32. -/
def wrapInt (z : ℤ) : ℤ := (z + 2 ^ 31) % 2 ^ 32 - 2 ^ 31

/-- Expressions.  `sizeof` has type `size_t`. -/
inductive CExpr
  | lit (z : ℤ)
  | ivar (x : String)
  | zvar (x : String)
  | sizeof (bytes : ℕ)
  | bin (op : COp) (a b : CExpr)

/-- The type of an expression: the usual arithmetic conversions. -/
def CExpr.ty : CExpr → CTy
  | .lit _ => .int
  | .ivar _ => .int
  | .zvar _ => .size
  | .sizeof _ => .size
  | .bin _ a b => if a.ty = .int ∧ b.ty = .int then .int else .size

/-- The value of an expression in C; `none` is undefined behaviour. -/
def CExpr.eval (env : String → ℤ) : CExpr → Option ℤ
  | .lit z => some z
  | .ivar x => some (env x)
  | .zvar x => some (env x)
  | .sizeof b => some b
  | .bin op a b => do
    let x ← a.eval env
    let y ← b.eval env
    if a.ty = .int ∧ b.ty = .int then cint (op.app x y) else some (op.app (x % 2 ^ 64) (y % 2 ^ 64) % 2 ^ 64)

section

open CExpr COp

/-- `a + b`, `a - b`, `a * b`. -/
def cadd (a b : CExpr) : CExpr := .bin .add a b
def csub (a b : CExpr) : CExpr := .bin .sub a b
def cmul (a b : CExpr) : CExpr := .bin .mul a b

/-- `n + 1` -/
def cn1 : CExpr := cadd (ivar "n") (lit 1)

/-- c/hv.c:530-553 `setup_cdllist`: the sizes of the blocks, with `sizeof(dlnode_t)` = 56 and `sizeof(avl_node_t)` = 56 on a 64-bit machine:
`head`, `next`, `prev`, `tnode`, `area`, `vol`, `scratch`. -/
def hvAllocs : List CExpr :=
  [cmul cn1 (sizeof 56), cmul (cmul (ivar "d") cn1) (sizeof 8), cmul (cmul (ivar "d") cn1) (sizeof 8), cmul cn1 (sizeof 56),
   cmul (cmul (ivar "d") cn1) (sizeof 8), cmul (cmul (ivar "d") cn1) (sizeof 8), cmul (ivar "n") (sizeof 8)]

/-- c/hv.c:855 `malloc (n * sizeof(double *))` of `hv2d`. -/
def hv2dAlloc : CExpr := cmul (ivar "n") (sizeof 8)

/-- c/hv.c:858 `data + 2 * k` of `hv2d`; `data + nobj * k` of `eaf2d` (c/eaf.c:313). -/
def hv2dIndex : CExpr := cmul (lit 2) (ivar "k")

/-- The subscript `i * dim + d` with three variables of type `int`: c/epsilon.h:47-53, 84-86, c/igd.h:73-74, c/nondominated.h:39, 336, c/nondominated.c:251,
c/ndsort.c:108, 114, c/whv.c:34-43, 64 (`dim` = `ncol` = 5), c/whv_hype.c:65-74, 89 (`nobj` = 2). -/
def rowIndex : CExpr := cadd (cmul (ivar "i") (ivar "dim")) (ivar "d")

/-- The beginning of a row, `points + i * dim`, with two variables of type `int`: c/nondominated.h:190-191, 307, 357, c/pareto.c:50, 227-228, c/hv_contrib.c:26-31,
c/dominatedsets.c:216-217, 443, c/epsilon.c:145-148, c/igd.c:195, c/main-hv.c:279-280, c/whv_hype.c:169, 173. -/
def rowStart : CExpr := cmul (ivar "i") (ivar "dim")

/-- c/hv.c:886 `data[i * d + k]` of `shift_reference`, where all variables are of type `size_t`. -/
def shiftIndex : CExpr := cadd (cmul (zvar "i") (zvar "dim")) (zvar "d")

/-- `malloc (sizeof (double) * size * dim)`: c/nondominated.h:301, c/eaf.c:267 (with `nobj + 1` columns), c/eafdiff.c:22, 52, c/whv.c:58, c/whv_hype.c:38, 58, 85, 221. -/
def matrixAlloc : CExpr := cmul (cmul (sizeof 8) (ivar "size")) (ivar "dim")

end

/-- c/eaf.h:88-94 `eaf_totalpoints`; the `size_t` sizes are converted to `int`. -/
def eafTotalInt (sizes : List ℕ) : Option ℤ := sizes.foldlM (fun total (s : ℕ) => cint (total + wrapInt s)) 0

/-- The loops over the points of one level: the subscripts of one row after the other; `pos++` at the end of a row. -/
def idxRows (row : ℤ → Option (List ℤ)) : ℕ → ℤ → Option (List ℤ × ℤ)
  | 0, pos => some ([], pos)
  | n + 1, pos => do
    let r ← row pos
    let pos' ← cint (pos + 1)
    let q ← idxRows row n pos'
    some (r ++ q.1, q.2)

/-- The loops over the levels. -/
def idxLevels (row : ℤ → Option (List ℤ)) : List ℕ → ℤ → Option (List ℤ)
  | [], _ => some []
  | s :: rest, pos => do
    let q ← idxRows row s pos
    let l ← idxLevels row rest q.2
    some (q.1 ++ l)

/-- c/eaf.c:249-252 `rmat[j + pos * ncol]` for `j < nobj` and `rmat[nobj + pos * ncol]`. -/
def idxRow (nobj : ℕ) (ncol : ℤ) (pos : ℤ) : Option (List ℤ) :=
  (List.range (nobj + 1)).mapM fun (j : ℕ) => do
    let t ← cint (pos * ncol)
    cint ((j : ℤ) + t)

/-- c/eaf.c:239-256 `eaf2matrix`: the subscripts of `rmat`, in the order in which they are used; `sizes` are the `eaf[k]->size`. -/
def eaf2matrixIdx (nobj : ℕ) (sizes : List ℕ) : Option (List ℤ) := do
  let ncol ← cint ((nobj : ℤ) + 1)
  idxLevels (idxRow nobj ncol) sizes 0

/-- c/eaf.c:230-233 `rmat[pos + j * totalpoints]` for `j < nobj` and `rmat[pos + nobj * totalpoints]`. -/
def idxRowR (nobj : ℕ) (total : ℤ) (pos : ℤ) : Option (List ℤ) :=
  (List.range (nobj + 1)).mapM fun (j : ℕ) => do
    let t ← cint ((j : ℤ) * total)
    cint (pos + t)

/-- c/eaf.c:221-237 `eaf2matrix_R`, with the `totalpoints` of `compute_eaf_C` (r/src/Rmoocore.c:52-55). -/
def eaf2matrixRIdx (nobj : ℕ) (sizes : List ℕ) : Option (List ℤ) := do
  let total ← eafTotalInt sizes
  idxLevels (idxRowR nobj total) sizes 0

/-- c/io_priv.h:104-110, once for each number that is read; `DATA_INC` is the `size_t` 4096 / 8.  `none` is a write through the null pointer that `realloc`
returns if the size is larger than `PTRDIFF_MAX`, or an overflow of `ntotal`.  Returns `ntotal` and `datasize`. -/
def readCap : ℕ → ℤ → ℤ → Option (ℤ × ℤ)
  | 0, ntotal, datasize => some (ntotal, datasize)
  | k + 1, ntotal, datasize => do
    let datasize' := if ntotal = datasize then wrapInt ((datasize % 2 ^ 64 + 4096 / 8) % 2 ^ 64) else datasize
    if ntotal = datasize ∧ (datasize' % 2 ^ 64 * 8) % 2 ^ 64 > 2 ^ 63 - 1 then none else
    let ntotal' ← cint (ntotal + 1)
    readCap k ntotal' datasize'

end Moo
