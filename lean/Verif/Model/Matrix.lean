import Verif.Model.Basic
import Mathlib.Algebra.Order.Field.Basic

/-!
# Model of matrix layout code: `matrix_transpose_double` (c/common.h) and `eaf2matrix`, `eaf2matrix_R` (c/eaf.c)

Arrays are functions from the flat index.  The state threads the array and the running `pos`.
-/

set_option autoImplicit false

namespace Moo

variable {α : Type*}

/-- inner loop, c/common.h:150-153: `i` from `i0` on, `n` iterations left. -/
def transposeInner (src : ℕ → α) (ncols j : ℕ) : ℕ → ℕ → (ℕ → α) × ℕ → (ℕ → α) × ℕ
  | _, 0, s => s
  | i, n + 1, (dst, pos) => transposeInner src ncols j (i + 1) n (upd dst pos (src (j + i * ncols)), pos + 1)

/-- outer loop, c/common.h:149-154. -/
def transposeOuter (src : ℕ → α) (nrows ncols : ℕ) : ℕ → ℕ → (ℕ → α) × ℕ → (ℕ → α) × ℕ
  | _, 0, s => s
  | j, n + 1, s => transposeOuter src nrows ncols (j + 1) n (transposeInner src ncols j 0 nrows s)

/-- `matrix_transpose_double`, c/common.h:144-155; returns the destination array and the number of cells written. -/
def matrixTranspose (dst src : ℕ → α) (nrows ncols : ℕ) : (ℕ → α) × ℕ :=
  transposeOuter src nrows ncols 0 ncols (dst, 0)

/-- One attainment surface: number of points and flat data (`eaf_t`, c/eaf.h:66-73). -/
structure EafSurf (α : Type*) where
  size : ℕ
  data : ℕ → α

/-- `j` loop of c/eaf.c:249-251 -/
def eafRowCopy (data : ℕ → α) (nobj i : ℕ) (addr : ℕ → ℕ) : ℕ → (ℕ → α) → (ℕ → α)
  | 0, m => m
  | j + 1, m => upd (eafRowCopy data nobj i addr j m) (addr j) (data (j + i * nobj))

/-- `i` loop of `eaf2matrix`, c/eaf.c:248-254; `addr pos j` is the flat index of row `pos` and column `j`
(`j + pos * ncol` here, `pos + j * totalpoints` in `eaf2matrix_R`, c/eaf.c:229-235). -/
def eafLevelCopy (data : ℕ → α) (nobj : ℕ) (p : α) (addr : ℕ → ℕ → ℕ) : ℕ → ℕ → (ℕ → α) × ℕ → (ℕ → α) × ℕ
  | _, 0, s => s
  | i, n + 1, (m, pos) =>
    eafLevelCopy data nobj p addr (i + 1) n
      (upd (eafRowCopy data nobj i (addr pos) nobj m) (addr pos nobj) p, pos + 1)

/-- `k` loop, c/eaf.c:245-255 and 226-236; `p k` is the percentile printed for level `k`. -/
def eafLevelsCopy (nobj : ℕ) (p : ℕ → α) (addr : ℕ → ℕ → ℕ) : ℕ → List (EafSurf α) → (ℕ → α) × ℕ → (ℕ → α) × ℕ
  | _, [], s => s
  | k, e :: es, s => eafLevelsCopy nobj p addr (k + 1) es (eafLevelCopy e.data nobj (p k) addr 0 e.size s)

/-- `eaf_totalpoints`, c/eaf.h:88-94. -/
def eafTotalpoints (eaf : List (EafSurf α)) : ℕ := eaf.foldl (fun t e => t + e.size) 0

/-- `eaf2matrix`, c/eaf.c:239-256. -/
def eaf2matrix (rmat : ℕ → α) (eaf : List (EafSurf α)) (nobj : ℕ) (p : ℕ → α) : ℕ → α :=
  (eafLevelsCopy nobj p (fun pos j => j + pos * (nobj + 1)) 0 eaf (rmat, 0)).1

/-- `eaf2matrix_R`, c/eaf.c:221-237. -/
def eaf2matrixR (rmat : ℕ → α) (eaf : List (EafSurf α)) (nobj totalpoints : ℕ) (p : ℕ → α) : ℕ → α :=
  (eafLevelsCopy nobj p (fun pos j => pos + j * totalpoints) 0 eaf (rmat, 0)).1

end Moo
