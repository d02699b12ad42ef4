import Mathlib.Data.Nat.Notation
import Mathlib.Data.List.Basic

/-!
# Model of `c/cvector.h`

The block `_begin .. _capacity` is a list of cells; `none` is a cell that was allocated but never written.  `_end` is `size`.
-/

set_option autoImplicit false

namespace Moo

variable {α : Type*}

/-- Outcome of an operation: a value, a failed assertion (the program aborts), an access outside of the allocated block, or
a read of a cell that was never written (both undefined behaviour). -/
inductive CVRes (β : Type*)
  | ok (b : β)
  | assertFail
  | outOfBounds
  | uninit

/-- The struct of c/cvector.h:16-20. -/
structure CVec (α : Type*) where
  cells : List (Option α)
  size : ℕ

/-- `_capacity`, c/cvector.h:74-76. -/
def CVec.capacity (v : CVec α) : ℕ := v.cells.length

/-- `_ctor_zero`, c/cvector.h:25-32. -/
def cvCtorZero : CVec α := ⟨[], 0⟩

/-- `_reserve`, c/cvector.h:104-116.  Simplification: `realloc` always succeeds and `n` elements always fit in `size_t` bytes, so that
the two assertions hold. -/
def cvReserve (v : CVec α) (n : ℕ) : CVec α :=
  if n > v.capacity then ⟨v.cells ++ List.replicate (n - v.capacity) none, v.size⟩ else v

/-- `_ctor`, c/cvector.h:37-42 (and `_new`, 46-52). -/
def cvCtor (n : ℕ) : CVec α := cvReserve cvCtorZero n

/-- `_push_back`, c/cvector.h:127-137. -/
def cvPushBack (v : CVec α) (x : α) : CVRes (CVec α) :=
  let v := if v.size = v.capacity then cvReserve v (if v.capacity = 0 then 8 else 2 * v.capacity) else v
  if v.size < v.capacity then .ok ⟨v.cells.set v.size (some x), v.size + 1⟩ else .outOfBounds

/-- read of a cell -/
def cvRead (v : CVec α) (pos : ℕ) : CVRes α :=
  match v.cells[pos]? with
  | none => .outOfBounds
  | some none => .uninit
  | some (some x) => .ok x

/-- `_pop_back`, c/cvector.h:142-148. -/
def cvPopBack (v : CVec α) : CVRes (CVec α × α) :=
  if v.size = 0 then .assertFail
  else match cvRead v (v.size - 1) with
    | .ok x => .ok (⟨v.cells, v.size - 1⟩, x)
    | .assertFail => .assertFail
    | .outOfBounds => .outOfBounds
    | .uninit => .uninit

/-- `_front`, c/cvector.h:152-157. -/
def cvFront (v : CVec α) : CVRes α := if v.size = 0 then .assertFail else cvRead v 0

/-- `_back`, c/cvector.h:161-166. -/
def cvBack (v : CVec α) : CVRes α := if v.size = 0 then .assertFail else cvRead v (v.size - 1)

/-- `_at`, c/cvector.h:181-186; note `<=` in the assertion. -/
def cvAt (v : CVec α) (pos : ℕ) : CVRes α := if pos ≤ v.size then cvRead v pos else .assertFail

/-- `_set`, c/cvector.h:189-194; note `<=` in the assertion. -/
def cvSet (v : CVec α) (pos : ℕ) (e : α) : CVRes (CVec α) :=
  if pos ≤ v.size then
    if pos < v.cells.length then .ok ⟨v.cells.set pos (some e), v.size⟩ else .outOfBounds
  else .assertFail

/-- Operations of a history. -/
inductive CVOp (α : Type*)
  | push (x : α)
  | pop
  | reserve (n : ℕ)
  | set (pos : ℕ) (x : α)
  | at (pos : ℕ)
  | front
  | back

/-- One operation, with the value it returns, if any. -/
def cvStep (v : CVec α) : CVOp α → CVRes (CVec α × Option α)
  | .push x => match cvPushBack v x with
    | .ok v' => .ok (v', none)
    | .assertFail => .assertFail | .outOfBounds => .outOfBounds | .uninit => .uninit
  | .pop => match cvPopBack v with
    | .ok (v', x) => .ok (v', some x)
    | .assertFail => .assertFail | .outOfBounds => .outOfBounds | .uninit => .uninit
  | .reserve n => .ok (cvReserve v n, none)
  | .set pos x => match cvSet v pos x with
    | .ok v' => .ok (v', some x)
    | .assertFail => .assertFail | .outOfBounds => .outOfBounds | .uninit => .uninit
  | .at pos => match cvAt v pos with
    | .ok x => .ok (v, some x)
    | .assertFail => .assertFail | .outOfBounds => .outOfBounds | .uninit => .uninit
  | .front => match cvFront v with
    | .ok x => .ok (v, some x)
    | .assertFail => .assertFail | .outOfBounds => .outOfBounds | .uninit => .uninit
  | .back => match cvBack v with
    | .ok x => .ok (v, some x)
    | .assertFail => .assertFail | .outOfBounds => .outOfBounds | .uninit => .uninit

/-- A history, collecting the returned values; stops at the first failure. -/
def cvRun : List (CVOp α) → CVec α → CVRes (CVec α × List (Option α))
  | [], v => .ok (v, [])
  | o :: os, v => match cvStep v o with
    | .ok (v', r) => match cvRun os v' with
      | .ok (v'', rs) => .ok (v'', r :: rs)
      | .assertFail => .assertFail | .outOfBounds => .outOfBounds | .uninit => .uninit
    | .assertFail => .assertFail | .outOfBounds => .outOfBounds | .uninit => .uninit

end Moo
