import Verif.Model.Hv2d
import Verif.Model.HvMem
import Verif.Model.NdMem

/-!
# Model of the memory accesses of `hv2d` (c/hv.c) and of `hv_contributions` (c/hv_contrib.c), for arbitrary doubles, and doubles with NaN

As in `NdMem.lean`: blocks of cells, loads and stores outside of a block and loads of cells that were never written are errors.  The type of doubles and its
operations are arbitrary, so that nothing is assumed about the values.  `qsort` may leave any permutation of its array.  Assertions are compiled in.  Not modelled:
failures of `malloc`, `free`, the range of `int`.
-/

set_option autoImplicit false
set_option linter.unusedSectionVars false

namespace Moo

/-! ## Doubles that may be NaN -/

/-- A number or NaN (`none`).  Arithmetic propagates NaN and every comparison with NaN is false (IEEE 754); numbers are exact, without infinities. -/
def NDouble (K : Type) : Type := Option K

namespace NDouble
variable {K : Type}

/-- NaN. -/
def nan : NDouble K := none

/-- A number. -/
def val (a : K) : NDouble K := some a

instance [Zero K] : Zero (NDouble K) := ⟨val 0⟩
instance [One K] : One (NDouble K) := ⟨val 1⟩

/-- An operation with NaN gives NaN. -/
def lift2 (f : K → K → K) : NDouble K → NDouble K → NDouble K
  | some a, some b => some (f a b)
  | _, _ => none

instance [Add K] : Add (NDouble K) := ⟨lift2 (· + ·)⟩
instance [Sub K] : Sub (NDouble K) := ⟨lift2 (· - ·)⟩
instance [Mul K] : Mul (NDouble K) := ⟨lift2 (· * ·)⟩
instance [LinearOrder K] : LT (NDouble K) := ⟨fun a b => (ieeeCmp K).lt a b = true⟩
instance [LinearOrder K] : LE (NDouble K) := ⟨fun a b => (ieeeCmp K).le a b = true⟩
instance [LinearOrder K] : DecidableLT (NDouble K) := fun a b => inferInstanceAs (Decidable ((ieeeCmp K).lt a b = true))
instance [LinearOrder K] : DecidableLE (NDouble K) := fun a b => inferInstanceAs (Decidable ((ieeeCmp K).le a b = true))
instance [DecidableEq K] : DecidableEq (NDouble K) := inferInstanceAs (DecidableEq (Option K))

/-- `fabs`. -/
def fabs (abs : K → K) : NDouble K → NDouble K := Option.map abs

end NDouble

/-! ## `hv2d` -/

section
variable {F : Type} [Zero F] [Add F] [Sub F] [Mul F] [LT F] [DecidableLT F] [LE F] [DecidableLE F]

/-- c/hv.c:857-858: `p[k] = data + 2 * k`; a pointer is the offset in `data`. -/
def hv2dPtrsM : List ℕ → Blk ℕ → Except MemErr (Blk ℕ)
  | [], p => .ok p
  | k :: ks, p => do
    let p ← stBlk p k (2 * k)
    hv2dPtrsM ks p

/-- c/hv.c:867-868: `while (j < n && p[j][1] >= prev_j) j++`, with a bound for the number of steps. -/
def hv2dSkipM (data : Blk F) (p : Blk ℕ) (n : ℕ) (prevJ : F) : ℕ → ℕ → Except MemErr ℕ
  | 0, _ => .error .outOfFuel
  | fuel + 1, j =>
    if j < n then do
      let q ← ldBlk p j
      let y ← ldBlk data (q + 1)
      if y ≥ prevJ then hv2dSkipM data p n prevJ fuel (j + 1) else .ok j
    else .ok j

/-- c/hv.c:865-875: the `do … while` loop, with a bound for the number of steps. -/
def hv2dLoopM (data : Blk F) (p : Blk ℕ) (n : ℕ) (ref : Blk F) : ℕ → ℕ → F → F → Except MemErr F
  | 0, _, _, _ => .error .outOfFuel
  | fuel + 1, j, prevJ, hyperv => do
    let j ← hv2dSkipM data p n prevJ (n + 1) j
    if j = n then .ok hyperv
    else do
      let q ← ldBlk p j
      let x ← ldBlk data q
      let r0 ← ldBlk ref 0
      if x ≥ r0 then .ok hyperv
      else do
        let y ← ldBlk data (q + 1)
        let hyperv := hyperv + (r0 - x) * (prevJ - y)
        if j + 1 < n then do
          let q' ← ldBlk p (j + 1)
          let x' ← ldBlk data q'
          if x' < r0 then hv2dLoopM data p n ref fuel (j + 1) y hyperv else .ok hyperv
        else .ok hyperv

/-- c/hv.c:853-879 `hv2d`.  `sorted` is the array after the `qsort` of line 860, given the array before. -/
def hv2dM (data : Blk F) (n : ℕ) (ref : Blk F) (sorted : Blk ℕ → Blk ℕ) : Except MemErr F := do
  let p ← hv2dPtrsM (List.range n) (allocBlk n)
  let r1 ← ldBlk ref 1
  hv2dLoopM data (sorted p) n ref (n + 1) 0 r1 0

/-! ## `hv_contributions` -/

/-- `memcpy(dst + i, src + j, n * sizeof(double))`. -/
def cpAtBlk {β : Type} (dst : Blk β) (i : ℕ) (src : Blk β) (j n : ℕ) : Except MemErr (Blk β) :=
  if i + n ≤ dst.length ∧ j + n ≤ src.length then .ok (dst.take i ++ (src.drop j).take n ++ dst.drop (i + n)) else .error .outOfBounds

/-- c/hv_contrib.c:28-30, the value for `hvc[i]`.  `hv` is `fpli_hv(points, dim, size, ref)` as a function of the block of points, which it only reads; `uev` is
`none` for `NULL`. -/
def onePointValueM (hv : Blk F → Except MemErr F) (uev : Option (Blk Bool)) (i : ℕ) (points : Blk F) : Except MemErr F :=
  match uev with
  | none => hv points
  | some u => do
    let keep ← ldBlk u i
    if keep then .ok 0 else hv points

/-- c/hv_contrib.c:25-32, the loop of `hv_1point_diffs`. -/
def onePointLoopM (hv : Blk F → Except MemErr F) (dim : ℕ) (ref : Blk F) (uev : Option (Blk Bool)) :
    List ℕ → Blk F → Blk F → Blk F → Except MemErr (Blk F × Blk F)
  | [], _, hvc, points => .ok (hvc, points)
  | i :: is, tmp, hvc, points => do
    let tmp ← cpAtBlk tmp 0 points (i * dim) dim
    let points ← cpAtBlk points (i * dim) ref 0 dim
    let v ← onePointValueM hv uev i points
    let hvc ← stBlk hvc i v
    let points ← cpAtBlk points (i * dim) tmp 0 dim
    onePointLoopM hv dim ref uev is tmp hvc points

/-- c/hv_contrib.c:15-34 `hv_1point_diffs` on the block `hvc` (`none`: `NULL`, so that it is allocated).  The result is `hvc` and the points. -/
def onePointDiffsM (hv : Blk F → Except MemErr F) (dim size : ℕ) (ref : Blk F) (uev : Option (Blk Bool)) (hvc : Option (Blk F)) (points : Blk F) :
    Except MemErr (Blk F × Blk F) :=
  onePointLoopM hv dim ref uev (List.range size) (allocBlk dim) (hvc.getD (allocBlk size)) points

/-- c/hv_contrib.c:43-48, the loop of `hv_contributions`. -/
def contribLoopM (fabs : F → F) (tol total : F) : List ℕ → Blk F → Except MemErr (Blk F)
  | [], hvc => .ok hvc
  | i :: is, hvc => do
    let v ← ldBlk hvc i
    let hvc ← stBlk hvc i (total - v)
    let c ← ldBlk hvc i
    let hvc ← stBlk hvc i (if fabs c ≥ tol then c else 0)
    let c ← ldBlk hvc i
    if c ≥ 0 then contribLoopM fabs tol total is hvc else .error .assertion

/-- c/hv_contrib.c:37-49 `hv_contributions`; `tol` is `sqrt(DBL_EPSILON)`.  The result is `hvc` and the points. -/
def contributionsM (hv : Blk F → Except MemErr F) (fabs : F → F) (tol : F) (dim size : ℕ) (ref hvc points : Blk F) : Except MemErr (Blk F × Blk F) := do
  let total ← hv points
  let r ← onePointDiffsM hv dim size ref none (some hvc) points
  let hvc ← contribLoopM fabs tol total (List.range size) r.1
  .ok (hvc, r.2)

end

end Moo
