import Verif.Model.ParetoRank
import Verif.Model.Epsilon
import Verif.Model.AvlCost

/-!
# Running time of dominance filtering, nondominated sorting and the epsilon indicators

The functions of `Model/Nondominated.lean`, `Model/ParetoRank.lean` and `Model/Epsilon.lean` once more, with one step (`tick`) for each iteration of a loop.  A `memcpy` of `m`
items counts as `m` steps.  The calls of `qsort` (at most one, on `n` pointers or records) are not counted.
-/

set_option autoImplicit false
set_option linter.unusedSectionVars false

namespace Moo

/-- A loop `for (k ...)` that always runs to its end, over the values in the list. -/
def forT {σ : Type} (f : σ → ℕ → Tm σ) : List ℕ → σ → Tm σ
  | [], s => Tm.ret s
  | k :: ks, s => do
    tick
    let s ← f s k
    forT f ks s

section
variable {α : Type} [LinearOrder α]

/-! ### c/nondominated.h -/

/-- `minmax_from_bool`, c/common.h:160-170: `nobj` iterations. -/
def minmaxFromBoolT (nobj : ℕ) (maximise : ℕ → Bool) : Tm (ℕ → ℤ) := do
  ticks nobj
  Tm.ret (minmaxFromBool maximise)

/-- `nondom_init`, c/nondominated.h:7-14. -/
def nondomInitT (size : ℕ) : Tm (ℕ → Bool) := do
  ticks size
  Tm.ret nondomInit

/-- The loops over `d`, c/nondominated.h:198-218. -/
def leqPairT (dim : ℕ) (minmax : ℕ → ℤ) (agree : ℤ) (pj pk : ℕ → α) : Tm (Bool × Bool) :=
  forT (fun s d => Tm.ret
    (if agree < 0 then (s.1 && decide (pj d ≤ pk d), s.2 && decide (pk d ≤ pj d))
    else if agree > 0 then (s.1 && decide (pj d ≥ pk d), s.2 && decide (pk d ≥ pj d))
    else if minmax d < 0 then (s.1 && decide (pj d ≤ pk d), s.2 && decide (pk d ≤ pj d))
    else if minmax d > 0 then (s.1 && decide (pj d ≥ pk d), s.2 && decide (pk d ≥ pj d))
    else s)) (List.range dim) (true, true)

/-- The inner loop, c/nondominated.h:182-230. -/
def ndInnerT (pts : ℕ → ℕ → α) (dim : ℕ) (minmax : ℕ → ℤ) (agree : ℤ)
    (findDominated keepWeakly : Bool) (k : ℕ) : List ℕ → (ℕ → Bool) → Tm NdStep
  | [], nd => Tm.ret (.cont nd)
  | j :: js, nd => do
    tick
    if !nd k then Tm.ret (.cont nd)
    else if !nd j then ndInnerT pts dim minmax agree findDominated keepWeakly k js nd
    else do
      let lq ← leqPairT dim minmax agree (pts j) (pts k)
      let ndk := !lq.1 || (keepWeakly && lq.2)
      let ndj := !lq.2 || lq.1
      let nd' := upd (upd nd k ndk) j ndj
      if !(ndk || ndj) then Tm.ret .assertFail
      else if findDominated && (!ndk || !ndj) then Tm.ret (.ret (if ndk then (j : ℤ) else (k : ℤ)) nd')
      else ndInnerT pts dim minmax agree findDominated keepWeakly k js nd'

/-- The outer loop, c/nondominated.h:181-231. -/
def ndOuterT (pts : ℕ → ℕ → α) (dim size : ℕ) (minmax : ℕ → ℤ) (agree : ℤ)
    (findDominated keepWeakly : Bool) : List ℕ → (ℕ → Bool) → Tm NdStep
  | [], nd => Tm.ret (.cont nd)
  | k :: ks, nd => do
    tick
    let r ← ndInnerT pts dim minmax agree findDominated keepWeakly k (List.range' (k + 1) (size - (k + 1))) nd
    match r with
    | .cont nd' => ndOuterT pts dim size minmax agree findDominated keepWeakly ks nd'
    | .ret r nd' => Tm.ret (.ret r nd')
    | .assertFail => Tm.ret .assertFail

/-- The nested loops of `find_dominated_2d_`, c/nondominated.h:73-88; an iteration of either loop is one step. -/
def findDominated2dScanT (pts : ℕ → ℕ → α) (keepWeakly : Bool) : ℕ → List ℕ → Tm ℤ
  | _, [] => do
    tick
    Tm.ret (-1)
  | k, j :: js => do
    tick
    if pts j 1 ≥ pts k 1 then
      if !keepWeakly || decide (pts j 0 ≠ pts k 0) || decide (pts j 1 ≠ pts k 1) then Tm.ret (j : ℤ)
      else findDominated2dScanT pts keepWeakly k js
    else findDominated2dScanT pts keepWeakly j js

/-- `find_dominated_2d_`, c/nondominated.h:68-92: the array of pointers (l. 57-59) and the scan. -/
def findDominated2dT (pts : ℕ → ℕ → α) (keepWeakly : Bool) : List ℕ → Tm ℤ
  | [] => Tm.ret (-1)
  | k :: js => do
    ticks (k :: js).length
    findDominated2dScanT pts keepWeakly k js

/-- The nested loops c/nondominated.h:104-113 and 130-141; an iteration of either loop is one step. -/
def nd2dScanT (pts : ℕ → ℕ → α) (keepWeakly : Bool) :
    ℕ → ℕ → List ℕ → (ℕ → Bool) → ℤ → Tm ((ℕ → Bool) × ℤ)
  | _, _, [], nd, c => do
    tick
    Tm.ret (nd, c)
  | k, pos, j :: js, nd, c => do
    tick
    if pts j 1 ≥ pts k 1 then
      if !keepWeakly || decide (pts j 0 ≠ pts k 0) || decide (pts j 1 ≠ pts k 1) then
        nd2dScanT pts keepWeakly k (pos + 1) js (upd nd pos false) (c + 1)
      else nd2dScanT pts keepWeakly k (pos + 1) js nd c
    else nd2dScanT pts keepWeakly j (pos + 1) js nd c

/-- The loop c/nondominated.h:115-117 and 143-145. -/
def ndUnsortT (nd : ℕ → Bool) : ℕ → List ℕ → (ℕ → Bool) → Tm (ℕ → Bool)
  | _, [], new => Tm.ret new
  | pos, r :: rs, new => do
    tick
    ndUnsortT nd (pos + 1) rs (upd new r (nd pos))

/-- `find_nondominated_set_delete_weakly_2d_`, `..._keep_weakly_2d_`, c/nondominated.h:99-150: the array of pointers (l. 57-59), the scan, the loop that undoes the sorting and
the `memcpy` (l. 118, 146). -/
def findNondominatedSet2dT (pts : ℕ → ℕ → α) (keepWeakly : Bool) (garbage : ℕ → Bool)
    (nd : ℕ → Bool) : List ℕ → Tm (ℤ × (ℕ → Bool))
  | [] => Tm.ret (0, garbage)
  | k :: js => do
    ticks (k :: js).length
    let r ← nd2dScanT pts keepWeakly k 1 js nd 0
    let new ← ndUnsortT r.1 0 (k :: js) garbage
    ticks (k :: js).length
    Tm.ret (r.2, new)

/-- The number of flags, c/nondominated.h:235-238. -/
def countFlagsT (nd : ℕ → Bool) (size : ℕ) : Tm ℤ :=
  forT (fun c k => Tm.ret (if nd k then c + 1 else c)) (List.range size) (0 : ℤ)

/-- `dominates`, c/pareto.c:183-191. -/
def rkDominatesT (pj pk : ℕ → α) (dim : ℕ) : Tm Bool :=
  forT (fun s d => Tm.ret (s && decide (pj d ≤ pk d))) (List.range dim) true

/-- The loop over `k`, c/pareto.c:224-239. -/
def rkInnerT (pts : ℕ → ℕ → α) (dim level j : ℕ) :
    List ℕ → (ℕ → ℕ) → Bool → Tm ((ℕ → ℕ) × Bool)
  | [], rank, nn => Tm.ret (rank, nn)
  | k :: ks, rank, nn => do
    tick
    if k = j then rkInnerT pts dim level j ks rank nn
    else if rank k ≠ level - 1 then rkInnerT pts dim level j ks rank nn
    else do
      let jk ← rkDominatesT (pts j) (pts k) dim
      let kj ← rkDominatesT (pts k) (pts j) dim
      if jk && !kj then rkInnerT pts dim level j ks (upd rank k (rank k + 1)) false
      else if !jk && kj then Tm.ret (upd rank j (rank j + 1), false)
      else rkInnerT pts dim level j ks rank nn

/-- The loop over `j`, c/pareto.c:219-240. -/
def rkPassT (pts : ℕ → ℕ → α) (dim size level : ℕ) :
    List ℕ → (ℕ → ℕ) → Bool → Tm (Option ((ℕ → ℕ) × Bool))
  | [], rank, nn => Tm.ret (some (rank, nn))
  | j :: js, rank, nn => do
    tick
    if ¬ rank j ≤ level then Tm.ret none
    else if rank j ≠ level - 1 then rkPassT pts dim size level js rank nn
    else do
      let r ← rkInnerT pts dim level j (List.range size) rank nn
      rkPassT pts dim size level js r.1 r.2

/-- The loop over the levels, c/pareto.c:215-242. -/
def rkLevelsT (pts : ℕ → ℕ → α) (dim size : ℕ) : ℕ → ℕ → (ℕ → ℕ) → Tm RankOut
  | 0, _, _ => Tm.ret .outOfFuel
  | fuel + 1, level, rank => do
    tick
    let r ← rkPassT pts dim size level (List.range size) rank true
    match r with
    | none => Tm.ret .assertFail
    | some (rank', nn) => if nn then Tm.ret (.done rank') else rkLevelsT pts dim size fuel (level + 1) rank'

/-- The general algorithm, c/pareto.c:210-250: the initialisation (l. 211-213) and the levels. -/
def paretoRankGeneralT (fuel : ℕ) (pts : ℕ → ℕ → α) (dim size : ℕ) : Tm RankOut := do
  ticks size
  rkLevelsT pts dim size fuel 2 (fun _ => 1)

/-- The binary search, c/pareto.c:93-107. -/
def rkSearchT (pos : ℕ → ℕ → α) (fl : ℕ → ℕ) (nFront : ℕ) (p : ℕ → α) : ℕ → ℕ → ℕ → Tm ℕ
  | 0, _, _ => Tm.fail
  | fuel + 1, low, high => do
    tick
    let mid := low + (high - low) / 2
    if ¬ mid ≤ nFront then Tm.fail
    else
      let pmid := pos (fl mid)
      if p 1 < pmid 1 then
        if low < mid then rkSearchT pos fl nFront p fuel low mid else Tm.ret low
      else if p 1 > pmid 1 ∨ (p 1 = pmid 1 ∧ p 0 > pmid 0) then
        if mid + 1 < high then rkSearchT pos fl nFront p fuel (mid + 1) high else Tm.ret (mid + 1)
      else Tm.ret mid

/-- The body of the loop over `k`, c/pareto.c:91-122. -/
def rk2dStepT (pos : ℕ → ℕ → α) (k : ℕ) (s : Rk2d) : Tm Rk2d :=
  let p := pos k
  let q := pos (s.last s.nFront)
  if p 1 < q 1 then do
    let low ← rkSearchT pos s.last s.nFront p (s.nFront + 2) 0 (s.nFront + 1)
    let r := pos (s.last low)
    if ¬ low ≤ s.nFront then Tm.fail
    else if ¬ (p 1 < r 1 ∨ (p 1 = r 1 ∧ p 0 = r 0)) then Tm.fail
    else Tm.ret { s with last := upd s.last low k, f := upd s.f k low }
  else if p 1 = q 1 ∧ p 0 = q 0 then
    Tm.ret { s with last := upd s.last s.nFront k, f := upd s.f k s.nFront }
  else
    Tm.ret { nFront := s.nFront + 1, last := upd s.last (s.nFront + 1) k, f := upd s.f k (s.nFront + 1) }

/-- The loop over `k`, c/pareto.c:90-123. -/
def rk2dLoopT (pos : ℕ → ℕ → α) : List ℕ → Rk2d → Tm Rk2d
  | [], s => Tm.ret s
  | k :: ks, s => do
    tick
    let s' ← rk2dStepT pos k s
    rk2dLoopT pos ks s'

/-- The loop c/pareto.c:175-178. -/
def rk2dStoreT (f : ℕ → ℕ) : ℕ → List ℕ → (ℕ → ℕ) → Tm (ℕ → ℕ)
  | _, [], rank => Tm.ret rank
  | k, i :: is, rank => do
    tick
    rk2dStoreT f (k + 1) is (upd rank i (f k + 1))

/-- `pareto_rank_2D`, c/pareto.c:42-181: the array of records (l. 49-53), the loop and the ranks. A failed assertion has no result here. -/
def paretoRank2dT (garbage : ℕ → ℕ) (pts : ℕ → ℕ → α) (size : ℕ) (p : List ℕ) : Tm RankOut :=
  if size = 0 then Tm.ret .outOfBounds
  else do
    ticks size
    let pos := fun k => pts (p.getD k 0)
    let s ← rk2dLoopT pos (List.range' 1 (size - 1)) ⟨0, fun _ => 0, fun _ => 0⟩
    let rank ← rk2dStoreT s.f 0 p garbage
    Tm.ret (.done rank)

/-- `pareto_rank`, c/pareto.c:199-251 compiled with `DEBUG == 0`. -/
def paretoRankT (sortFn : (ℕ → ℕ → α) → ℕ → List ℕ) (garbage : ℕ → ℕ) (fuel : ℕ)
    (pts : ℕ → ℕ → α) (dim size : ℕ) : Tm RankOut :=
  if dim = 2 then paretoRank2dT garbage pts size (sortFn pts size)
  else paretoRankGeneralT fuel pts dim size

end

section
variable {α : Type} [LinearOrder α] [Neg α]

/-- `force_agree_minimize`, c/nondominated.h:16-42: the search for a maximised objective (at most `dim` iterations), the copy (`dim * size` numbers), and for each
objective one iteration and, if it is maximised, `size` more; counted here as if all were. -/
def forceAgreeMinimizeT (pts : ℕ → ℕ → α) (dim size : ℕ) (minmax : ℕ → ℤ) (agree : ℤ) : Tm (Option (ℕ → ℕ → α)) := do
  ticks dim
  if (List.range dim).all (fun d => !decide (minmax d > 0)) then Tm.ret (forceAgreeMinimize pts dim minmax agree)
  else do
    ticks (dim * size)
    ticks (dim * (size + 1))
    Tm.ret (forceAgreeMinimize pts dim minmax agree)

/-- `find_nondominated_set_`, c/nondominated.h:159-239. -/
def findNondominatedSetT_ (sortFn : (ℕ → ℕ → α) → ℕ → List ℕ) (garbage : ℕ → Bool)
    (pts : ℕ → ℕ → α) (dim size : ℕ)
    (minmax : ℕ → ℤ) (agree : ℤ) (nd : ℕ → Bool) (findDominated keepWeakly : Bool) : Tm NdOut :=
  if size < 2 then Tm.ret (.done size nd)
  else if dim = 2 then do
    let o ← forceAgreeMinimizeT pts 2 size minmax agree
    match o with
    | none => Tm.ret .assertFail
    | some pp =>
      if findDominated then do
        let r ← findDominated2dT pp keepWeakly (sortFn pp size)
        Tm.ret (.done r nd)
      else do
        let r ← findNondominatedSet2dT pp keepWeakly garbage nd (sortFn pp size)
        Tm.ret (.done r.1 r.2)
  else do
    let o ← ndOuterT pts dim size minmax agree findDominated keepWeakly (List.range (size - 1)) nd
    match o with
    | .assertFail => Tm.ret .assertFail
    | .ret r nd' => Tm.ret (.done r nd')
    | .cont nd' =>
      if findDominated then Tm.ret (.done (-1) nd')
      else do
        let c ← countFlagsT nd' size
        Tm.ret (.done c nd')

/-- `is_nondominated`, c/nondominated.h:316-326. -/
def isNondominatedT (sortFn : (ℕ → ℕ → α) → ℕ → List ℕ) (garbage : ℕ → Bool)
    (data : ℕ → ℕ → α) (nobj npoint : ℕ) (maximise : ℕ → Bool) (keepWeakly : Bool) : Tm (Option (ℕ → Bool)) := do
  let nd ← nondomInitT npoint
  let minmax ← minmaxFromBoolT nobj maximise
  let o ← findNondominatedSetT_ sortFn garbage data nobj npoint minmax AGREE_NONE nd false keepWeakly
  match o with
  | .done _ nd => Tm.ret (some nd)
  | .assertFail => Tm.ret none

end

/-! ### c/epsilon.h -/

section
variable {K : Type} [Field K] [LinearOrder K] [IsStrictOrderedRing K]

/-- The loop over `d`, c/epsilon.h:80-90. -/
def epsAddMaxT (dim : ℕ) (minmax : ℕ → ℤ) (pa pb : ℕ → K) : Tm (Ext K) :=
  forT (fun m d => Tm.ret (cMax m (fin (epsAddTemp (minmax d) (pa d) (pb d))))) (List.range dim) ⊥

/-- The loop over `a`, c/epsilon.h:78-92. -/
def epsAddMinT (dim : ℕ) (minmax : ℕ → ℤ) (A : ℕ → ℕ → K) (sizeA : ℕ) (pb : ℕ → K) : Tm (Ext K) :=
  forT (fun m a => do
    let x ← epsAddMaxT dim minmax (A a) pb
    Tm.ret (cMin m x)) (List.range sizeA) ⊤

/-- `epsilon_additive`, c/epsilon.h:98-106, with `epsilon_additive_minmax`, c/epsilon.h:69-96. -/
def epsilonAdditiveT (data : ℕ → ℕ → K) (nobj npoints : ℕ) (ref : ℕ → ℕ → K) (refSize : ℕ)
    (maximise : ℕ → Bool) : Tm (Ext K) := do
  let minmax ← minmaxFromBoolT nobj maximise
  forT (fun m b => do
    let x ← epsAddMinT nobj minmax data npoints (ref b)
    Tm.ret (cMax m x)) (List.range refSize) ⊥

/-- The loop over `d`, c/epsilon.h:45-61; `none` is `fatal_error`. -/
def epsMultMaxT (minmax : ℕ → ℤ) (pa pb : ℕ → K) : List ℕ → Ext K → Tm (Option (Ext K))
  | [], m => Tm.ret (some m)
  | d :: ds, m => do
    tick
    if pa d ≤ 0 ∨ pb d ≤ 0 then Tm.ret none
    else
      let t := epsMultTemp (minmax d) (pa d) (pb d)
      if t < 0 then Tm.ret none
      else epsMultMaxT minmax pa pb ds (cMax m (fin t))

/-- The loop over `a`, c/epsilon.h:42-63. -/
def epsMultMinT (dim : ℕ) (minmax : ℕ → ℤ) (A : ℕ → ℕ → K) (pb : ℕ → K) :
    List ℕ → Ext K → Tm (Option (Ext K))
  | [], m => Tm.ret (some m)
  | a :: as, m => do
    tick
    let o ← epsMultMaxT minmax (A a) pb (List.range dim) (fin 0)
    match o with
    | none => Tm.ret none
    | some mx => epsMultMinT dim minmax A pb as (cMin m mx)

/-- The loop over `b`, c/epsilon.h:41-65. -/
def epsMultOuterT (dim : ℕ) (minmax : ℕ → ℤ) (A : ℕ → ℕ → K) (sizeA : ℕ) (B : ℕ → ℕ → K) :
    List ℕ → Ext K → Tm (Option (Ext K))
  | [], m => Tm.ret (some m)
  | b :: bs, m => do
    tick
    let o ← epsMultMinT dim minmax A (B b) (List.range sizeA) ⊤
    match o with
    | none => Tm.ret none
    | some mn => epsMultOuterT dim minmax A sizeA B bs (cMax m mn)

/-- `epsilon_mult`, c/epsilon.h:107-115, with `epsilon_mult_minmax`, c/epsilon.h:33-67. -/
def epsilonMultT (data : ℕ → ℕ → K) (nobj npoints : ℕ) (ref : ℕ → ℕ → K) (refSize : ℕ)
    (maximise : ℕ → Bool) : Tm (Option (Ext K)) := do
  let minmax ← minmaxFromBoolT nobj maximise
  epsMultOuterT nobj minmax data npoints ref (List.range refSize) (fin 0)

end

end Moo
