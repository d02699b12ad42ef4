import Verif.Model.Nondominated

/-!
# Model of the memory accesses of `c/nondominated.h` and `c/pareto.c`, for arbitrary doubles

The functions modelled in `Nondominated.lean` and `ParetoRank.lean` once more, with two changes.

* Every block of memory is a list of cells.  A cell holds `none` until it is written.  A load or store outside of the block and a load of a
  cell that was never written are errors.  The points are one flat block, indexed as in C by `k * dim + d`.
* The comparisons of two doubles are arbitrary Boolean functions, so that nothing is assumed about the values.  NaN, for which all of `<`, `<=` and `==` are
  false, is a special case (`ieeeCmp`).

`qsort` may leave any permutation of its array: with NaN the comparison functions are not consistent and no order can be relied on (the C
standard leaves such a call undefined; it is assumed that it still only permutes the array).
Not modelled: failures of `malloc`, `free`, the range of `int`.
-/

set_option autoImplicit false
set_option linter.unusedSectionVars false

namespace Moo

/-- Ways a run may go wrong. -/
inductive MemErr where
  /-- an access outside of an allocated block -/
  | outOfBounds
  /-- a cell is read before it was written -/
  | uninitialised
  /-- a failed `eaf_assert` -/
  | assertion
  /-- the loop bound given to the model was too small -/
  | outOfFuel
  deriving DecidableEq

/-- A block of memory. -/
abbrev Blk (β : Type) := List (Option β)

/-- `malloc(n * sizeof(...))`. -/
def allocBlk {β : Type} (n : ℕ) : Blk β := List.replicate n none

/-- The load `b[i]`. -/
def ldBlk {β : Type} (b : Blk β) (i : ℕ) : Except MemErr β :=
  match b[i]? with
  | none => .error .outOfBounds
  | some none => .error .uninitialised
  | some (some v) => .ok v

/-- The store `b[i] = v`. -/
def stBlk {β : Type} (b : Blk β) (i : ℕ) (v : β) : Except MemErr (Blk β) :=
  if i < b.length then .ok (b.set i (some v)) else .error .outOfBounds

/-- `memcpy(dst, src, n * sizeof(...))`. -/
def cpBlk {β : Type} (dst src : Blk β) (n : ℕ) : Except MemErr (Blk β) :=
  if n ≤ dst.length ∧ n ≤ src.length then .ok (src.take n ++ dst.drop n) else .error .outOfBounds

/-- The comparisons of two doubles. -/
structure FCmp (F : Type) where
  lt : F → F → Bool
  le : F → F → Bool
  eq : F → F → Bool

/-- The comparisons of a linear order: doubles that are not NaN. -/
def ordCmp (α : Type) [LinearOrder α] : FCmp α :=
  ⟨fun a b => decide (a < b), fun a b => decide (a ≤ b), fun a b => decide (a = b)⟩

/-- The IEEE comparisons of doubles that may be NaN (`none`): every comparison with NaN is false. -/
def ieeeCmp (α : Type) [LinearOrder α] : FCmp (Option α) where
  lt a b := match a, b with | some a, some b => decide (a < b) | _, _ => false
  le a b := match a, b with | some a, some b => decide (a ≤ b) | _, _ => false
  eq a b := match a, b with | some a, some b => decide (a = b) | _, _ => false

section
variable {F : Type}

/-- `b[k] = v(k)` for the `k` of the list; the loops of `nondom_init` (c/nondominated.h:11-12) and c/pareto.c:211-213. -/
def fillM {β : Type} (v : ℕ → β) : List ℕ → Blk β → Except MemErr (Blk β)
  | [], b => .ok b
  | k :: ks, b => do
    let b ← stBlk b k (v k)
    fillM v ks b

/-- `nondom_init`, c/nondominated.h:7-14. -/
def nondomInitM (size : ℕ) : Except MemErr (Blk Bool) :=
  fillM (fun _ => true) (List.range size) (allocBlk size)

/-- The loop of `minmax_from_bool`, c/common.h:166-168. -/
def minmaxLoopM (maximise : Blk Bool) : List ℕ → Blk ℤ → Except MemErr (Blk ℤ)
  | [], b => .ok b
  | k :: ks, b => do
    let m ← ldBlk maximise k
    let b ← stBlk b k (if m then AGREE_MAXIMISE else AGREE_MINIMISE)
    minmaxLoopM maximise ks b

/-- `minmax_from_bool`, c/common.h:160-170. -/
def minmaxFromBoolM (nobj : ℕ) (maximise : Blk Bool) : Except MemErr (Blk ℤ) :=
  minmaxLoopM maximise (List.range nobj) (allocBlk nobj)

/-- The search for a maximised objective, c/nondominated.h:23-28. Returns `no_copy`. -/
def noCopyM (minmax : Blk ℤ) : List ℕ → Except MemErr Bool
  | [] => .ok true
  | d :: ds => do
    let m ← ldBlk minmax d
    if m > 0 then .ok false else noCopyM minmax ds

/-- `for (int k = 0; k < size; k++) pnew[k * dim + d] = -pnew[k * dim + d]`, c/nondominated.h:38-39. -/
def negColM (neg : F → F) (dim d : ℕ) : List ℕ → Blk F → Except MemErr (Blk F)
  | [], b => .ok b
  | k :: ks, b => do
    let v ← ldBlk b (k * dim + d)
    let b ← stBlk b (k * dim + d) (neg v)
    negColM neg dim d ks b

/-- The loop over the objectives, c/nondominated.h:35-40. -/
def negColsM (neg : F → F) (dim size : ℕ) (minmax : Blk ℤ) : List ℕ → Blk F → Except MemErr (Blk F)
  | [], b => .ok b
  | d :: ds, b => do
    let m ← ldBlk minmax d
    if m = 0 then .error .assertion                                        -- l. 36
    else if m > 0 then do
      let b ← negColM neg dim d (List.range size) b
      negColsM neg dim size minmax ds b
    else negColsM neg dim size minmax ds b

/-- `force_agree_minimize`, c/nondominated.h:16-42. -/
def forceAgreeMinimizeM (neg : F → F) (pts : Blk F) (dim size : ℕ) (minmax : Blk ℤ) (agree : ℤ) : Except MemErr (Blk F) :=
  if agree = AGREE_MINIMISE then .error .assertion                         -- l. 20
  else do
    let noCopy ← noCopyM minmax (List.range dim)
    if noCopy then .ok pts
    else do
      let pnew ← cpBlk (allocBlk (dim * size)) pts (dim * size)            -- l. 32-33
      negColsM neg dim size minmax (List.range dim) pnew

/-- The loops over `d`, c/nondominated.h:198-218.  The list holds the remaining values of `d`, `s` is `(j_leq_k, k_leq_j)`.
(Both rows are loaded even where `&&` would skip a comparison.) -/
def leqPairM (c : FCmp F) (pts : Blk F) (dim : ℕ) (minmax : Blk ℤ) (agree : ℤ) (j k : ℕ) :
    List ℕ → Bool × Bool → Except MemErr (Bool × Bool)
  | [], s => .ok s
  | d :: ds, s => do
    let a ← ldBlk pts (j * dim + d)
    let b ← ldBlk pts (k * dim + d)
    if agree < 0 then leqPairM c pts dim minmax agree j k ds (s.1 && c.le a b, s.2 && c.le b a)
    else if agree > 0 then leqPairM c pts dim minmax agree j k ds (s.1 && c.le b a, s.2 && c.le a b)
    else do
      let m ← ldBlk minmax d
      if m < 0 then leqPairM c pts dim minmax agree j k ds (s.1 && c.le a b, s.2 && c.le b a)
      else if m > 0 then leqPairM c pts dim minmax agree j k ds (s.1 && c.le b a, s.2 && c.le a b)
      else leqPairM c pts dim minmax agree j k ds s

/-- The inner loop, c/nondominated.h:182-230. The first component is the value returned at line 228, if it is. -/
def ndInnerM (c : FCmp F) (pts : Blk F) (dim : ℕ) (minmax : Blk ℤ) (agree : ℤ) (findDominated keepWeakly : Bool) (k : ℕ) :
    List ℕ → Blk Bool → Except MemErr (Option ℤ × Blk Bool)
  | [], nd => .ok (none, nd)
  | j :: js, nd => do
    let nk ← ldBlk nd k
    if !nk then .ok (none, nd)                                             -- l. 184
    else do
      let nj ← ldBlk nd j
      if !nj then ndInnerM c pts dim minmax agree findDominated keepWeakly k js nd   -- l. 185
      else do
        let lq ← leqPairM c pts dim minmax agree j k (List.range dim) (true, true)
        let ndk := !lq.1 || (keepWeakly && lq.2)                           -- l. 221
        let ndj := !lq.2 || lq.1                                           -- l. 223
        let nd ← stBlk nd k ndk
        let nd ← stBlk nd j ndj
        if !(ndk || ndj) then .error .assertion                            -- l. 225
        else if findDominated && (!ndk || !ndj) then .ok (some (if ndk then (j : ℤ) else (k : ℤ)), nd)
        else ndInnerM c pts dim minmax agree findDominated keepWeakly k js nd

/-- The outer loop, c/nondominated.h:181-231. -/
def ndOuterM (c : FCmp F) (pts : Blk F) (dim size : ℕ) (minmax : Blk ℤ) (agree : ℤ) (findDominated keepWeakly : Bool) :
    List ℕ → Blk Bool → Except MemErr (Option ℤ × Blk Bool)
  | [], nd => .ok (none, nd)
  | k :: ks, nd => do
    let r ← ndInnerM c pts dim minmax agree findDominated keepWeakly k (List.range' (k + 1) (size - (k + 1))) nd
    match r with
    | (some v, nd) => .ok (some v, nd)
    | (none, nd) => ndOuterM c pts dim size minmax agree findDominated keepWeakly ks nd

/-- Counting the flags, c/nondominated.h:235-238. -/
def countM (nd : Blk Bool) : List ℕ → ℤ → Except MemErr ℤ
  | [], n => .ok n
  | k :: ks, n => do
    let b ← ldBlk nd k
    countM nd ks (if b then n + 1 else n)

/-- `generate_sorted_pp_2d`, c/nondominated.h:54-63.  The pointer `points + 2 * k` is the row number `k`; `sortFn` is what `qsort` makes of the array. -/
def sortedPPM (sortFn : Blk F → List ℕ → List ℕ) (pts : Blk F) (size : ℕ) : Except MemErr (Blk ℕ) := do
  let _ ← fillM (fun k => k) (List.range size) (allocBlk size)
  .ok ((sortFn pts (List.range size)).map some)

/-- The scan of `find_dominated_2d_`, c/nondominated.h:73-88 (loops flattened as in `findDominated2dScan`). -/
def findDom2dM (c : FCmp F) (pts : Blk F) (p : Blk ℕ) (size : ℕ) (keepWeakly : Bool) : ℕ → ℕ → ℕ → Except MemErr ℤ
  | 0, _, _ => .error .outOfFuel
  | fuel + 1, k, j =>
    if j < size then do
      let rj ← ldBlk p j
      let rk ← ldBlk p k
      let yj ← ldBlk pts (2 * rj + 1)
      let yk ← ldBlk pts (2 * rk + 1)
      if c.le yk yj then do                                                -- l. 74
        let xj ← ldBlk pts (2 * rj)
        let xk ← ldBlk pts (2 * rk)
        if !keepWeakly || !c.eq xj xk || !c.eq yj yk then .ok (rj : ℤ)     -- l. 75-79
        else findDom2dM c pts p size keepWeakly fuel k (j + 1)
      else findDom2dM c pts p size keepWeakly fuel j (j + 1)               -- l. 83-84
    else .ok (-1)

/-- The scan of the two functions at c/nondominated.h:104-113 and 130-141 (loops flattened as in `nd2dScan`). -/
def nd2dScanM (c : FCmp F) (pts : Blk F) (p : Blk ℕ) (size : ℕ) (keepWeakly : Bool) :
    ℕ → ℕ → ℕ → Blk Bool → ℤ → Except MemErr (Blk Bool × ℤ)
  | 0, _, _, _, _ => .error .outOfFuel
  | fuel + 1, k, j, nd, n =>
    if j < size then do
      let rj ← ldBlk p j
      let rk ← ldBlk p k
      let yj ← ldBlk pts (2 * rj + 1)
      let yk ← ldBlk pts (2 * rk + 1)
      if c.le yk yj then do
        let xj ← ldBlk pts (2 * rj)
        let xk ← ldBlk pts (2 * rk)
        if !keepWeakly || !c.eq xj xk || !c.eq yj yk then do
          let nd ← stBlk nd j false
          nd2dScanM c pts p size keepWeakly fuel k (j + 1) nd (n + 1)
        else nd2dScanM c pts p size keepWeakly fuel k (j + 1) nd n
      else nd2dScanM c pts p size keepWeakly fuel j (j + 1) nd n
    else .ok (nd, n)

/-- `nondom_new[(p[k] - points) / 2] = nondom[k]`, c/nondominated.h:116-117 and 144-145. -/
def ndUnsortM (p : Blk ℕ) (nd : Blk Bool) : List ℕ → Blk Bool → Except MemErr (Blk Bool)
  | [], new => .ok new
  | k :: ks, new => do
    let r ← ldBlk p k
    let v ← ldBlk nd k
    let new ← stBlk new r v
    ndUnsortM p nd ks new

/-- `find_nondominated_set_delete_weakly_2d_` and `..._keep_weakly_2d_`, c/nondominated.h:99-150. -/
def findNd2dM (c : FCmp F) (sortFn : Blk F → List ℕ → List ℕ) (pts : Blk F) (size : ℕ) (nd : Blk Bool) (keepWeakly : Bool) :
    Except MemErr (ℤ × Blk Bool) := do
  let p ← sortedPPM sortFn pts size
  let r ← nd2dScanM c pts p size keepWeakly (size + 1) 0 1 nd 0
  let new ← ndUnsortM p r.1 (List.range size) (allocBlk size)
  let nd ← cpBlk r.1 new size
  .ok (r.2, nd)

/-- `find_nondominated_set_`, c/nondominated.h:159-239. -/
def findNdSetM (c : FCmp F) (neg : F → F) (sortFn : Blk F → List ℕ → List ℕ) (pts : Blk F) (dim size : ℕ) (minmax : Blk ℤ)
    (agree : ℤ) (nd : Blk Bool) (findDominated keepWeakly : Bool) : Except MemErr (ℤ × Blk Bool) :=
  if size < 2 then .ok (size, nd)
  else if dim = 2 then do
    let pp ← forceAgreeMinimizeM neg pts 2 size minmax agree
    if findDominated then do
      let p ← sortedPPM sortFn pp size
      let r ← findDom2dM c pp p size keepWeakly (size + 1) 0 1
      .ok (r, nd)
    else findNd2dM c sortFn pp size nd keepWeakly
  else do
    let r ← ndOuterM c pts dim size minmax agree findDominated keepWeakly (List.range (size - 1)) nd
    match r with
    | (some v, nd) => .ok (v, nd)
    | (none, nd) =>
      if findDominated then .ok (-1, nd)
      else do
        let n ← countM nd (List.range size) 0
        .ok (n, nd)

/-- `is_nondominated`, c/nondominated.h:316-326. -/
def isNondominatedM (c : FCmp F) (neg : F → F) (sortFn : Blk F → List ℕ → List ℕ) (data : Blk F) (nobj npoint : ℕ)
    (maximise : Blk Bool) (keepWeakly : Bool) : Except MemErr (Blk Bool) := do
  let nd ← nondomInitM npoint
  let minmax ← minmaxFromBoolM nobj maximise
  let r ← findNdSetM c neg sortFn data nobj npoint minmax AGREE_NONE nd false keepWeakly
  .ok r.2

/-- `find_dominated_point`, c/nondominated.h:241-253. -/
def findDominatedPointM (c : FCmp F) (neg : F → F) (sortFn : Blk F → List ℕ → List ℕ) (pts : Blk F) (dim size : ℕ)
    (minmax : Blk ℤ) : Except MemErr ℤ := do
  let nd ← nondomInitM size
  let r ← findNdSetM c neg sortFn pts dim size minmax AGREE_NONE nd true false
  .ok r.1

/-! ## `c/pareto.c` -/

/-- `dominates`, c/pareto.c:183-191; the list holds the remaining values of `d`. -/
def rkDomM (c : FCmp F) (pts : Blk F) (dim j k : ℕ) : List ℕ → Bool → Except MemErr Bool
  | [], s => .ok s
  | d :: ds, s => do
    let a ← ldBlk pts (j * dim + d)
    let b ← ldBlk pts (k * dim + d)
    rkDomM c pts dim j k ds (s && c.le a b)

/-- The loop over `k`, c/pareto.c:224-239. Returns `rank[]` and `nothing_new`. -/
def rkInnerM (c : FCmp F) (pts : Blk F) (dim level j : ℕ) : List ℕ → Blk ℕ → Bool → Except MemErr (Blk ℕ × Bool)
  | [], rank, nn => .ok (rank, nn)
  | k :: ks, rank, nn =>
    if k = j then rkInnerM c pts dim level j ks rank nn                    -- l. 225
    else do
      let rk ← ldBlk rank k
      if rk ≠ level - 1 then rkInnerM c pts dim level j ks rank nn         -- l. 226
      else do
        let jk ← rkDomM c pts dim j k (List.range dim) true
        let kj ← rkDomM c pts dim k j (List.range dim) true
        if jk && !kj then do
          let rank ← stBlk rank k (rk + 1)
          rkInnerM c pts dim level j ks rank false
        else if !jk && kj then do
          let rj ← ldBlk rank j
          let rank ← stBlk rank j (rj + 1)
          .ok (rank, false)
        else rkInnerM c pts dim level j ks rank nn

/-- The loop over `j`, c/pareto.c:219-240. -/
def rkPassM (c : FCmp F) (pts : Blk F) (dim size level : ℕ) : List ℕ → Blk ℕ → Bool → Except MemErr (Blk ℕ × Bool)
  | [], rank, nn => .ok (rank, nn)
  | j :: js, rank, nn => do
    let rj ← ldBlk rank j
    if ¬ rj ≤ level then .error .assertion                                 -- l. 220
    else if rj ≠ level - 1 then rkPassM c pts dim size level js rank nn    -- l. 222
    else do
      let r ← rkInnerM c pts dim level j (List.range size) rank nn
      rkPassM c pts dim size level js r.1 r.2

/-- The loop `do { ... level++; } while (!nothing_new)`, c/pareto.c:215-242. -/
def rkLevelsM (c : FCmp F) (pts : Blk F) (dim size : ℕ) : ℕ → ℕ → Blk ℕ → Except MemErr (Blk ℕ)
  | 0, _, _ => .error .outOfFuel
  | fuel + 1, level, rank => do
    let r ← rkPassM c pts dim size level (List.range size) rank true
    if r.2 then .ok r.1 else rkLevelsM c pts dim size fuel (level + 1) r.1

/-- The general algorithm, c/pareto.c:210-250. -/
def paretoRankGeneralM (c : FCmp F) (fuel : ℕ) (pts : Blk F) (dim size : ℕ) : Except MemErr (Blk ℕ) := do
  let rank ← fillM (fun _ => 1) (List.range size) (allocBlk size)
  rkLevelsM c pts dim size fuel 2 rank

/-- The binary search, c/pareto.c:93-107.  `di` holds the fields `data[].i`, that is, the row to which `data[].p` points; `fl` is `front_last`. -/
def rkSearchM (c : FCmp F) (pts : Blk F) (di fl : Blk ℕ) (asserts : Bool) (nFront : ℕ) (x y : F) :
    ℕ → ℕ → ℕ → Except MemErr ℕ
  | 0, _, _ => .error .outOfFuel
  | fuel + 1, low, high => do
    let mid := low + (high - low) / 2
    if asserts && !decide (mid ≤ nFront) then .error .assertion            -- l. 97
    else do
      let e ← ldBlk fl mid
      let r ← ldBlk di e
      let xm ← ldBlk pts (2 * r)
      let ym ← ldBlk pts (2 * r + 1)
      if c.lt y ym then                                                    -- l. 99
        if low < mid then rkSearchM c pts di fl asserts nFront x y fuel low mid else .ok low
      else if c.lt ym y || (c.eq y ym && c.lt xm x) then                   -- l. 101
        if mid + 1 < high then rkSearchM c pts di fl asserts nFront x y fuel (mid + 1) high else .ok (mid + 1)
      else .ok mid

/-- The body of the loop over `k`, c/pareto.c:91-122; the state is `n_front`, `front_last[]`, `data[].f`.  `asserts`: whether `assert` is
compiled in (no `-DNDEBUG`). -/
def rk2dStepM (c : FCmp F) (pts : Blk F) (di : Blk ℕ) (asserts : Bool) (k : ℕ) (s : ℕ × Blk ℕ × Blk ℕ) :
    Except MemErr (ℕ × Blk ℕ × Blk ℕ) := do
  let rk ← ldBlk di k
  let x ← ldBlk pts (2 * rk)
  let y ← ldBlk pts (2 * rk + 1)
  let e ← ldBlk s.2.1 s.1
  let rq ← ldBlk di e
  let xq ← ldBlk pts (2 * rq)
  let yq ← ldBlk pts (2 * rq + 1)
  if c.lt y yq then do
    let low ← rkSearchM c pts di s.2.1 asserts s.1 x y (s.1 + 2) 0 (s.1 + 1)
    if asserts && !decide (low ≤ s.1) then .error .assertion               -- l. 108
    else do
      let el ← if asserts then ldBlk s.2.1 low else .ok 0
      let rl ← if asserts then ldBlk di el else .ok 0
      let ok ← if asserts then do
          let xl ← ldBlk pts (2 * rl)
          let yl ← ldBlk pts (2 * rl + 1)
          .ok (c.lt y yl || (c.eq y yl && c.eq x xl))
        else .ok true
      if !ok then .error .assertion                                        -- l. 109-111
      else do
        let fl ← stBlk s.2.1 low k
        let f ← stBlk s.2.2 k low
        .ok (s.1, fl, f)
  else if c.eq y yq && c.eq x xq then do                                   -- l. 114
    let fl ← stBlk s.2.1 s.1 k
    let f ← stBlk s.2.2 k s.1
    .ok (s.1, fl, f)
  else do
    let fl ← stBlk s.2.1 (s.1 + 1) k
    let f ← stBlk s.2.2 k (s.1 + 1)
    .ok (s.1 + 1, fl, f)

/-- The loop over `k`, c/pareto.c:90-123. -/
def rk2dLoopM (c : FCmp F) (pts : Blk F) (di : Blk ℕ) (asserts : Bool) :
    List ℕ → ℕ × Blk ℕ × Blk ℕ → Except MemErr (ℕ × Blk ℕ × Blk ℕ)
  | [], s => .ok s
  | k :: ks, s => do
    let s ← rk2dStepM c pts di asserts k s
    rk2dLoopM c pts di asserts ks s

/-- `rank[data[k].i] = data[k].f + 1`, c/pareto.c:175-178. -/
def rk2dStoreM (di f : Blk ℕ) : List ℕ → Blk ℕ → Except MemErr (Blk ℕ)
  | [], rank => .ok rank
  | k :: ks, rank => do
    let i ← ldBlk di k
    let v ← ldBlk f k
    let rank ← stBlk rank i (v + 1)
    rk2dStoreM di f ks rank

/-- `pareto_rank_2D`, c/pareto.c:42-181 (`DEBUG < 2`).  The fields of `data[]` are separate blocks: `di` for `p` and `i`, `f`. -/
def paretoRank2dM (c : FCmp F) (sortFn : Blk F → List ℕ → List ℕ) (asserts : Bool) (pts : Blk F) (size : ℕ) : Except MemErr (Blk ℕ) := do
  let _ ← fillM (fun k => k) (List.range size) (allocBlk size)             -- l. 49-50
  let f ← fillM (fun _ => 0) (List.range size) (allocBlk size)             -- l. 51
  let di : Blk ℕ := (sortFn pts (List.range size)).map some                -- l. 72
  let fl ← stBlk (allocBlk size) 0 0                                       -- l. 88
  let f ← stBlk f 0 0                                                      -- l. 89
  let s ← rk2dLoopM c pts di asserts (List.range' 1 (size - 1)) (0, fl, f)
  rk2dStoreM di s.2.2 (List.range size) (allocBlk size)

/-- `pareto_rank`, c/pareto.c:199-251, compiled with `DEBUG == 0`. -/
def paretoRankM (c : FCmp F) (sortFn : Blk F → List ℕ → List ℕ) (asserts : Bool) (fuel : ℕ) (pts : Blk F) (dim size : ℕ) :
    Except MemErr (Blk ℕ) :=
  if dim = 2 then paretoRank2dM c sortFn asserts pts size else paretoRankGeneralM c fuel pts dim size

end

end Moo
