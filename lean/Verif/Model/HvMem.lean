import Verif.Model.Hv

/-!
# The memory accesses of the hypervolume computation (c/hv.c)

The functions of `Verif/Model/Hv.lean` once more, but on memory in which an access can go wrong.  Every cell is either undefined, as after
`malloc`, or holds a value.  The result of a function is `none` if the program

* reads a cell that is not initialised or lies outside the arrays,
* writes outside the arrays,
* follows the data pointer of the list head, which is `NULL` (c/hv.c:549), or reads the data or the reference point out of range,
* or makes more steps in one of its loops than the loop has nodes to visit.

The arrays `next`, `prev`, `area` and `vol` have `d * (n + 1)` cells, cell `i` of node `p` being cell `p * d + i` (c/hv.c:533-547), so cell
`i` of node `p` is in range when `i < d` and `p ≤ n`.  The simplifications of `Verif/Model/Hv.lean` hold here too: exact arithmetic, and the
tree is the list of its items.  (The nodes of the tree are in `Verif/Model/HvTree.lean`.)
-/

set_option autoImplicit false

namespace Moo

variable {K : Type} [Zero K] [One K] [Add K] [Sub K] [Mul K] [LT K] [DecidableLT K] [LE K] [DecidableLE K]

/-- The memory that c/hv.c:527-581 `setup_cdllist` and 1158 allocate: each cell is undefined (`none`) or has a value. -/
structure HvMem (K : Type) where
  next : ℕ → ℕ → Option ℕ
  prev : ℕ → ℕ → Option ℕ
  ignore : ℕ → Option ℕ
  area : ℕ → ℕ → Option K
  vol : ℕ → ℕ → Option K
  bound : ℕ → Option K

/-- The write `p->next[i] = q`. -/
def HvMem.setNext (n d : ℕ) (M : HvMem K) (i p q : ℕ) : Option (HvMem K) :=
  if i < d ∧ p ≤ n then some { M with next := upd2 M.next i p (some q) } else none

/-- The write `p->prev[i] = q`. -/
def HvMem.setPrev (n d : ℕ) (M : HvMem K) (i p q : ℕ) : Option (HvMem K) :=
  if i < d ∧ p ≤ n then some { M with prev := upd2 M.prev i p (some q) } else none

/-- The write `p->ignore = v`. -/
def HvMem.setIgnore (n : ℕ) (M : HvMem K) (p v : ℕ) : Option (HvMem K) :=
  if p ≤ n then some { M with ignore := upd M.ignore p (some v) } else none

/-- The write `p->area[i] = v`. -/
def HvMem.setArea (n d : ℕ) (M : HvMem K) (i p : ℕ) (v : K) : Option (HvMem K) :=
  if i < d ∧ p ≤ n then some { M with area := upd2 M.area i p (some v) } else none

/-- The write `p->vol[i] = v`. -/
def HvMem.setVol (n d : ℕ) (M : HvMem K) (i p : ℕ) (v : K) : Option (HvMem K) :=
  if i < d ∧ p ≤ n then some { M with vol := upd2 M.vol i p (some v) } else none

/-- The write `bound[i] = v`. -/
def HvMem.setBound (d : ℕ) (M : HvMem K) (i : ℕ) (v : K) : Option (HvMem K) :=
  if i < d then some { M with bound := upd M.bound i (some v) } else none

/-- The read `p->x[k]`; the head `0` has no data (c/hv.c:549). -/
def rdData (x : ℕ → ℕ → K) (n d p k : ℕ) : Option K := if (1 ≤ p ∧ p ≤ n) ∧ k < d then some (x p k) else none

/-- The read `ref[k]`. -/
def rdRef (ref : ℕ → K) (d k : ℕ) : Option K := if k < d then some (ref k) else none

/-- c/hv.c:557-568, in `setup_cdllist`. -/
def memLinkFrom (n d j : ℕ) : ℕ → List ℕ → HvMem K → Option (HvMem K)
  | a, [], M => do
    let M ← M.setNext n d j a 0
    M.setPrev n d j 0 a
  | a, q :: qs, M => do
    let M ← M.setNext n d j a q
    let M ← M.setPrev n d j q a
    memLinkFrom n d j q qs M

/-- c/hv.c:554-569, the loop of `setup_cdllist` over the dimensions. -/
def memLinkAll (n d : ℕ) (ords : ℕ → List ℕ) : ℕ → HvMem K → Option (HvMem K)
  | 0, M => some M
  | m + 1, M => do
    let M ← memLinkFrom n d m 0 (ords m) M
    memLinkAll n d ords m M

/-- c/hv.c:527-581 `setup_cdllist` and 1158-1159.  Everything is undefined except what the program writes: `ignore` of all nodes, `area` of the
head, and `bound` (the loops over these arrays are written as their effect). -/
def memSetup (n d : ℕ) (ords : ℕ → List ℕ) (b0 : K) : Option (HvMem K) :=
  memLinkAll n d ords d
    { next := fun _ _ => none, prev := fun _ _ => none, ignore := fun p => if p ≤ n then some 0 else none
      area := fun i p => if p = 0 ∧ i < d then some 0 else none, vol := fun _ _ => none
      bound := fun i => if i < d then some b0 else none }

/-- c/hv.c:593-603, the body of the loop of `delete`. -/
def memDeleteStep (x : ℕ → ℕ → K) (n d p i : ℕ) (M : HvMem K) : Option (HvMem K) := do
  let a ← M.prev i p
  let b ← M.next i p
  let M ← M.setNext n d i a b
  let b ← M.next i p
  let a ← M.prev i p
  let M ← M.setPrev n d i b a
  let bd ← M.bound i
  let v ← rdData x n d p i
  if bd > v then M.setBound d i v else some M

/-- c/hv.c:593-603 `delete`: the loop over `i = 2, …, 2 + m - 1`. -/
def memDeleteLoop (x : ℕ → ℕ → K) (n d p : ℕ) : ℕ → HvMem K → Option (HvMem K)
  | 0, M => some M
  | m + 1, M => do
    let M ← memDeleteLoop x n d p m M
    memDeleteStep x n d p (2 + m) M

/-- c/hv.c:605-613, the body of the loop of `reinsert`. -/
def memReinsertStep (x : ℕ → ℕ → K) (n d p i : ℕ) (M : HvMem K) : Option (HvMem K) := do
  let a ← M.prev i p
  let M ← M.setNext n d i a p
  let b ← M.next i p
  let M ← M.setPrev n d i b p
  let bd ← M.bound i
  let v ← rdData x n d p i
  if bd > v then M.setBound d i v else some M

/-- c/hv.c:605-613 `reinsert`: the loop over `i = 2, …, 2 + m - 1`. -/
def memReinsertLoop (x : ℕ → ℕ → K) (n d p : ℕ) : ℕ → HvMem K → Option (HvMem K)
  | 0, M => some M
  | m + 1, M => do
    let M ← memReinsertLoop x n d p m M
    memReinsertStep x n d p (2 + m) M

/-- c/hv.c:942-944, the height of the slice of `pp`. -/
def memHeight (x : ℕ → ℕ → K) (ref : ℕ → K) (n d : ℕ) (isLast : Bool) (pp : ℕ) (M : HvMem K) : Option K :=
  if isLast then do
    let r ← rdRef ref d 2
    let z ← rdData x n d pp 2
    some (r - z)
  else do
    let q ← M.next 2 pp
    let a ← rdData x n d q 2
    let z ← rdData x n d pp 2
    some (a - z)

/-- c/hv.c:945-996, the body of the loop of `fpli_hv3d_ref` after the height.  The items of the tree are data pointers of the nodes `T`; the update
reads them and the data of `pp`, so all of them must be nodes with data. -/
def memHv3dBody (x : ℕ → ℕ → K) (ref : ℕ → K) (n : ℕ) (pp : ℕ) (T : List ℕ) (hypera hyperv height : K) (M : HvMem K) :
    Option (List ℕ × K × K × HvMem K) := do
  let ig ← M.ignore pp
  if ig ≥ 2 then some (T, hypera, hyperv + hypera * height, M)
  else if ∀ t ∈ pp :: T, 1 ≤ t ∧ t ≤ n then
    match hv3dUpdate x ref T pp hypera with
    | none => do
      let M ← M.setIgnore n pp 2
      some (T, hypera, if height > 0 then hyperv + hypera * height else hyperv, M)
    | some (T', hypera') => some (T', hypera', if height > 0 then hyperv + hypera' * height else hyperv, M)
  else none

/-- c/hv.c:941-999, the `do … while` loop of `fpli_hv3d_ref`. -/
def memHv3dLoop (x : ℕ → ℕ → K) (ref : ℕ → K) (n d : ℕ) : ℕ → ℕ → List ℕ → K → K → HvMem K → Option (K × HvMem K)
  | 0, _, _, _, _, _ => none
  | fuel + 1, pp, T, hypera, hyperv, M => do
    let last ← M.prev 2 0
    let height ← memHeight x ref n d (decide (pp = last)) pp M
    let r ← memHv3dBody x ref n pp T hypera hyperv height M
    let pp' ← r.2.2.2.next 2 pp
    if pp' = 0 then some (r.2.2.1, r.2.2.2)
    else memHv3dLoop x ref n d fuel pp' r.1 r.2.1 r.2.2.1 r.2.2.2

/-- c/hv.c:924-1003 `fpli_hv3d_ref`. -/
def memHv3dRef (x : ℕ → ℕ → K) (ref : ℕ → K) (n d c : ℕ) (M : HvMem K) : Option (K × HvMem K) := do
  let pp ← M.next 2 0
  let r0 ← rdRef ref d 0
  let x0 ← rdData x n d pp 0
  let r1 ← rdRef ref d 1
  let x1 ← rdData x n d pp 1
  let height ← memHeight x ref n d (decide (c = 1)) pp M
  let q ← M.next 2 pp
  if q = 0 then some ((r0 - x0) * (r1 - x1) * height, M)
  else memHv3dLoop x ref n d c q [pp] ((r0 - x0) * (r1 - x1)) ((r0 - x0) * (r1 - x1) * height) M

/-- c/hv.c:1009-1019 `skip_or_recurse_ref`; `rec` is `hv_recursive_ref` for `dim - 1`. -/
def memSkip (rec : ℕ → HvMem K → Option (K × HvMem K)) (n d dim c p : ℕ) (M : HvMem K) : Option (HvMem K) := do
  let ig ← M.ignore p
  if ig ≥ dim then do
    let q ← M.prev dim p
    let a ← M.area dim q
    M.setArea n d dim p a
  else do
    let r ← rec c M
    let M ← r.2.setArea n d dim p r.1
    let a ← M.area dim p
    let q ← M.prev dim p
    let b ← M.area dim q
    if a ≤ b then M.setIgnore n p dim else some M

/-- c/hv.c:1033-1036, the loop that resets the marks of lower dimensions. -/
def memReset (n dim : ℕ) : ℕ → ℕ → HvMem K → Option (HvMem K)
  | 0, pp, M => if pp = 0 then some M else none
  | fuel + 1, pp, M =>
    if pp = 0 then some M
    else do
      let ig ← M.ignore pp
      let M ← if ig < dim then M.setIgnore n pp 0 else some M
      let q ← M.prev dim pp
      memReset n dim fuel q M

/-- c/hv.c:1037-1042, the condition of the loop that deletes nodes, with `c + 1` nodes in the list. -/
def memDelCond (x : ℕ → ℕ → K) (n d dim c p1 : ℕ) (M : HvMem K) : Option Bool :=
  if c + 1 > 1 then do
    let a ← rdData x n d p1 dim
    let bd ← M.bound dim
    if a > bd then some true
    else do
      let q ← M.prev dim p1
      let b ← rdData x n d q dim
      some (decide (b ≥ bd))
  else some false

/-- c/hv.c:1037-1048, the loop that deletes nodes from the end of the list. -/
def memDelLoop (x : ℕ → ℕ → K) (n d dim : ℕ) : ℕ → ℕ → ℕ → HvMem K → Option (ℕ × ℕ × ℕ × HvMem K)
  | 0, _, _, _ => none
  | c + 1, p0, p1, M => do
    let b ← memDelCond x n d dim c p1 M
    if b then do
      let M ← memDeleteLoop x n d p1 (dim - 2) M
      let q ← M.prev dim p1
      memDelLoop x n d dim c p1 q M
    else some (c + 1, p0, p1, M)

/-- c/hv.c:1055-1057, the products of the sides of the box of `p1`. -/
def memAreaInit (x : ℕ → ℕ → K) (ref : ℕ → K) (n d p1 : ℕ) : ℕ → HvMem K → Option (HvMem K)
  | 0, M => M.setArea n d 0 p1 1
  | m + 1, M => do
    let M ← memAreaInit x ref n d p1 m M
    let a ← M.area m p1
    let r ← rdRef ref d m
    let v ← rdData x n d p1 m
    M.setArea n d (m + 1) p1 (a * (r - v))

/-- c/hv.c:1062-1071, the loop that inserts the deleted nodes again. -/
def memMainLoop (rec : ℕ → HvMem K → Option (K × HvMem K)) (x : ℕ → ℕ → K) (n d dim : ℕ) :
    ℕ → ℕ → ℕ → ℕ → K → HvMem K → Option (K × ℕ × HvMem K)
  | 0, _, p0, p1, hyperv, M => if p0 = 0 then some (hyperv, p1, M) else none
  | fuel + 1, c, p0, p1, hyperv, M =>
    if p0 = 0 then some (hyperv, p1, M)
    else do
      let a ← M.area dim p1
      let v0 ← rdData x n d p0 dim
      let v1 ← rdData x n d p1 dim
      let M ← M.setBound d dim v0
      let M ← memReinsertLoop x n d p0 (dim - 2) M
      let q ← M.next dim p0
      let M ← M.setVol n d dim p0 (hyperv + a * (v0 - v1))
      let M ← memSkip rec n d dim (c + 1) p0 M
      memMainLoop rec x n d dim fuel (c + 1) q p0 (hyperv + a * (v0 - v1)) M

/-- c/hv.c:1050-1060, the volume below `p1`, with `c` nodes left in the list. -/
def memStart (x : ℕ → ℕ → K) (ref : ℕ → K) (n d dim c p1 : ℕ) (M : HvMem K) : Option (K × HvMem K) :=
  if c > 1 then do
    let q ← M.prev dim p1
    let v ← M.vol dim q
    let a ← M.area dim q
    let v1 ← rdData x n d p1 dim
    let vq ← rdData x n d q dim
    let M ← M.setVol n d dim p1 (v + a * (v1 - vq))
    some (v + a * (v1 - vq), M)
  else do
    let M ← memAreaInit x ref n d p1 dim M
    let M ← M.setVol n d dim p1 0
    some (0, M)

/-- c/hv.c:1028-1073, the case `dim > STOP_DIMENSION` of `hv_recursive_ref`; `rec` is `hv_recursive_ref` for `dim - 1`. -/
def memLevel (rec : ℕ → HvMem K → Option (K × HvMem K)) (x : ℕ → ℕ → K) (ref : ℕ → K) (n d dim c : ℕ) (M : HvMem K) :
    Option (K × HvMem K) := do
  let p ← M.prev dim 0
  let M ← memReset n dim c p M
  let r ← memDelLoop x n d dim c 0 p M
  let hs ← memStart x ref n d dim r.1 r.2.2.1 r.2.2.2
  let M ← memSkip rec n d dim r.1 r.2.2.1 hs.2
  let m ← memMainLoop rec x n d dim c r.1 r.2.1 r.2.2.1 hs.1 M
  let a ← m.2.2.area dim m.2.1
  let rf ← rdRef ref d dim
  let v ← rdData x n d m.2.1 dim
  some (m.1 + a * (rf - v), m.2.2)

/-- c/hv.c:1021-1081 `hv_recursive_ref` for `dim = k + 2`. -/
def memRec (x : ℕ → ℕ → K) (ref : ℕ → K) (n d : ℕ) : ℕ → ℕ → HvMem K → Option (K × HvMem K)
  | 0, c, M => memHv3dRef x ref n d c M
  | k + 1, c, M => memLevel (memRec x ref n d k) x ref n d (k + 3) c M

/-- c/hv.c:807-816, the body of the loop of `filter_delete_node`. -/
def memFilterDeleteStep (n d p i : ℕ) (M : HvMem K) : Option (HvMem K) := do
  let b ← M.next i p
  let a ← M.prev i p
  let M ← M.setPrev n d i b a
  let a ← M.prev i p
  let b ← M.next i p
  M.setNext n d i a b

/-- c/hv.c:807-816 `filter_delete_node`, the loop over `i = 0, …, m - 1`. -/
def memFilterDeleteNode (n d p : ℕ) : ℕ → HvMem K → Option (HvMem K)
  | 0, M => some M
  | m + 1, M => do
    let M ← memFilterDeleteNode n d p m M
    memFilterDeleteStep n d p m M

/-- c/hv.c:1123-1131, the inner loop of `filter_ref` for dimension `i`; `c` is the number of points. -/
def memFilterDim (x : ℕ → ℕ → K) (ref : ℕ → K) (n d i : ℕ) : ℕ → ℕ → ℕ → HvMem K → Option (ℕ × HvMem K)
  | 0, _, c, M => some (c, M)
  | np + 1, aux, c, M => do
    let v ← rdData x n d aux i
    let r ← rdRef ref d i
    if v < r then some (c, M)
    else do
      let M ← memFilterDeleteNode n d aux d M
      let q ← M.prev i aux
      memFilterDim x ref n d i np q (c - 1) M

/-- c/hv.c:1116-1134 `filter_ref`, the loop over `i = 0, …, m - 1`. -/
def memFilterRef (x : ℕ → ℕ → K) (ref : ℕ → K) (n d : ℕ) : ℕ → ℕ → HvMem K → Option (ℕ × HvMem K)
  | 0, c, M => some (c, M)
  | m + 1, c, M => do
    let r ← memFilterRef x ref n d m c M
    let q ← r.2.prev m 0
    memFilterDim x ref n d m r.1 q r.1 r.2

/-- c/hv.c:1150-1153, the product for a single point, for `i = 0, …, m - 1`. -/
def memBox (x : ℕ → ℕ → K) (ref : ℕ → K) (n d p : ℕ) : ℕ → Option K
  | 0 => some 1
  | m + 1 => do
    let a ← memBox x ref n d p m
    let r ← rdRef ref d m
    let v ← rdData x n d p m
    some (a * (r - v))

/-- c/hv.c:1140-1167, `fpli_hv` for `d > 2`, on the memory that it allocates. -/
def fpliHvMem (x : ℕ → ℕ → K) (d n : ℕ) (ref : ℕ → K) (ords : ℕ → List ℕ) (b0 : K) : Option K := do
  let M ← memSetup n d ords b0
  let r ← memFilterRef x ref n d d n M
  if r.1 = 0 then some 0
  else if r.1 = 1 then do
    let p ← r.2.next 0 0
    memBox x ref n d p d
  else do
    let v ← memRec x ref n d (d - 3) r.1 r.2
    some v.1

end Moo
