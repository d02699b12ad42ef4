import Verif.Model.Hv2d
import Verif.Model.Avl

/-!
# Model of the hypervolume computation for three or more objectives (c/hv.c)

Modelled: `compare_node`, `compare_tree_asc`, `setup_cdllist`, `delete`, `reinsert`, `fpli_hv3d_ref`, `skip_or_recurse_ref`,
`hv_recursive_ref` (the cases that `fpli_hv` can reach, `dim ≥ 2`), `filter_delete_node`, `filter_ref` and `fpli_hv`.

Conventions.

* Doubles are elements of a linearly ordered ring `K` with exact arithmetic; infinities and NaN are not represented.  (Some functions are stated for any type with
  the operations, so that `Verif/Props/HvNan.lean` can use them with NaN.)
* `dlnode_t` pointers are numbers: the node `head + i` is `i`.  So the list head is `0` and row `i` of the data is node
  `i + 1`.  The test `p->x == NULL` is `p = 0`.  The data vector of a node is the row of the table `x`.
* The memory of the nodes is the record `HvState`, one function per field, modified by single writes as in the program.
* The AVL tree is represented by the list of its items from first to last (the list threaded through `prev`/`next` of the tree
  nodes).  `avl_search_closest` finds the place where the searched item belongs, that is, it splits this list after the items that
  compare smaller; this is proved of the tree code separately (`Verif/Props/Avl.lean`).  `Verif/Model/HvTree.lean` has the same functions on
  the nodes of the tree, and `Verif/Props/HvTree.lean` shows that they give the same results.
* Loops that follow pointers have a fuel argument, which is the number of nodes in the list; the theorems show that it suffices.
-/

set_option autoImplicit false

namespace Moo

variable {K : Type*} [CommRing K] [LinearOrder K]

/-- c/hv.c:495-504 `dlnode_t` (all nodes) together with the array `bound` of `hv_recursive_ref`.
`next i p` is `p->next[i]`, and likewise for the other arrays.  `tree` is the tree with its nodes; only the functions of `Verif/Model/HvTree.lean` use it. -/
structure HvState (K : Type*) where
  next : ℕ → ℕ → ℕ
  prev : ℕ → ℕ → ℕ
  ignore : ℕ → ℕ
  area : ℕ → ℕ → K
  vol : ℕ → ℕ → K
  bound : ℕ → K
  tree : AvlHeap

/-- The write `a[i][p] = v`. -/
def upd2 {β : Type*} (a : ℕ → ℕ → β) (i p : ℕ) (v : β) : ℕ → ℕ → β := upd a i (upd (a i) p v)

/-- c/hv.c:506-512 `compare_node`; the pointer `x` has been moved to coordinate `j` by `setup_cdllist`. -/
def compareNode {K : Type*} [LT K] [DecidableLT K] (x : ℕ → ℕ → K) (j : ℕ) (p q : ℕ) : ℤ :=
  if x p j < x q j then -1 else if x p j > x q j then 1 else 0

/-- c/hv.c:514-521 `compare_tree_asc`. -/
def compareTreeAsc {K : Type*} [LT K] [DecidableLT K] [LE K] [DecidableLE K] (x1 x2 : ℕ → K) : ℤ :=
  if x1 1 > x2 1 then -1 else if x1 1 < x2 1 then 1 else if x1 0 ≥ x2 0 then -1 else 1

/-- c/hv.c:557-568, in `setup_cdllist`: link the nodes of a sorted array into the circular list of dimension `j`, starting
behind node `a`. -/
def linkFrom (j : ℕ) : ℕ → List ℕ → HvState K → HvState K
  | a, [], S => { S with next := upd2 S.next j a 0, prev := upd2 S.prev j 0 a }
  | a, q :: qs, S => linkFrom j q qs { S with next := upd2 S.next j a q, prev := upd2 S.prev j q a }

/-- c/hv.c:554-569, the loop of `setup_cdllist` over the dimensions `m - 1, …, 0`; `ords j` is the array `scratch` after the
`qsort` for dimension `j`. -/
def linkAll (ords : ℕ → List ℕ) : ℕ → HvState K → HvState K
  | 0, S => S
  | m + 1, S => linkAll ords m (linkFrom m 0 (ords m) S)

/-- The arrays `scratch` that the successive calls of `qsort` in `setup_cdllist` (c/hv.c:550-557) may produce: the array for
dimension `d - 1` is a sorted version of the nodes `1, …, n`, and the array of each dimension is what sorting the array of the dimension above gives. -/
def HvOrders {K : Type*} [LT K] [DecidableLT K] (x : ℕ → ℕ → K) (d n : ℕ) (ords : ℕ → List ℕ) : Prop :=
  Qsort (compareNode x (d - 1)) (List.range' 1 n) (ords (d - 1)) ∧
    ∀ j, j + 1 < d → Qsort (compareNode x j) (ords (j + 1)) (ords j)

/-- c/hv.c:527-581 `setup_cdllist` and 1158-1159 (initial `bound`).  `mem` is the uninitialised memory returned by `malloc`. -/
def setupCdllist (ords : ℕ → List ℕ) (d : ℕ) (b0 : K) (mem : HvState K) : HvState K :=
  linkAll ords d { mem with
    ignore := fun _ => 0
    area := fun i p => if p = 0 ∧ i < d then 0 else mem.area i p
    bound := fun _ => b0 }

/-- c/hv.c:593-603, the body of the loop of `delete` for dimension `i`. -/
def hvDeleteStep (x : ℕ → ℕ → K) (p i : ℕ) (S : HvState K) : HvState K :=
  let S := { S with next := upd2 S.next i (S.prev i p) (S.next i p) }
  let S := { S with prev := upd2 S.prev i (S.next i p) (S.prev i p) }
  if S.bound i > x p i then { S with bound := upd S.bound i (x p i) } else S

/-- c/hv.c:593-603 `delete`: the loop over `i = 2, …, 2 + m - 1`. -/
def hvDeleteLoop (x : ℕ → ℕ → K) (p : ℕ) : ℕ → HvState K → HvState K
  | 0, S => S
  | m + 1, S => hvDeleteStep x p (2 + m) (hvDeleteLoop x p m S)

/-- c/hv.c:593-603 `delete`. -/
def hvDelete (x : ℕ → ℕ → K) (p dim : ℕ) (S : HvState K) : HvState K := hvDeleteLoop x p (dim - 2) S

/-- c/hv.c:605-613, the body of the loop of `reinsert` for dimension `i`. -/
def hvReinsertStep (x : ℕ → ℕ → K) (p i : ℕ) (S : HvState K) : HvState K :=
  let S := { S with next := upd2 S.next i (S.prev i p) p }
  let S := { S with prev := upd2 S.prev i (S.next i p) p }
  if S.bound i > x p i then { S with bound := upd S.bound i (x p i) } else S

/-- c/hv.c:605-613 `reinsert`: the loop over `i = 2, …, 2 + m - 1`. -/
def hvReinsertLoop (x : ℕ → ℕ → K) (p : ℕ) : ℕ → HvState K → HvState K
  | 0, S => S
  | m + 1, S => hvReinsertStep x p (2 + m) (hvReinsertLoop x p m S)

/-- c/hv.c:605-613 `reinsert`. -/
def hvReinsert (x : ℕ → ℕ → K) (p dim : ℕ) (S : HvState K) : HvState K := hvReinsertLoop x p (dim - 2) S

/-- c/hv.c:967-986, the loop that removes the items dominated by `pp` from the tree.  The list is the chain of `prev` pointers
starting at `tnode`.  Result: the chain that is left, the new value of `hypera`, and `prv_ip[1]` after line 986. -/
def hv3dPop {K : Type*} [Sub K] [Mul K] [LT K] [DecidableLT K] (x : ℕ → ℕ → K) (ref : ℕ → K) (pp : ℕ) (nxt0 : K) : List ℕ → K → List ℕ × K × K
  | [], hypera => ([], hypera, ref 1)
  | [cur], hypera => ([], hypera - (ref 1 - x cur 1) * (nxt0 - x cur 0), ref 1)
  | cur :: prv :: rest, hypera =>
    let hypera' := hypera - (x prv 1 - x cur 1) * (nxt0 - x cur 0)
    if x prv 0 < x pp 0 then (prv :: rest, hypera', x prv 1)
    else hv3dPop x ref pp nxt0 (prv :: rest) hypera'

/-- c/hv.c:949-957, `nxt_ip[0]`: the first coordinate of the next item of the tree, or of the reference point if there is none. -/
def nextX {K : Type*} (x : ℕ → ℕ → K) (ref : ℕ → K) : List ℕ → K
  | [] => ref 0
  | t :: _ => x t 0

/-- c/hv.c:948-993, the update of the tree `T` and of `hypera` for the point `pp`; `none` is the branch `pp->ignore = 2` of line 993, which changes neither. -/
def hv3dUpdate {K : Type*} [Add K] [Sub K] [Mul K] [LT K] [DecidableLT K] [LE K] [DecidableLE K] (x : ℕ → ℕ → K) (ref : ℕ → K) (T : List ℕ) (pp : ℕ) (hypera : K) : Option (List ℕ × K) :=
  let before := T.takeWhile (fun t => decide (0 < compareTreeAsc (x pp) (x t)))
  let after := T.dropWhile (fun t => decide (0 < compareTreeAsc (x pp) (x t)))
  let nxt0 := nextX x ref after
  if nxt0 > x pp 0 then
    match before.reverse with
    | [] => some (pp :: after, hypera + (ref 1 - x pp 1) * (nxt0 - x pp 0))
    | t :: rest =>
      if x t 0 > x pp 0 then
        let r := hv3dPop x ref pp nxt0 (t :: rest) hypera
        some (r.1.reverse ++ pp :: after, r.2.1 + (r.2.2 - x pp 1) * (nxt0 - x pp 0))
      else some (before ++ pp :: after, hypera + (x t 1 - x pp 1) * (nxt0 - x pp 0))
  else none

/-- c/hv.c:941-999, the `do … while` loop of `fpli_hv3d_ref`. -/
def hv3dLoop (x : ℕ → ℕ → K) (ref : ℕ → K) : ℕ → ℕ → List ℕ → K → K → HvState K → K × HvState K
  | 0, _, _, _, hyperv, S => (hyperv, S)
  | fuel + 1, pp, T, hypera, hyperv, S =>
    let height := if pp = S.prev 2 0 then ref 2 - x pp 2 else x (S.next 2 pp) 2 - x pp 2
    let r : List ℕ × K × K × HvState K :=
      if S.ignore pp ≥ 2 then (T, hypera, hyperv + hypera * height, S)
      else match hv3dUpdate x ref T pp hypera with
        | none => (T, hypera, if height > 0 then hyperv + hypera * height else hyperv,
            { S with ignore := upd S.ignore pp 2 })
        | some (T', hypera') => (T', hypera', if height > 0 then hyperv + hypera' * height else hyperv, S)
    let pp' := S.next 2 pp
    if pp' = 0 then (r.2.2.1, r.2.2.2)
    else hv3dLoop x ref fuel pp' r.1 r.2.1 r.2.2.1 r.2.2.2

/-- c/hv.c:924-1003 `fpli_hv3d_ref`. -/
def hv3dRef (x : ℕ → ℕ → K) (ref : ℕ → K) (c : ℕ) (S : HvState K) : K × HvState K :=
  let pp := S.next 2 0
  let hypera := (ref 0 - x pp 0) * (ref 1 - x pp 1)
  let height := if c = 1 then ref 2 - x pp 2 else x (S.next 2 pp) 2 - x pp 2
  let hyperv := hypera * height
  if S.next 2 pp = 0 then (hyperv, S)
  else hv3dLoop x ref c (S.next 2 pp) [pp] hypera hyperv S

/-- c/hv.c:1009-1019 `skip_or_recurse_ref`; `rec` is `hv_recursive_ref` for `dim - 1`. -/
def skipOrRecurse (rec : ℕ → HvState K → K × HvState K) (dim c p : ℕ) (S : HvState K) : HvState K :=
  if S.ignore p ≥ dim then { S with area := upd2 S.area dim p (S.area dim (S.prev dim p)) }
  else
    let r := rec c S
    let S : HvState K := { r.2 with area := upd2 r.2.area dim p r.1 }
    if S.area dim p ≤ S.area dim (S.prev dim p) then { S with ignore := upd S.ignore p dim } else S

/-- c/hv.c:1033-1036, the loop that resets the marks of lower dimensions. -/
def hvReset (dim : ℕ) : ℕ → ℕ → HvState K → HvState K
  | 0, _, S => S
  | fuel + 1, pp, S =>
    if pp = 0 then S
    else
      let S := if S.ignore pp < dim then { S with ignore := upd S.ignore pp 0 } else S
      hvReset dim fuel (S.prev dim pp) S

/-- c/hv.c:1037-1048, the loop that deletes nodes from the end of the list.  Result: `c`, `p0`, `p1` and the memory. -/
def hvDelLoop (x : ℕ → ℕ → K) (dim : ℕ) : ℕ → ℕ → ℕ → HvState K → ℕ × ℕ × ℕ × HvState K
  | 0, p0, p1, S => (0, p0, p1, S)
  | c + 1, p0, p1, S =>
    if c + 1 > 1 ∧ (x p1 dim > S.bound dim ∨ x (S.prev dim p1) dim ≥ S.bound dim) then
      let S := hvDelete x p1 dim S
      hvDelLoop x dim c p1 (S.prev dim p1) S
    else (c + 1, p0, p1, S)

/-- c/hv.c:1055-1057, the products of the sides of the box of `p1`, for `i = 0, …, m`. -/
def hvAreaInit (x : ℕ → ℕ → K) (ref : ℕ → K) (p1 : ℕ) : ℕ → HvState K → HvState K
  | 0, S => { S with area := upd2 S.area 0 p1 1 }
  | m + 1, S =>
    let S := hvAreaInit x ref p1 m S
    { S with area := upd2 S.area (m + 1) p1 (S.area m p1 * (ref m - x p1 m)) }

/-- c/hv.c:1062-1071, the loop that inserts the deleted nodes again.  Result: `hyperv`, `p1` and the memory. -/
def hvMainLoop (rec : ℕ → HvState K → K × HvState K) (x : ℕ → ℕ → K) (dim : ℕ) :
    ℕ → ℕ → ℕ → ℕ → K → HvState K → K × ℕ × HvState K
  | 0, _, _, p1, hyperv, S => (hyperv, p1, S)
  | fuel + 1, c, p0, p1, hyperv, S =>
    if p0 = 0 then (hyperv, p1, S)
    else
      let hyperv := hyperv + S.area dim p1 * (x p0 dim - x p1 dim)
      let S := { S with bound := upd S.bound dim (x p0 dim) }
      let S := hvReinsert x p0 dim S
      let p1 := p0
      let p0 := S.next dim p0
      let S := { S with vol := upd2 S.vol dim p1 hyperv }
      let S := skipOrRecurse rec dim (c + 1) p1 S
      hvMainLoop rec x dim fuel (c + 1) p0 p1 hyperv S

/-- c/hv.c:1028-1073, the case `dim > STOP_DIMENSION` of `hv_recursive_ref`; `rec` is `hv_recursive_ref` for `dim - 1`. -/
def hvLevel (rec : ℕ → HvState K → K × HvState K) (x : ℕ → ℕ → K) (ref : ℕ → K) (dim c : ℕ) (S : HvState K) :
    K × HvState K :=
  let S := hvReset dim c (S.prev dim 0) S
  let r := hvDelLoop x dim c 0 (S.prev dim 0) S
  let cc := r.1
  let p0 := r.2.1
  let p1 := r.2.2.1
  let S := r.2.2.2
  let hs : K × HvState K :=
    if cc > 1 then
      let q := S.prev dim p1
      let hyperv := S.vol dim q + S.area dim q * (x p1 dim - x q dim)
      (hyperv, { S with vol := upd2 S.vol dim p1 hyperv })
    else
      let S := hvAreaInit x ref p1 dim S
      (0, { S with vol := upd2 S.vol dim p1 0 })
  let S := skipOrRecurse rec dim cc p1 hs.2
  let m := hvMainLoop rec x dim c cc p0 p1 hs.1 S
  (m.1 + m.2.2.area dim m.2.1 * (ref dim - x m.2.1 dim), m.2.2)

/-- c/hv.c:1021-1081 `hv_recursive_ref` for `dim = k + 2`. -/
def hvRec (x : ℕ → ℕ → K) (ref : ℕ → K) : ℕ → ℕ → HvState K → K × HvState K
  | 0, c, S => hv3dRef x ref c S
  | k + 1, c, S => hvLevel (hvRec x ref k) x ref (k + 3) c S

/-- c/hv.c:807-816, the body of the loop of `filter_delete_node` for dimension `i`. -/
def filterDeleteStep (p i : ℕ) (S : HvState K) : HvState K :=
  let S := { S with prev := upd2 S.prev i (S.next i p) (S.prev i p) }
  { S with next := upd2 S.next i (S.prev i p) (S.next i p) }

/-- c/hv.c:807-816 `filter_delete_node`, the loop over `i = 0, …, m - 1`. -/
def filterDeleteNode (p : ℕ) : ℕ → HvState K → HvState K
  | 0, S => S
  | m + 1, S => filterDeleteStep p m (filterDeleteNode p m S)

/-- c/hv.c:1123-1131, the inner loop of `filter_ref` for dimension `i`, with the count `np` of iterations left, the node `aux` and the
number `n` of points. -/
def filterDim (x : ℕ → ℕ → K) (ref : ℕ → K) (d i : ℕ) : ℕ → ℕ → ℕ → HvState K → ℕ × HvState K
  | 0, _, n, S => (n, S)
  | np + 1, aux, n, S =>
    if x aux i < ref i then (n, S)
    else
      let S := filterDeleteNode aux d S
      filterDim x ref d i np (S.prev i aux) (n - 1) S

/-- c/hv.c:1116-1134 `filter_ref`, the loop over `i = 0, …, m - 1`. -/
def filterRef (x : ℕ → ℕ → K) (ref : ℕ → K) (d : ℕ) : ℕ → ℕ → HvState K → ℕ × HvState K
  | 0, n, S => (n, S)
  | m + 1, n, S =>
    let r := filterRef x ref d m n S
    filterDim x ref d m r.1 (r.2.prev m 0) r.1 r.2

/-- c/hv.c:1150-1153, the product for a single point, for `i = 0, …, m - 1`. -/
def boxProduct (x : ℕ → ℕ → K) (ref : ℕ → K) (p : ℕ) : ℕ → K
  | 0 => 1
  | m + 1 => boxProduct x ref p m * (ref m - x p m)

/-- c/hv.c:1140-1167, `fpli_hv` for `d > 2`. -/
def fpliHvN (x : ℕ → ℕ → K) (d n : ℕ) (ref : ℕ → K) (ords : ℕ → List ℕ) (b0 : K) (mem : HvState K) : K :=
  let r := filterRef x ref d d n (setupCdllist ords d b0 mem)
  if r.1 = 0 then 0
  else if r.1 = 1 then boxProduct x ref (r.2.next 0 0) d
  else (hvRec x ref (d - 3) r.1 r.2).1

/-- What the environment contributes to a run of `fpli_hv`: the results of `qsort`, the value `-DBL_MAX` and the uninitialised memory. -/
structure HvEnv (K : Type*) where
  ps : List ℕ
  ords : ℕ → List ℕ
  b0 : K
  mem : HvState K

/-- The data vector of a node, c/hv.c:541-547: node `p` holds row `p - 1`. -/
def nodeTable {K : Type*} (pts : ℕ → ℕ → K) : ℕ → ℕ → K := fun p => pts (p - 1)

/-- c/hv.c:1136-1167 `fpli_hv`. -/
def fpliHv (pts : ℕ → ℕ → K) (d n : ℕ) (ref : ℕ → K) (env : HvEnv K) : K :=
  if n = 0 then 0
  else if d = 2 then hv2d pts env.ps ref
  else fpliHvN (nodeTable pts) d n ref env.ords env.b0 env.mem

/-- Environments that the C library may present: the calls of `qsort` that are made sort, and `-DBL_MAX` is not larger than any
coordinate. -/
def HvEnvOk (pts : ℕ → ℕ → K) (d n : ℕ) (env : HvEnv K) : Prop :=
  (d = 2 → Qsort (compareXAscYAsc pts) (List.range n) env.ps) ∧
    (d ≠ 2 → HvOrders (nodeTable pts) d n env.ords) ∧ ∀ i < n, ∀ k < d, env.b0 ≤ pts i k

end Moo
