import Verif.Model.Hv

/-!
# Model of `fpli_hv_shift` (c/hv.c), the variant of the hypervolume that moves the reference point to zero

The functions without reference point that differ from those of `Verif/Model/Hv.lean` are modelled here; `setup_cdllist`, `delete`, `reinsert`, `filter_delete_node` and `hv2d` are the
same functions.  The conventions are those of `Verif/Model/Hv.lean`.
-/

set_option autoImplicit false

namespace Moo

variable {K : Type*} [CommRing K] [LinearOrder K]

/-- c/hv.c:881-887 `shift_reference`. -/
def shiftReference (pts : ℕ → ℕ → K) (d n : ℕ) (ref : ℕ → K) : ℕ → ℕ → K := fun i k => if i < n ∧ k < d then pts i k - ref k else pts i k

/-- c/hv.c:656-679, the removal of the items dominated by `pp` from the tree and the new `hypera`.  The list is the chain of `prev` pointers starting at `tnode`. -/
def hv3dPopZ (x : ℕ → ℕ → K) (pp : ℕ) (nxt0 : K) : List ℕ → K → List ℕ × K
  | [], hypera => ([], hypera)
  | [cur], hypera => ([], hypera - -x cur 1 * (nxt0 - x cur 0) + -x pp 1 * (nxt0 - x pp 0))
  | cur :: prv :: rest, hypera =>
    let hypera' := hypera - (x prv 1 - x cur 1) * (nxt0 - x cur 0)
    if x prv 0 < x pp 0 then (prv :: rest, hypera' + (x prv 1 - x pp 1) * (nxt0 - x pp 0))
    else hv3dPopZ x pp nxt0 (prv :: rest) hypera'

/-- c/hv.c:639-647, `nxt_ip0`. -/
def nextXZ (x : ℕ → ℕ → K) : List ℕ → K
  | [] => 0
  | t :: _ => x t 0

/-- c/hv.c:638-687, the update of the tree `T` and of `hypera` for the point `pp`; `none` is the branch `pp->ignore = 2`. -/
def hv3dUpdateZ (x : ℕ → ℕ → K) (T : List ℕ) (pp : ℕ) (hypera : K) : Option (List ℕ × K) :=
  let before := T.takeWhile (fun t => decide (0 < compareTreeAsc (x pp) (x t)))
  let after := T.dropWhile (fun t => decide (0 < compareTreeAsc (x pp) (x t)))
  let nxt0 := nextXZ x after
  if nxt0 > x pp 0 then
    match before.reverse with
    | [] => some (pp :: after, hypera + -x pp 1 * (nxt0 - x pp 0))
    | t :: rest =>
      if x t 0 > x pp 0 then
        let r := hv3dPopZ x pp nxt0 (t :: rest) hypera
        some (r.1.reverse ++ pp :: after, r.2)
      else some (before ++ pp :: after, hypera + (x t 1 - x pp 1) * (nxt0 - x pp 0))
  else none

/-- c/hv.c:632-693, the `do … while` loop of `fpli_hv3d`. -/
def hv3dLoopZ (x : ℕ → ℕ → K) : ℕ → ℕ → List ℕ → K → K → HvState K → K × HvState K
  | 0, _, _, _, hyperv, S => (hyperv, S)
  | fuel + 1, pp, T, hypera, hyperv, S =>
    let height := if pp = S.prev 2 0 then -x pp 2 else x (S.next 2 pp) 2 - x pp 2
    let r : List ℕ × K × K × HvState K :=
      if S.ignore pp ≥ 2 then (T, hypera, hyperv + hypera * height, S)
      else match hv3dUpdateZ x T pp hypera with
        | none => (T, hypera, if height > 0 then hyperv + hypera * height else hyperv,
            { S with ignore := upd S.ignore pp 2 })
        | some (T', hypera') => (T', hypera', if height > 0 then hyperv + hypera' * height else hyperv, S)
    let pp' := S.next 2 pp
    if pp' = 0 then (r.2.2.1, r.2.2.2)
    else hv3dLoopZ x fuel pp' r.1 r.2.1 r.2.2.1 r.2.2.2

/-- c/hv.c:615-697 `fpli_hv3d`. -/
def hv3dZ (x : ℕ → ℕ → K) (c : ℕ) (S : HvState K) : K × HvState K :=
  let pp := S.next 2 0
  let hypera := x pp 0 * x pp 1
  let height := if c = 1 then -x pp 2 else x (S.next 2 pp) 2 - x pp 2
  let hyperv := hypera * height
  if S.next 2 pp = 0 then (hyperv, S)
  else hv3dLoopZ x c (S.next 2 pp) [pp] hypera hyperv S

/-- c/hv.c:747-749, the products of the sides of the box of `p1`, for `i = 0, …, m`. -/
def hvAreaInitZ (x : ℕ → ℕ → K) (p1 : ℕ) : ℕ → HvState K → HvState K
  | 0, S => { S with area := upd2 S.area 0 p1 1 }
  | m + 1, S =>
    let S := hvAreaInitZ x p1 m S
    { S with area := upd2 S.area (m + 1) p1 (S.area m p1 * -x p1 m) }

/-- c/hv.c:720-765, the case `dim > STOP_DIMENSION` of `hv_recursive`; `rec` is `hv_recursive` for `dim - 1`.  The loops are the same code as in `hv_recursive_ref`;
`skip_or_recurse`, c/hv.c:701-711, is the same code as `skip_or_recurse_ref`. -/
def hvLevelZ (rec : ℕ → HvState K → K × HvState K) (x : ℕ → ℕ → K) (dim c : ℕ) (S : HvState K) :
    K × HvState K :=
  let S := hvReset dim c (S.prev dim 0) S
  let r := hvDelLoop x dim c 0 (S.prev dim 0) S
  let cc := r.1
  let p0 := r.2.1
  let p1 := r.2.2.1
  let S := r.2.2.2
  let hs : K × HvState K :=
    if cc > 1 then
      let q := S.prev dim p1
      let hyperv := S.vol dim q + S.area dim q * (x p1 dim - x q dim)
      (hyperv, { S with vol := upd2 S.vol dim p1 hyperv })
    else
      let S := hvAreaInitZ x p1 dim S
      (0, { S with vol := upd2 S.vol dim p1 0 })
  let S := skipOrRecurse rec dim cc p1 hs.2
  let m := hvMainLoop rec x dim c cc p0 p1 hs.1 S
  (m.1 + m.2.2.area dim m.2.1 * -x m.2.1 dim, m.2.2)

/-- c/hv.c:713-773 `hv_recursive` for `dim = k + 2`. -/
def hvRecZ (x : ℕ → ℕ → K) : ℕ → ℕ → HvState K → K × HvState K
  | 0, c, S => hv3dZ x c S
  | k + 1, c, S => hvLevelZ (hvRecZ x k) x (k + 3) c S

/-- c/hv.c:828-838, the inner loop of `filter` for dimension `i`. -/
def filterDimZ (x : ℕ → ℕ → K) (d i : ℕ) : ℕ → ℕ → ℕ → HvState K → ℕ × HvState K
  | 0, _, n, S => (n, S)
  | np + 1, aux, n, S =>
    if x aux i < 0 then (n, S)
    else
      let S := filterDeleteNode aux d S
      filterDimZ x d i np (S.prev i aux) (n - 1) S

/-- c/hv.c:823-841 `filter`, the loop over `i = 0, …, m - 1`. -/
def filterZ (x : ℕ → ℕ → K) (d : ℕ) : ℕ → ℕ → HvState K → ℕ × HvState K
  | 0, n, S => (n, S)
  | m + 1, n, S =>
    let r := filterZ x d m n S
    filterDimZ x d m r.1 (r.2.prev m 0) r.1 r.2

/-- c/hv.c:905-909, the product for a single point, for `i = 0, …, m - 1`. -/
def boxProductZ (x : ℕ → ℕ → K) (p : ℕ) : ℕ → K
  | 0 => 1
  | m + 1 => boxProductZ x p m * -x p m

/-- c/hv.c:889-922, `fpli_hv_shift` for `d ≠ 2`, after the shift.  For `d = 1` the call of `hv_recursive` returns at c/hv.c:795-797. -/
def fpliHvShiftN (x : ℕ → ℕ → K) (d n : ℕ) (ords : ℕ → List ℕ) (b0 : K) (mem : HvState K) : K :=
  let r := filterZ x d d n (setupCdllist ords d b0 mem)
  if r.1 = 0 then 0
  else if r.1 = 1 then boxProductZ x (r.2.next 0 0) d
  else if d = 3 then (hv3dZ x r.1 r.2).1
  else if d = 1 then -x (r.2.next 0 0) 0
  else (hvRecZ x (d - 3) r.1 r.2).1

/-- c/hv.c:889-922 `fpli_hv_shift`: the value and the data after the call. -/
def fpliHvShift (pts : ℕ → ℕ → K) (d n : ℕ) (ref : ℕ → K) (env : HvEnv K) : K × (ℕ → ℕ → K) :=
  if n = 0 then (0, pts)
  else if d = 2 then (hv2d pts env.ps ref, pts)
  else
    let data := shiftReference pts d n ref
    (fpliHvShiftN (nodeTable data) d n env.ords env.b0 env.mem, data)

end Moo
