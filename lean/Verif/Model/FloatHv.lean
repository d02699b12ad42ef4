import Verif.Model.Float
import Verif.Model.HvContrib

/-!
# The hypervolume computation for three or more objectives in floating-point arithmetic (c/hv.c)

The functions of Verif/Model/Hv.lean that compute with coordinates, with a rounding `rnd` after every addition, subtraction and multiplication of the
code (`FLT_EVAL_METHOD` 0, no fused multiply-add).  The functions that only compare coordinates or change pointers (`setup_cdllist`, `filter_ref`,
`delete`, `reinsert` and the loop that resets the marks) are those of Verif/Model/Hv.lean.
-/

set_option autoImplicit false

namespace Moo

noncomputable section

variable (rnd : ℝ → ℝ)

/-- c/hv.c:967-986, as `hv3dPop`. -/
def hv3dPopF (x : ℕ → ℕ → ℝ) (ref : ℕ → ℝ) (pp : ℕ) (nxt0 : ℝ) : List ℕ → ℝ → List ℕ × ℝ × ℝ
  | [], hypera => ([], hypera, ref 1)
  | [cur], hypera => ([], rnd (hypera - rnd (rnd (ref 1 - x cur 1) * rnd (nxt0 - x cur 0))), ref 1)
  | cur :: prv :: rest, hypera =>
    let hypera' := rnd (hypera - rnd (rnd (x prv 1 - x cur 1) * rnd (nxt0 - x cur 0)))
    if x prv 0 < x pp 0 then (prv :: rest, hypera', x prv 1)
    else hv3dPopF x ref pp nxt0 (prv :: rest) hypera'

/-- c/hv.c:948-993, as `hv3dUpdate`. -/
def hv3dUpdateF (x : ℕ → ℕ → ℝ) (ref : ℕ → ℝ) (T : List ℕ) (pp : ℕ) (hypera : ℝ) : Option (List ℕ × ℝ) :=
  let before := T.takeWhile (fun t => decide (0 < compareTreeAsc (x pp) (x t)))
  let after := T.dropWhile (fun t => decide (0 < compareTreeAsc (x pp) (x t)))
  let nxt0 := nextX x ref after
  if nxt0 > x pp 0 then
    match before.reverse with
    | [] => some (pp :: after, rnd (hypera + rnd (rnd (ref 1 - x pp 1) * rnd (nxt0 - x pp 0))))
    | t :: rest =>
      if x t 0 > x pp 0 then
        let r := hv3dPopF rnd x ref pp nxt0 (t :: rest) hypera
        some (r.1.reverse ++ pp :: after, rnd (r.2.1 + rnd (rnd (r.2.2 - x pp 1) * rnd (nxt0 - x pp 0))))
      else some (before ++ pp :: after, rnd (hypera + rnd (rnd (x t 1 - x pp 1) * rnd (nxt0 - x pp 0))))
  else none

/-- c/hv.c:941-999, as `hv3dLoop`. -/
def hv3dLoopF (x : ℕ → ℕ → ℝ) (ref : ℕ → ℝ) : ℕ → ℕ → List ℕ → ℝ → ℝ → HvState ℝ → ℝ × HvState ℝ
  | 0, _, _, _, hyperv, S => (hyperv, S)
  | fuel + 1, pp, T, hypera, hyperv, S =>
    let height := if pp = S.prev 2 0 then rnd (ref 2 - x pp 2) else rnd (x (S.next 2 pp) 2 - x pp 2)
    let r : List ℕ × ℝ × ℝ × HvState ℝ :=
      if S.ignore pp ≥ 2 then (T, hypera, rnd (hyperv + rnd (hypera * height)), S)
      else match hv3dUpdateF rnd x ref T pp hypera with
        | none => (T, hypera, if height > 0 then rnd (hyperv + rnd (hypera * height)) else hyperv,
            { S with ignore := upd S.ignore pp 2 })
        | some (T', hypera') => (T', hypera', if height > 0 then rnd (hyperv + rnd (hypera' * height)) else hyperv, S)
    let pp' := S.next 2 pp
    if pp' = 0 then (r.2.2.1, r.2.2.2)
    else hv3dLoopF x ref fuel pp' r.1 r.2.1 r.2.2.1 r.2.2.2

/-- c/hv.c:924-1003 `fpli_hv3d_ref`, as `hv3dRef`. -/
def hv3dRefF (x : ℕ → ℕ → ℝ) (ref : ℕ → ℝ) (c : ℕ) (S : HvState ℝ) : ℝ × HvState ℝ :=
  let pp := S.next 2 0
  let hypera := rnd (rnd (ref 0 - x pp 0) * rnd (ref 1 - x pp 1))
  let height := if c = 1 then rnd (ref 2 - x pp 2) else rnd (x (S.next 2 pp) 2 - x pp 2)
  let hyperv := rnd (hypera * height)
  if S.next 2 pp = 0 then (hyperv, S)
  else hv3dLoopF rnd x ref c (S.next 2 pp) [pp] hypera hyperv S

/-- c/hv.c:1055-1057, as `hvAreaInit`. -/
def hvAreaInitF (x : ℕ → ℕ → ℝ) (ref : ℕ → ℝ) (p1 : ℕ) : ℕ → HvState ℝ → HvState ℝ
  | 0, S => { S with area := upd2 S.area 0 p1 1 }
  | m + 1, S =>
    let S := hvAreaInitF x ref p1 m S
    { S with area := upd2 S.area (m + 1) p1 (rnd (S.area m p1 * rnd (ref m - x p1 m))) }

/-- c/hv.c:1062-1071, as `hvMainLoop`. -/
def hvMainLoopF (rec : ℕ → HvState ℝ → ℝ × HvState ℝ) (x : ℕ → ℕ → ℝ) (dim : ℕ) :
    ℕ → ℕ → ℕ → ℕ → ℝ → HvState ℝ → ℝ × ℕ × HvState ℝ
  | 0, _, _, p1, hyperv, S => (hyperv, p1, S)
  | fuel + 1, c, p0, p1, hyperv, S =>
    if p0 = 0 then (hyperv, p1, S)
    else
      let hyperv := rnd (hyperv + rnd (S.area dim p1 * rnd (x p0 dim - x p1 dim)))
      let S := { S with bound := upd S.bound dim (x p0 dim) }
      let S := hvReinsert x p0 dim S
      let p1 := p0
      let p0 := S.next dim p0
      let S := { S with vol := upd2 S.vol dim p1 hyperv }
      let S := skipOrRecurse rec dim (c + 1) p1 S
      hvMainLoopF rec x dim fuel (c + 1) p0 p1 hyperv S

/-- c/hv.c:1028-1073, as `hvLevel`. -/
def hvLevelF (rec : ℕ → HvState ℝ → ℝ × HvState ℝ) (x : ℕ → ℕ → ℝ) (ref : ℕ → ℝ) (dim c : ℕ) (S : HvState ℝ) :
    ℝ × HvState ℝ :=
  let S := hvReset dim c (S.prev dim 0) S
  let r := hvDelLoop x dim c 0 (S.prev dim 0) S
  let cc := r.1
  let p0 := r.2.1
  let p1 := r.2.2.1
  let S := r.2.2.2
  let hs : ℝ × HvState ℝ :=
    if cc > 1 then
      let q := S.prev dim p1
      let hyperv := rnd (S.vol dim q + rnd (S.area dim q * rnd (x p1 dim - x q dim)))
      (hyperv, { S with vol := upd2 S.vol dim p1 hyperv })
    else
      let S := hvAreaInitF rnd x ref p1 dim S
      (0, { S with vol := upd2 S.vol dim p1 0 })
  let S := skipOrRecurse rec dim cc p1 hs.2
  let m := hvMainLoopF rnd rec x dim c cc p0 p1 hs.1 S
  (rnd (m.1 + rnd (m.2.2.area dim m.2.1 * rnd (ref dim - x m.2.1 dim))), m.2.2)

/-- c/hv.c:1021-1081 `hv_recursive_ref` for `dim = k + 2`, as `hvRec`. -/
def hvRecF (x : ℕ → ℕ → ℝ) (ref : ℕ → ℝ) : ℕ → ℕ → HvState ℝ → ℝ × HvState ℝ
  | 0, c, S => hv3dRefF rnd x ref c S
  | k + 1, c, S => hvLevelF rnd (hvRecF x ref k) x ref (k + 3) c S

/-- c/hv.c:1150-1153, as `boxProduct`. -/
def boxProductF (x : ℕ → ℕ → ℝ) (ref : ℕ → ℝ) (p : ℕ) : ℕ → ℝ
  | 0 => 1
  | m + 1 => rnd (boxProductF x ref p m * rnd (ref m - x p m))

/-- c/hv.c:1140-1167, `fpli_hv` for `d > 2`, as `fpliHvN`. -/
def fpliHvNF (x : ℕ → ℕ → ℝ) (d n : ℕ) (ref : ℕ → ℝ) (ords : ℕ → List ℕ) (b0 : ℝ) (mem : HvState ℝ) : ℝ :=
  let r := filterRef x ref d d n (setupCdllist ords d b0 mem)
  if r.1 = 0 then 0
  else if r.1 = 1 then boxProductF rnd x ref (r.2.next 0 0) d
  else (hvRecF rnd x ref (d - 3) r.1 r.2).1

/-- c/hv.c:1136-1167 `fpli_hv`, as `fpliHv`. -/
def fpliHvF (pts : ℕ → ℕ → ℝ) (d n : ℕ) (ref : ℕ → ℝ) (env : HvEnv ℝ) : ℝ :=
  if n = 0 then 0
  else if d = 2 then hv2dF rnd pts env.ps ref
  else fpliHvNF rnd (nodeTable pts) d n ref env.ords env.b0 env.mem

/-! ## c/hv_contrib.c -/

/-- c/hv_contrib.c:37-47 `hv_contributions`, the value stored in `hvc[i]`, as `hvContribution`; `sqrt(DBL_EPSILON)` is `2 ^ -26`. -/
def hvContributionF (pts : ℕ → ℕ → ℝ) (d n : ℕ) (ref : ℕ → ℝ) (env : HvEnv ℝ) (envs : ℕ → HvEnv ℝ) (i : ℕ) : ℝ :=
  let c := rnd (fpliHvF rnd pts d n ref env - fpliHvF rnd (replaceRow pts ref i) d n ref (envs i))
  if |c| ≥ (2 : ℝ) ^ (-26 : ℤ) then c else 0

/-- c/hv_contrib.c:37-49 `hv_contributions` with the assertion of line 48; `none`: the assertion fails. -/
def hvContributionsF (pts : ℕ → ℕ → ℝ) (d n : ℕ) (ref : ℕ → ℝ) (env : HvEnv ℝ) (envs : ℕ → HvEnv ℝ) : Option (List ℝ) :=
  (List.range n).mapM fun i =>
    if hvContributionF rnd pts d n ref env envs i ≥ 0 then some (hvContributionF rnd pts d n ref env envs i) else none

end

end Moo
