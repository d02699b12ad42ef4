import Verif.Model.HvMem

/-!
# `fpli_hv` for three objectives, with an arbitrary position in the tree

In `Verif/Model/HvMem.lean` the tree of c/hv.c:941-999 is the list of its items, and the search of line 948 ends before the first item that is not smaller.  With NaN in the first two
coordinates the comparison function of the tree is not consistent, and where the search ends depends on the shape of the tree.  Here it ends at an arbitrary
position.
-/

set_option autoImplicit false
set_option linter.unusedSectionVars false

namespace Moo

variable {K : Type} [Zero K] [One K] [Add K] [Sub K] [Mul K] [LT K] [DecidableLT K] [LE K] [DecidableLE K]

/-- c/hv.c:949-993, as `hv3dUpdate`: the update of the tree after a search that ended between the items `before` and `after`. -/
def hv3dUpdateAt (x : ℕ → ℕ → K) (ref : ℕ → K) (before after : List ℕ) (pp : ℕ) (hypera : K) : Option (List ℕ × K) :=
  let nxt0 := nextX x ref after
  if nxt0 > x pp 0 then
    match before.reverse with
    | [] => some (pp :: after, hypera + (ref 1 - x pp 1) * (nxt0 - x pp 0))
    | t :: rest =>
      if x t 0 > x pp 0 then
        let r := hv3dPop x ref pp nxt0 (t :: rest) hypera
        some (r.1.reverse ++ pp :: after, r.2.1 + (r.2.2 - x pp 1) * (nxt0 - x pp 0))
      else some (before ++ pp :: after, hypera + (x t 1 - x pp 1) * (nxt0 - x pp 0))
  else none

/-- c/hv.c:945-996, as `memHv3dBody`; `pos pp T` is the position at which the search for `pp` in the tree with the items `T` ends.
For an empty tree the search gives no node and line 951 would follow a null pointer, so that the result is `none`. -/
def memHv3dBodyAt (pos : ℕ → List ℕ → ℕ) (x : ℕ → ℕ → K) (ref : ℕ → K) (n : ℕ) (pp : ℕ) (T : List ℕ) (hypera hyperv height : K) (M : HvMem K) :
    Option (List ℕ × K × K × HvMem K) := do
  let ig ← M.ignore pp
  if ig ≥ 2 then some (T, hypera, hyperv + hypera * height, M)
  else if T ≠ [] ∧ ∀ t ∈ pp :: T, 1 ≤ t ∧ t ≤ n then
    match hv3dUpdateAt x ref (T.take (pos pp T)) (T.drop (pos pp T)) pp hypera with
    | none => do
      let M ← M.setIgnore n pp 2
      some (T, hypera, if height > 0 then hyperv + hypera * height else hyperv, M)
    | some (T', hypera') => some (T', hypera', if height > 0 then hyperv + hypera' * height else hyperv, M)
  else none

/-- c/hv.c:941-999, as `memHv3dLoop`. -/
def memHv3dLoopAt (pos : ℕ → List ℕ → ℕ) (x : ℕ → ℕ → K) (ref : ℕ → K) (n d : ℕ) : ℕ → ℕ → List ℕ → K → K → HvMem K → Option (K × HvMem K)
  | 0, _, _, _, _, _ => none
  | fuel + 1, pp, T, hypera, hyperv, M => do
    let last ← M.prev 2 0
    let height ← memHeight x ref n d (decide (pp = last)) pp M
    let r ← memHv3dBodyAt pos x ref n pp T hypera hyperv height M
    let pp' ← r.2.2.2.next 2 pp
    if pp' = 0 then some (r.2.2.1, r.2.2.2)
    else memHv3dLoopAt pos x ref n d fuel pp' r.1 r.2.1 r.2.2.1 r.2.2.2

/-- c/hv.c:924-1003, as `memHv3dRef`. -/
def memHv3dRefAt (pos : ℕ → List ℕ → ℕ) (x : ℕ → ℕ → K) (ref : ℕ → K) (n d c : ℕ) (M : HvMem K) : Option (K × HvMem K) := do
  let pp ← M.next 2 0
  let r0 ← rdRef ref d 0
  let x0 ← rdData x n d pp 0
  let r1 ← rdRef ref d 1
  let x1 ← rdData x n d pp 1
  let height ← memHeight x ref n d (decide (c = 1)) pp M
  let q ← M.next 2 pp
  if q = 0 then some ((r0 - x0) * (r1 - x1) * height, M)
  else memHv3dLoopAt pos x ref n d c q [pp] ((r0 - x0) * (r1 - x1)) ((r0 - x0) * (r1 - x1) * height) M

/-- c/hv.c:1140-1167, as `fpliHvMem`, for three objectives. -/
def fpliHv3MemAt (pos : ℕ → List ℕ → ℕ) (x : ℕ → ℕ → K) (n : ℕ) (ref : ℕ → K) (ords : ℕ → List ℕ) (b0 : K) : Option K := do
  let M ← memSetup n 3 ords b0
  let r ← memFilterRef x ref n 3 3 n M
  if r.1 = 0 then some 0
  else if r.1 = 1 then do
    let p ← r.2.next 0 0
    memBox x ref n 3 p 3
  else do
    let v ← memHv3dRefAt pos x ref n 3 r.1 r.2
    some v.1

end Moo
