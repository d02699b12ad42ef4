import Verif.Model.HvNan

/-!
# Model of the memory accesses of `get_nondominated_set` (c/nondominated.h), for arbitrary doubles

As in `NdMem.lean`.  The rows are copied into a block whose size is computed from the number returned by `find_nondominated_set`.
-/

set_option autoImplicit false
set_option linter.unusedSectionVars false

namespace Moo

section
variable {F : Type}

/-- The copy loop of `get_nondominated_set`, c/nondominated.h:305-309.  The list holds the remaining values of `n`. -/
def getNdLoopM (pts : Blk F) (dim : ℕ) (nd : Blk Bool) : List ℕ → ℕ → Blk F → Except MemErr (ℕ × Blk F)
  | [], k, out => .ok (k, out)
  | n :: ns, k, out => do
    let b ← ldBlk nd n
    if !b then getNdLoopM pts dim nd ns k out                              -- l. 306
    else do
      let out ← cpAtBlk out (dim * k) pts (dim * n) dim                    -- l. 307
      getNdLoopM pts dim nd ns (k + 1) out

/-- `get_nondominated_set`, c/nondominated.h:283-314.  Returns the value of the function and the block stored in `*pareto_set_p`.  `asserts`: whether `assert` at
line 310 is compiled in.  (`fatal_error` at line 298 counts as a failed assertion; the assertions inside `find_nondominated_set` are always compiled in.) -/
def getNdSetM (c : FCmp F) (neg : F → F) (sortFn : Blk F → List ℕ → List ℕ) (asserts : Bool) (pts : Blk F) (dim size : ℕ) (minmax : Blk ℤ) :
    Except MemErr (ℤ × Blk F) := do
  let nd ← nondomInitM size
  let r ← findNdSetM c neg sortFn pts dim size minmax AGREE_NONE nd false false
  if r.1 > size then .error .assertion                                     -- l. 297
  else do
    let s ← getNdLoopM pts dim r.2 (List.range size) 0 (allocBlk (r.1.toNat * dim))
    if asserts && !decide ((s.1 : ℤ) = r.1) then .error .assertion         -- l. 310
    else .ok (r.1, s.2)

end

end Moo
