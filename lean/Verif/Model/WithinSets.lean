import Verif.Model.Nondominated
import Mathlib.Data.List.Dedup
import Mathlib.Data.List.Sort

/-!
# Model of the functions of `_moocore.py` that work set by set

`is_nondominated_within_sets`, `filter_dominated_within_sets` and `apply_within_sets`.  The NumPy functions used are modelled by simple list functions with the
documented result.  Labels are elements of a linear order (no NaN).
-/

set_option autoImplicit false

namespace Moo

section
variable {L : Type*} [LinearOrder L]

/-- The first result of `np.unique(sets)`: the sorted unique elements (python/src/moocore/_moocore.py:782, 1994). -/
def npUnique (l : List L) : List L := l.dedup.insertionSort (fun a b => a ≤ b)

/-- `return_index=True`: the positions of the first occurrences of the unique values. -/
def npUniqueIndex (l : List L) : List ℕ := (npUnique l).map (fun u => l.idxOf u)

/-- `return_inverse=True`: the position of every element among the unique values. -/
def npUniqueInverse (l : List L) : List ℕ := l.map (fun x => (npUnique l).idxOf x)

/-- `np.argsort` of an array of integers. -/
def npArgsort (l : List ℕ) : List ℕ := (List.range l.length).insertionSort (fun a b => l.getD a 0 ≤ l.getD b 0)

/-- `np.flatnonzero(inv == i)` -/
def npWhereEq (inv : List ℕ) (i : ℕ) : List ℕ := (List.range inv.length).filter (fun j => inv.getD j 0 = i)

/-- `idx = [np.flatnonzero(inv == i) for i in idx.argsort()]`, python/src/moocore/_moocore.py:784 and 1996. -/
def setGroups (labels : List L) : List (List ℕ) := (npArgsort (npUniqueIndex labels)).map (npWhereEq (npUniqueInverse labels))

variable {R β : Type*}

/-- python/src/moocore/_moocore.py:785-796: apply `f` to the rows of every group, concatenate, and bring the result into the original order.
(`default` is never taken when `f` returns one value per row.) -/
def withinSets [Inhabited β] (f : List R → List β) (data : ℕ → R) (labels : List L) : List β :=
  let idx := setGroups labels
  let res := (idx.map (fun g => f (g.map data))).flatten
  (npArgsort idx.flatten).map (fun i => res.getD i default)

/-- The loop of `apply_within_sets`, python/src/moocore/_moocore.py:1997-2008.  `none` is the ValueError. -/
def awsLoop (f : List R → List β) (data : ℕ → R) : List (List ℕ) → Bool → List β → Option (Bool × List β)
  | [], shorter, res => some (shorter, res)
  | g :: gs, shorter, res =>
    let z := f (g.map data)
    if z.length ≠ g.length then
      if z.length ≠ 1 then none else awsLoop f data gs true (res ++ z)
    else awsLoop f data gs shorter (res ++ z)

/-- `apply_within_sets`, python/src/moocore/_moocore.py:1914-2013, for functions that return a list of values. -/
def applyWithinSets [Inhabited β] (f : List R → List β) (data : ℕ → R) (labels : List L) : Option (List β) :=
  let idx := setGroups labels
  match awsLoop f data idx false [] with
  | none => none
  | some (shorter, res) => some (if shorter then res else (npArgsort idx.flatten).map (fun i => res.getD i default))

end

section
variable {α : Type*} [LinearOrder α] [Neg α] [Inhabited α] {L : Type*} [LinearOrder L]

/-- `is_nondominated` on a list of rows; the flags of a failed assertion are never used. -/
def isNondominatedList (sortFn : (ℕ → ℕ → α) → ℕ → List ℕ) (garbage : ℕ → Bool) (nobj : ℕ) (maximise : ℕ → Bool) (keepWeakly : Bool) (rows : List (ℕ → α)) : List Bool :=
  match isNondominated sortFn garbage (fun i => rows.getD i (fun _ => default)) nobj rows.length maximise keepWeakly with
  | some nd => (List.range rows.length).map nd
  | none => List.replicate rows.length false

/-- `is_nondominated_within_sets`, python/src/moocore/_moocore.py:710-797; `none` is the ValueError. -/
def isNondominatedWithinSets (sortFn : (ℕ → ℕ → α) → ℕ → List ℕ) (garbage : ℕ → Bool) (nobj : ℕ) (maximise : ℕ → Bool) (keepWeakly : Bool)
    (data : ℕ → ℕ → α) (labels : List L) : Option (List Bool) :=
  if nobj < 2 then none else some (withinSets (isNondominatedList sortFn garbage nobj maximise keepWeakly) data labels)

/-- `filter_dominated_within_sets`, python/src/moocore/_moocore.py:821-898: the kept row numbers, in order. -/
def filterDominatedWithinSets (sortFn : (ℕ → ℕ → α) → ℕ → List ℕ) (garbage : ℕ → Bool) (nobj : ℕ) (maximise : ℕ → Bool) (keepWeakly : Bool)
    (data : ℕ → ℕ → α) (labels : List L) : Option (List ℕ) :=
  match isNondominatedWithinSets sortFn garbage nobj maximise keepWeakly data labels with
  | none => none
  | some nd => some ((List.range labels.length).filter (fun j => nd.getD j false))

end

end Moo
