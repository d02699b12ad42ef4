import Verif.Model.Nondominated

/-!
# Model of `c/pareto.c` (nondominated sorting)
-/

set_option autoImplicit false

namespace Moo

/-- How a call of `pareto_rank` may end. -/
inductive RankOut where
  /-- normal return, with the contents of the array returned -/
  | done (rank : ℕ → ℕ)
  /-- a failed `eaf_assert` -/
  | assertFail
  /-- access outside of an allocated block -/
  | outOfBounds
  /-- the loop bound given to the model was too small -/
  | outOfFuel

section
variable {α : Type*} [LinearOrder α]

/-- `dominates`, c/pareto.c:183-191 (a non-strict comparison, despite its name). -/
def rkDominates (pj pk : ℕ → α) (dim : ℕ) : Bool :=
  (List.range dim).foldl (fun s d => s && decide (pj d ≤ pk d)) true

/-- The loop `for (int k = 0; k < size; k++)`, c/pareto.c:224-239; the list holds the remaining values
of `k`.  Returns `rank[]` and `nothing_new`. -/
def rkInner (pts : ℕ → ℕ → α) (dim level j : ℕ) :
    List ℕ → (ℕ → ℕ) → Bool → (ℕ → ℕ) × Bool
  | [], rank, nn => (rank, nn)
  | k :: ks, rank, nn =>
    if k = j then rkInner pts dim level j ks rank nn                       -- l. 225
    else if rank k ≠ level - 1 then rkInner pts dim level j ks rank nn     -- l. 226
    else
      let jk := rkDominates (pts j) (pts k) dim
      let kj := rkDominates (pts k) (pts j) dim
      if jk && !kj then rkInner pts dim level j ks (upd rank k (rank k + 1)) false   -- l. 231-233
      else if !jk && kj then (upd rank j (rank j + 1), false)              -- l. 234-237, break
      else rkInner pts dim level j ks rank nn

/-- The loop `for (int j = 0; j < size; j++)`, c/pareto.c:219-240; `none` is a failed assertion
(l. 220). -/
def rkPass (pts : ℕ → ℕ → α) (dim size level : ℕ) :
    List ℕ → (ℕ → ℕ) → Bool → Option ((ℕ → ℕ) × Bool)
  | [], rank, nn => some (rank, nn)
  | j :: js, rank, nn =>
    if ¬ rank j ≤ level then none                                          -- l. 220
    else if rank j ≠ level - 1 then rkPass pts dim size level js rank nn   -- l. 222
    else
      let r := rkInner pts dim level j (List.range size) rank nn
      rkPass pts dim size level js r.1 r.2

/-- The loop `do { ... level++; } while (!nothing_new)`, c/pareto.c:215-242, with at most `fuel`
iterations. -/
def rkLevels (pts : ℕ → ℕ → α) (dim size : ℕ) : ℕ → ℕ → (ℕ → ℕ) → RankOut
  | 0, _, _ => .outOfFuel
  | fuel + 1, level, rank =>
    match rkPass pts dim size level (List.range size) rank true with
    | none => .assertFail
    | some (rank', nn) => if nn then .done rank' else rkLevels pts dim size fuel (level + 1) rank'

/-- The general algorithm, c/pareto.c:210-250. -/
def paretoRankGeneral (fuel : ℕ) (pts : ℕ → ℕ → α) (dim size : ℕ) : RankOut :=
  rkLevels pts dim size fuel 2 (fun _ => 1)

/-- `point_2d_front_cmp`, c/pareto.c:9-31. -/
def point2dFrontCmp (pa pb : ℕ → α) : ℤ :=
  if pa 0 < pb 0 then -1 else if pa 0 > pb 0 then 1
  else if pa 1 < pb 1 then -1 else if pa 1 > pb 1 then 1 else 0

/-- The array `data` after `qsort`, c/pareto.c:48-53 and 72: the fields `i` of its entries
(`p` is the row `i` of the points). -/
def SortedFront (pts : ℕ → ℕ → α) (size : ℕ) (p : List ℕ) : Prop :=
  Qsort (fun a b => point2dFrontCmp (pts a) (pts b)) (List.range size) p

/-- The binary search, c/pareto.c:93-107. `pos k` is `data[k].p`, `fl` is `front_last`.  `none`: the assertion at
line 97 fails or the loop takes more than `fuel` iterations. -/
def rkSearch (pos : ℕ → ℕ → α) (fl : ℕ → ℕ) (nFront : ℕ) (p : ℕ → α) : ℕ → ℕ → ℕ → Option ℕ
  | 0, _, _ => none
  | fuel + 1, low, high =>
    let mid := low + (high - low) / 2
    if ¬ mid ≤ nFront then none                                            -- l. 97
    else
      let pmid := pos (fl mid)
      if p 1 < pmid 1 then                                                 -- l. 99
        if low < mid then rkSearch pos fl nFront p fuel low mid else some low
      else if p 1 > pmid 1 ∨ (p 1 = pmid 1 ∧ p 0 > pmid 0) then            -- l. 101
        if mid + 1 < high then rkSearch pos fl nFront p fuel (mid + 1) high else some (mid + 1)
      else some mid                                                        -- l. 103-106

/-- The mutable state of `pareto_rank_2D`: `n_front`, `front_last[]`, the fields `data[].f`. -/
structure Rk2d where
  nFront : ℕ
  last : ℕ → ℕ
  f : ℕ → ℕ

/-- The body of the loop over `k`, c/pareto.c:91-122; `none` is a failed assertion. -/
def rk2dStep (pos : ℕ → ℕ → α) (k : ℕ) (s : Rk2d) : Option Rk2d :=
  let p := pos k
  let q := pos (s.last s.nFront)
  if p 1 < q 1 then
    match rkSearch pos s.last s.nFront p (s.nFront + 2) 0 (s.nFront + 1) with
    | none => none
    | some low =>
      let r := pos (s.last low)
      if ¬ low ≤ s.nFront then none                                        -- l. 108
      else if ¬ (p 1 < r 1 ∨ (p 1 = r 1 ∧ p 0 = r 0)) then none            -- l. 109-111
      else some { s with last := upd s.last low k, f := upd s.f k low }
  else if p 1 = q 1 ∧ p 0 = q 0 then                                       -- l. 114
    some { s with last := upd s.last s.nFront k, f := upd s.f k s.nFront }
  else
    some { nFront := s.nFront + 1, last := upd s.last (s.nFront + 1) k, f := upd s.f k (s.nFront + 1) }

/-- The loop over `k`, c/pareto.c:90-123. -/
def rk2dLoop (pos : ℕ → ℕ → α) : List ℕ → Rk2d → Option Rk2d
  | [], s => some s
  | k :: ks, s => match rk2dStep pos k s with
    | none => none
    | some s' => rk2dLoop pos ks s'

/-- `rank[data[k].i] = data[k].f + 1`, c/pareto.c:175-178. The list holds `data[k].i, data[k+1].i, ...`. -/
def rk2dStore (f : ℕ → ℕ) : ℕ → List ℕ → (ℕ → ℕ) → (ℕ → ℕ)
  | _, [], rank => rank
  | k, i :: is, rank => rk2dStore f (k + 1) is (upd rank i (f k + 1))

/-- `pareto_rank_2D`, c/pareto.c:42-181; `p` are the row numbers in sorted order, `garbage` the
initial contents of the returned block.  With `size = 0` lines 88-89 write outside of the allocated blocks. -/
def paretoRank2d (garbage : ℕ → ℕ) (pts : ℕ → ℕ → α) (size : ℕ) (p : List ℕ) : RankOut :=
  if size = 0 then .outOfBounds
  else
    let pos := fun k => pts (p.getD k 0)
    match rk2dLoop pos (List.range' 1 (size - 1)) ⟨0, fun _ => 0, fun _ => 0⟩ with
    | none => .assertFail
    | some s => .done (rk2dStore s.f 0 p garbage)

/-- `pareto_rank`, c/pareto.c:199-251 compiled with `DEBUG == 0` (l. 205-207: the two-objective result is
returned at once). `sortFn` stands for the `qsort` call. -/
def paretoRank (sortFn : (ℕ → ℕ → α) → ℕ → List ℕ) (garbage : ℕ → ℕ) (fuel : ℕ)
    (pts : ℕ → ℕ → α) (dim size : ℕ) : RankOut :=
  if dim = 2 then paretoRank2d garbage pts size (sortFn pts size)
  else paretoRankGeneral fuel pts dim size

/-- The Python function `pareto_rank(data, maximise)`,
python/src/moocore/_moocore.py:958-972: columns to be maximised are negated first. -/
def paretoRankPy [Neg α] (sortFn : (ℕ → ℕ → α) → ℕ → List ℕ) (garbage : ℕ → ℕ) (fuel : ℕ)
    (data : ℕ → ℕ → α) (nobj nrows : ℕ) (maximise : ℕ → Bool) : RankOut :=
  paretoRank sortFn garbage fuel (fun i d => if maximise d then -(data i d) else data i d) nobj nrows

end

end Moo
