import Verif.Model.Epsilon

/-!
# Model of the program `dominatedsets` (c/dominatedsets.c)

Exact arithmetic; a set of points is a table with its number of rows, `points + dim * size` is the table shifted by `size` rows.
-/

set_option autoImplicit false

namespace Moo

section
variable {α : Type*} [LinearOrder α]

/-- `dominance`, c/dominatedsets.c:174-198. -/
def dsDominance (dim : ℕ) (a b : ℕ → α) (minmax : ℕ → ℤ) : ℤ :=
  if (List.range dim).any (fun d => decide ((minmax d < 0 ∧ a d > b d) ∨ (minmax d > 0 ∧ a d < b d))) then -1
  else if (List.range dim).any (fun d => decide ((minmax d < 0 ∧ a d < b d) ∨ (minmax d > 0 ∧ a d > b d))) then 1
  else 0

/-- The loop over `x` in `set_dominates`, c/dominatedsets.c:209-229: the flags `x_dominates_y` and `x_weakly_dominates_y`. -/
def dsInner (dim : ℕ) (minmax : ℕ → ℤ) (X : ℕ → ℕ → α) (py : ℕ → α) : List ℕ → Bool → Bool × Bool
  | [], dom => (dom, false)
  | x :: xs, dom =>
    let result := dsDominance dim (X x) py minmax
    if result = 1 then (true, true) else if result = 0 then (dom, true) else dsInner dim minmax X py xs dom

/-- The loop over `y` in `set_dominates`, c/dominatedsets.c:207-232; the list holds the remaining values of `y`. -/
def dsOuter (dim : ℕ) (minmax : ℕ → ℤ) (X : ℕ → ℕ → α) (sizeX : ℕ) (Y : ℕ → ℕ → α) : List ℕ → Bool × Bool → Bool × Bool
  | [], s => s
  | y :: ys, s =>
    let s' := dsInner dim minmax X (Y y) (List.range sizeX) s.1
    if !s'.2 then s' else dsOuter dim minmax X sizeX Y ys s'

/-- `set_dominates`, c/dominatedsets.c:200-240. -/
def setDominates (dim : ℕ) (minmax : ℕ → ℤ) (X : ℕ → ℕ → α) (sizeX : ℕ) (Y : ℕ → ℕ → α) (sizeY : ℕ) : ℤ :=
  let s := dsOuter dim minmax X sizeX Y (List.range sizeY) (false, false)
  if !s.2 then 1 else if sizeX ≠ sizeY ∨ s.1 = true then -1 else 0

end

section
variable {K : Type*} [Field K] [LinearOrder K] [IsStrictOrderedRing K]

/-- `pareto_better`, c/dominatedsets.c:242-274; `none` is the call of `abort`. -/
def paretoBetter (dim : ℕ) (minmax : ℕ → ℤ) (A : ℕ → ℕ → K) (sizeA : ℕ) (B : ℕ → ℕ → K) (sizeB : ℕ) : Option ℤ :=
  let result := setDominates dim minmax A sizeA B sizeB
  let result :=
    if result = 1 then
      let r := -setDominates dim minmax B sizeB A sizeA
      if r ≠ 1 then 0 else r
    else result
  if result ≠ epsilonAdditiveInd dim minmax A sizeA B sizeB then none else some result

/-- The loop over `b` in `cmpparetos`, c/dominatedsets.c:291-304, for a set `A` of `sizeA` points; the list holds the rest of `cumsizes_b`,
`size_b` is the end of the previous set, and the pair holds the two counters. -/
def cmpRow (dim : ℕ) (minmax : ℕ → ℤ) (A : ℕ → ℕ → K) (sizeA : ℕ) (B : ℕ → ℕ → K) : List ℕ → ℕ → ℕ × ℕ → Option (ℕ × ℕ)
  | [], _, s => some s
  | c :: cs, sizeB, s =>
    match paretoBetter dim minmax A sizeA (fun i => B (sizeB + i)) (c - sizeB) with
    | none => none
    | some r => cmpRow dim minmax A sizeA B cs c (if r < 0 then (s.1 + 1, s.2) else if r > 0 then (s.1, s.2 + 1) else s)

/-- The loop over `a` in `cmpparetos`, c/dominatedsets.c:290-306. -/
def cmpRows (dim : ℕ) (minmax : ℕ → ℤ) (A : ℕ → ℕ → K) (B : ℕ → ℕ → K) (cumB : List ℕ) : List ℕ → ℕ → ℕ × ℕ → Option (ℕ × ℕ)
  | [], _, s => some s
  | c :: cs, sizeA, s =>
    match cmpRow dim minmax (fun i => A (sizeA + i)) (c - sizeA) B cumB 0 s with
    | none => none
    | some s => cmpRows dim minmax A B cumB cs c s

/-- `cmpparetos`, c/dominatedsets.c:276-307: the values `*numbetter_a` and `*numbetter_b`; `none` if the program aborts. -/
def cmpparetos (dim : ℕ) (minmax : ℕ → ℤ) (A : ℕ → ℕ → K) (cumA : List ℕ) (B : ℕ → ℕ → K) (cumB : List ℕ) : Option (ℕ × ℕ) :=
  cmpRows dim minmax A B cumB cumA 0 (0, 0)

/-- The check of one file in `main`, c/dominatedsets.c:439-454: the list holds the rest of `cumsizes[k]`.  `true` if some set fails the check; `none` is a failed assertion. -/
def dsCheckFailed (sortFn : (ℕ → ℕ → K) → ℕ → List ℕ) (garbage : ℕ → Bool) (dim : ℕ) (minmax : ℕ → ℤ) (P : ℕ → ℕ → K) : List ℕ → ℕ → Option Bool
  | [], _ => some false
  | c :: cs, size =>
    match findDominatedPoint sortFn garbage (fun i => P (size + i)) dim (c - size) minmax with
    | none => none
    | some pos => (dsCheckFailed sortFn garbage dim minmax P cs c).map (fun failed => decide (pos ≥ 0) || failed)

/-- The rank printed for file `k`, c/dominatedsets.c:164-170, from the table of results of `numfiles` files. -/
def dsRank (numfiles : ℕ) (results : ℕ → ℕ → ℤ) (k : ℕ) : ℤ :=
  (List.range numfiles).foldl (fun rank j => if k = j then rank else rank + results j k) 0

end

end Moo
