import Verif.Model.NdMem

/-!
# Model of the memory accesses of `normalise` (c/nondominated.h), c/whv.c and `estimate_whv` (c/whv_hype.c), for arbitrary doubles

As in `NdMem.lean`: blocks of cells, loads and stores outside of a block and loads of cells that were never written are errors.  The comparisons and the
arithmetic of doubles are arbitrary functions, so that nothing is assumed about the values.  `qsort` may leave any permutation of the rows of its array.
Assertions are compiled in (c/whv.c:2-3 defines `DEBUG`).  Not modelled: failures of `malloc`, `free`, the range of `int`.
-/

set_option autoImplicit false
set_option linter.unusedSectionVars false

namespace Moo

/-- Operations on doubles. -/
structure FOps (F : Type) extends FCmp F where
  add : F → F → F
  sub : F → F → F
  mul : F → F → F
  div : F → F → F
  neg : F → F
  zero : F
  one : F
  /-- conversion from `unsigned int` -/
  ofNat : ℕ → F

section
variable {F : Type} (o : FOps F)

/-- `MIN(x, y)`, c/common.h:67, 76. -/
def FOps.min (x y : F) : F := if o.lt x y then x else y

/-- `MAX(x, y)`, c/common.h:68, 75. -/
def FOps.max (x y : F) : F := if o.lt y x then x else y

/-! ## `normalise` -/

/-- The loop over the objectives of `agree_objectives`, c/nondominated.h:332-336. -/
def agreeObjectivesM (dim size : ℕ) (minmax : Blk ℤ) (agree : ℤ) : List ℕ → Blk F → Except MemErr (Blk F)
  | [], b => .ok b
  | d :: ds, b => do
    let m ← ldBlk minmax d
    if (agree > 0 ∧ m < 0) ∨ (agree < 0 ∧ m > 0) then do
      let b ← negColM o.neg dim d (List.range size) b
      agreeObjectivesM dim size minmax agree ds b
    else agreeObjectivesM dim size minmax agree ds b

/-- `diff[d]`, c/nondominated.h:349-354. -/
def normDiffM (lbound ubound : Blk F) : List ℕ → Blk F → Except MemErr (Blk F)
  | [], diff => .ok diff
  | d :: ds, diff => do
    let u ← ldBlk ubound d
    let l ← ldBlk lbound d
    let diff ← stBlk diff d (o.sub u l)
    let v ← ldBlk diff d
    let diff ← if o.eq v o.zero then stBlk diff d o.one else .ok diff
    normDiffM lbound ubound ds diff

/-- The loop over `d`, c/nondominated.h:358-363. -/
def normRowM (dim : ℕ) (minmax : Blk ℤ) (agree : ℤ) (lowerRange range : F) (lbound ubound diff : Blk F) (k : ℕ) :
    List ℕ → Blk F → Except MemErr (Blk F)
  | [], b => .ok b
  | d :: ds, b => do
    let m ← ldBlk minmax d
    let p ← ldBlk b (k * dim + d)
    let df ← ldBlk diff d
    let b ← if (agree > 0 ∧ m < 0) ∨ (agree < 0 ∧ m > 0) then do
        let u ← ldBlk ubound d
        stBlk b (k * dim + d) (o.add lowerRange (o.div (o.mul range (o.add u p)) df))
      else do
        let l ← ldBlk lbound d
        stBlk b (k * dim + d) (o.add lowerRange (o.div (o.mul range (o.sub p l)) df))
    normRowM dim minmax agree lowerRange range lbound ubound diff k ds b

/-- The loop over `k`, c/nondominated.h:356-364. -/
def normRowsM (dim : ℕ) (minmax : Blk ℤ) (agree : ℤ) (lowerRange range : F) (lbound ubound diff : Blk F) :
    List ℕ → Blk F → Except MemErr (Blk F)
  | [], b => .ok b
  | k :: ks, b => do
    let b ← normRowM o dim minmax agree lowerRange range lbound ubound diff k (List.range dim) b
    normRowsM dim minmax agree lowerRange range lbound ubound diff ks b

/-- `normalise`, c/nondominated.h:340-367. -/
def normaliseM (pts : Blk F) (dim size : ℕ) (minmax : Blk ℤ) (agree : ℤ) (lowerRange upperRange : F) (lbound ubound : Blk F) : Except MemErr (Blk F) := do
  let range := o.sub upperRange lowerRange
  let diff ← normDiffM o lbound ubound (List.range dim) (allocBlk dim)
  normRowsM o dim minmax agree lowerRange range lbound ubound diff (List.range size) pts

/-- `agree_normalise`, c/nondominated.h:369-382. -/
def agreeNormaliseM (data : Blk F) (nobj npoint : ℕ) (maximise : Blk Bool) (lowerRange upperRange : F) (lbound ubound : Blk F) : Except MemErr (Blk F) := do
  let minmax ← minmaxFromBoolM nobj maximise
  let data ← agreeObjectivesM o nobj npoint minmax AGREE_MINIMISE (List.range nobj) data
  normaliseM o data nobj npoint minmax AGREE_MINIMISE lowerRange upperRange lbound ubound

/-! ## `rect_weighted_hv2d` -/

/-- `rectangles[i] = MIN(rectangles[i], reference[d])`. -/
def clipCellM (ref : Blk F) (i d : ℕ) (b : Blk F) : Except MemErr (Blk F) := do
  let v ← ldBlk b i
  let r ← ldBlk ref d
  stBlk b i (o.min v r)

/-- c/whv.c:33-38. -/
def clipM (ref : Blk F) : List ℕ → Blk F → Except MemErr (Blk F)
  | [], b => .ok b
  | k :: ks, b => do
    let b ← clipCellM o ref (k * 5 + 0) 0 b
    let b ← clipCellM o ref (k * 5 + 1) 1 b
    let b ← clipCellM o ref (k * 5 + 2) 0 b
    let b ← clipCellM o ref (k * 5 + 3) 1 b
    clipM ref ks b

/-- c/whv.c:41-45; the state is `skip` and `skip_nrow`. (The second pair is loaded even where `||` would skip it.) -/
def skipM (rects : Blk F) : List ℕ → Blk ℕ × ℕ → Except MemErr (Blk ℕ × ℕ)
  | [], s => .ok s
  | k :: ks, s => do
    let l0 ← ldBlk rects (k * 5 + 0)
    let u0 ← ldBlk rects (k * 5 + 2)
    let l1 ← ldBlk rects (k * 5 + 1)
    let u1 ← ldBlk rects (k * 5 + 3)
    if o.eq l0 u0 || o.eq l1 u1 then do
      let skip ← stBlk s.1 s.2 k
      skipM rects ks (skip, s.2 + 1)
    else skipM rects ks s

/-- The loop over `c`, c/whv.c:63-64. -/
def copyRowM (rects : Blk F) (j k : ℕ) : List ℕ → Blk F → Except MemErr (Blk F)
  | [], dest => .ok dest
  | c :: cs, dest => do
    let v ← ldBlk rects (k * 5 + c)
    let dest ← stBlk dest (j * 5 + c) v
    copyRowM rects j k cs dest

/-- `while (k < skip[s])`, c/whv.c:62-66, for the values of `k` in the list. Returns `j` and `dest`. -/
def copyRunM (rects : Blk F) : List ℕ → ℕ → Blk F → Except MemErr (ℕ × Blk F)
  | [], j, dest => .ok (j, dest)
  | k :: ks, j, dest => do
    let dest ← copyRowM rects j k (List.range 5) dest
    copyRunM rects ks (j + 1) dest

/-- The loop over `s`, c/whv.c:61-68. -/
def copyM (rects : Blk F) (skip : Blk ℕ) : List ℕ → ℕ → ℕ → Blk F → Except MemErr (Blk F)
  | [], _, _, dest => .ok dest
  | s :: ss, k, j, dest => do
    let e ← ldBlk skip s
    let r ← copyRunM rects (List.range' k (e - k)) j dest
    copyM rects skip ss (e + 1) r.1 r.2

/-- `whv_preprocess_rectangles`, c/whv.c:28-72. Returns the rectangles (no block for `NULL`) and `new_nrow`. -/
def whvPreprocessM (rects : Blk F) (nrow : ℕ) (ref : Blk F) : Except MemErr (Blk F × ℕ) := do
  let rects ← clipM o ref (List.range nrow) rects
  let s ← skipM o rects (List.range nrow) (allocBlk nrow, 0)
  if s.2 = 0 then .ok (rects, nrow)
  else if nrow - s.2 = 0 then .ok ([], 0)
  else do
    let skip ← stBlk s.1 s.2 nrow
    let dest ← copyM rects skip (List.range (s.2 + 1)) 0 0 (allocBlk (5 * (nrow - s.2)))
    .ok (dest, nrow - s.2)

/-- What `qsort` leaves in an array of rows of `w` doubles: row `j` is the former row `perm[j]`. -/
def permuteRows (w n : ℕ) (b : Blk F) (perm : List ℕ) : Blk F :=
  (List.range (w * n)).map fun i => (b[perm.getD (i / w) 0 * w + i % w]?).join

/-- `get_rectangle`, c/whv.c:89-97: `lower0`, `lower1`, `upper0`, `upper1`, `color`. -/
def getRectM (rects : Blk F) (r : ℕ) : Except MemErr (F × F × F × F × F) := do
  let l0 ← ldBlk rects (r * 5 + 0)
  let l1 ← ldBlk rects (r * 5 + 1)
  let u0 ← ldBlk rects (r * 5 + 2)
  let u1 ← ldBlk rects (r * 5 + 3)
  let col ← ldBlk rects (r * 5 + 4)
  if !o.lt l0 u0 then .error .assertion
  else if !o.lt l1 u1 then .error .assertion
  else if !o.le o.zero col then .error .assertion
  else .ok (l0, l1, u0, u1, col)

/-- `last_right`, c/whv.c:134-136. -/
def lastRightM (rects : Blk F) : List ℕ → F → Except MemErr F
  | [], m => .ok m
  | r :: rs, m => do
    let u0 ← ldBlk rects (r * 5 + 2)
    lastRightM rects rs (o.max m u0)

/-- The loop over the rectangles for the point `(p0, p1)`, c/whv.c:149-164; `first` says that control enters the `do` loop at its body.  (The first rectangle
is loaded once more here; the code has it in its variables.) -/
def whvInnerM (rects : Blk F) (p0 p1 top : F) : Bool → List ℕ → F → Except MemErr F
  | _, [], acc => .ok acc
  | first, r :: rs, acc => do
    let q ← getRectM o rects r
    if !first && !o.lt p1 q.2.2.2.1 then .ok acc                            -- l. 164
    else if o.lt p0 q.2.2.1 && o.lt q.2.1 top then
      if !(o.lt p0 q.2.2.1 && o.lt p1 q.2.2.2.1) then .error .assertion     -- l. 152
      else if !o.lt q.2.1 top then .error .assertion                        -- l. 153
      else if !o.lt p1 top then .error .assertion                           -- l. 154
      else
        let area := o.mul (o.mul (o.sub q.2.2.1 (o.max p0 q.1)) (o.sub (o.min top q.2.2.2.1) (o.max p1 q.2.1))) q.2.2.2.2
        whvInnerM rects p0 p1 top false rs (o.add acc area)
    else whvInnerM rects p0 p1 top false rs acc

/-- The main loop, c/whv.c:147-173.  The list holds `pk` and the numbers of the later points; `again` says that control is at the condition of line 172. -/
def whvGoM (data rects : Blk F) (nrow : ℕ) (u1 lastTop lastRight : F) : Bool → F → List ℕ → F → Except MemErr F
  | _, _, [], acc => .ok acc
  | again, top, p :: rest, acc => do
    let p0 ← ldBlk data (p * 2 + 0)
    let p1 ← ldBlk data (p * 2 + 1)
    if again && o.eq top p1 && o.le u1 p1 then
      if o.eq p1 lastTop || o.le lastRight p0 then .ok acc
      else whvGoM data rects nrow u1 lastTop lastRight true p1 rest acc
    else if !o.lt p1 u1 then .error .assertion                              -- l. 148
    else do
      let acc ← whvInnerM o rects p0 p1 top true (List.range nrow) acc
      if o.eq p1 lastTop || o.le lastRight p0 then .ok acc
      else whvGoM data rects nrow u1 lastTop lastRight true p1 rest acc

/-- The loop that finds the first useful point, c/whv.c:138-143, and the main loop. -/
def whvFirstM (data rects : Blk F) (nrow : ℕ) (u1 lastTop lastRight : F) : F → List ℕ → Except MemErr F
  | _, [] => .ok o.zero
  | top, p :: rest => do
    let p0 ← ldBlk data (p * 2 + 0)
    let p1 ← ldBlk data (p * 2 + 1)
    if o.le u1 p1 then
      if o.eq p1 lastTop || o.le lastRight p0 then .ok o.zero
      else whvFirstM data rects nrow u1 lastTop lastRight p1 rest
    else whvGoM o data rects nrow u1 lastTop lastRight false top (p :: rest) o.zero

/-- `rect_weighted_hv2d`, c/whv.c:74-181; `lowest` is `-DBL_MAX`, `sortD` and `sortR` are the orders in which `qsort` leaves the rows of the two arrays. -/
def rectWeightedHv2dM (lowest : F) (sortD sortR : Blk F → List ℕ) (data : Blk F) (n : ℕ) (rects : Blk F) (nrow : ℕ) (ref : Blk F) : Except MemErr F :=
  if nrow = 0 ∨ n = 0 then .ok o.zero
  else do
    let pre ← whvPreprocessM o rects nrow ref
    if pre.2 = 0 then .ok o.zero
    else do
      let data := permuteRows 2 n data (sortD data)
      let rects := permuteRows 5 pre.2 pre.1 (sortR pre.1)
      let q ← getRectM o rects 0
      let lastTop ← ldBlk rects (pre.2 * 5 - 2)
      let lastRight ← lastRightM o rects (List.range pre.2) lowest
      whvFirstM o data rects pre.2 q.2.2.2.1 lastTop lastRight q.2.2.2.1 (List.range n)

/-! ## `estimate_whv` -/

/-- The loop over `j`, c/whv_hype.c:172-183, for one sample; the state is `dominated[s]` and `is_dominator`.  (Both coordinates are loaded even where `break`
skips the second.) -/
def hypeCountM (pts : Blk F) (s0 s1 : F) : List ℕ → ℕ × Blk Bool → Except MemErr (ℕ × Blk Bool)
  | [], st => .ok st
  | j :: js, st => do
    let p0 ← ldBlk pts (j * 2 + 0)
    let p1 ← ldBlk pts (j * 2 + 1)
    let dom := !(o.lt s0 p0) && !(o.lt s1 p1)
    let isd ← stBlk st.2 j dom
    hypeCountM pts s0 s1 js (if dom then st.1 + 1 else st.1, isd)

/-- The second loop over `j`, c/whv_hype.c:185-190. -/
def hypeAddM (dominated : ℕ) (isd : Blk Bool) : List ℕ → F → Except MemErr F
  | [], whv => .ok whv
  | j :: js, whv => do
    let b ← ldBlk isd j
    if b then
      if dominated = 0 then .error .assertion                               -- l. 187
      else hypeAddM dominated isd js (o.add whv (o.div o.one (o.ofNat dominated)))
    else hypeAddM dominated isd js whv

/-- The loop over the samples, c/whv_hype.c:169-191; `dominated` is the block from `calloc`, `is_dominator` keeps its contents from sample to sample. -/
def hypeLoopM (pts : Blk F) (npoints : ℕ) (samples : Blk F) : List ℕ → Blk ℕ → Blk Bool → F → Except MemErr F
  | [], _, _, whv => .ok whv
  | s :: ss, dominated, isd, whv => do
    let s0 ← ldBlk samples (s * 2 + 0)
    let s1 ← ldBlk samples (s * 2 + 1)
    let d ← ldBlk dominated s
    let r ← hypeCountM o pts s0 s1 (List.range npoints) (d, isd)
    let dominated ← stBlk dominated s r.1
    let whv ← hypeAddM o r.1 r.2 (List.range npoints) whv
    hypeLoopM pts npoints samples ss dominated r.2 whv

/-- `estimate_whv`, c/whv_hype.c:154-196. -/
def estimateWhvM (pts : Blk F) (npoints : ℕ) (samples : Blk F) (nsamples : ℕ) : Except MemErr F :=
  hypeLoopM o pts npoints samples (List.range nsamples) (List.replicate nsamples (some 0)) (allocBlk npoints) o.zero

/-- `calculate_volume_between_points`, c/whv_hype.c:198-204. -/
def volumeM (p1 p2 : Blk F) : List ℕ → F → Except MemErr F
  | [], v => .ok v
  | k :: ks, v => do
    let b ← ldBlk p2 k
    let a ← ldBlk p1 k
    volumeM p1 p2 ks (o.mul v (o.sub b a))

/-- `whv_hype_sample`, c/whv_hype.c:228-244, with the samples in a block; `normalise01` (l. 206-225) copies the points and normalises the copy. -/
def whvHypeSampleM (pts : Blk F) (npoints : ℕ) (ideal ref samples : Blk F) (nsamples : ℕ) : Except MemErr F := do
  let minmax ← fillM (fun _ => (-1 : ℤ)) (List.range 2) (allocBlk 2)
  let points2 ← cpBlk (allocBlk (2 * npoints)) pts (2 * npoints)
  let points2 ← normaliseM o points2 2 npoints minmax (-1) o.zero o.one ideal ref
  let whv ← estimateWhvM o points2 npoints samples nsamples
  let v ← volumeM o ideal ref (List.range 2) o.one
  .ok (o.mul whv (o.div v (o.ofNat nsamples)))

end

end Moo
