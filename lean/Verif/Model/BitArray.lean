import Mathlib.Data.Nat.Notation
import Mathlib.Data.Int.Notation
import Mathlib.Data.List.Basic

/-!
# Model of `c/bit_array.h`

A block of 64-bit words is a `List (BitVec 64)`; its length is the number of allocated words.  A pointer into the block
is the index of a word.  Every access is checked: an access outside of the block gives `none` (undefined behaviour in C).
`size_t` arithmetic is on ℕ (no overflow).
-/

set_option autoImplicit false

namespace Moo

/-- `bit_array_word_size`, c/bit_array.h:13. -/
def bitWordSize : ℕ := 64

/-- `bitset_index`, c/bit_array.h:15-16. -/
def bitsetIndex (pos : ℕ) : ℕ := pos % bitWordSize

/-- `bitset_word`, c/bit_array.h:18-19. -/
def bitsetWord (pos : ℕ) : ℕ := pos / bitWordSize

/-- `bitset_mask`, c/bit_array.h:21-22. -/
def bitsetMask (k : ℕ) : BitVec 64 := 1#64 <<< k

/-- `bit_nwords`, c/bit_array.h:39-42. -/
def bitNwords (nbits : ℕ) : ℕ := (nbits + bitWordSize - 1) / bitWordSize

/-- `bit_array_set_one`, c/bit_array.h:24-27; `b` is the word index of the pointer. -/
def bitArraySetOne (m : List (BitVec 64)) (b i : ℕ) : Option (List (BitVec 64)) :=
  match m[b + bitsetWord i]? with
  | none => none
  | some w => some (m.set (b + bitsetWord i) (w ||| bitsetMask (bitsetIndex i)))

/-- `bit_array_set_zero`, c/bit_array.h:29-32. -/
def bitArraySetZero (m : List (BitVec 64)) (b i : ℕ) : Option (List (BitVec 64)) :=
  match m[b + bitsetWord i]? with
  | none => none
  | some w => some (m.set (b + bitsetWord i) (w &&& ~~~ (bitsetMask (bitsetIndex i))))

/-- `bit_array_get`, c/bit_array.h:34-37 (the `char` result is 0 or 1). -/
def bitArrayGet (m : List (BitVec 64)) (b i : ℕ) : Option Bool :=
  match m[b + bitsetWord i]? with
  | none => none
  | some w => some (decide (((w >>> bitsetIndex i) &&& 1#64) ≠ 0#64))

/-- `bit_array_set`, c/bit_array.h:76-79. -/
def bitArraySet (m : List (BitVec 64)) (b i : ℕ) (x : Bool) : Option (List (BitVec 64)) :=
  if x then bitArraySetOne m b i else bitArraySetZero m b i

/-- `bit_array_calloc`, c/bit_array.h:56-61: all words are zero.  `n` rows are obtained by `calloc(n * bit_nwords(nbits), ...)`. -/
def bitArrayCalloc (nrows nbits : ℕ) : List (BitVec 64) := List.replicate (nrows * bitNwords nbits) 0#64

/-- `bit_array_offset`, c/bit_array.h:92-96: pointer to row `k` of a packed matrix whose rows have `nbits` bits. -/
def bitArrayOffset (b k nbits : ℕ) : ℕ := b + k * bitNwords nbits

/-- write `n` words from index `dst`, word `j` being `f j` (a `memset`/`memcpy` of whole words); checked. -/
def bitWriteWords (f : ℕ → Option (BitVec 64)) (dst : ℕ) : ℕ → List (BitVec 64) → Option (List (BitVec 64))
  | 0, m => some m
  | n + 1, m =>
    match bitWriteWords f dst n m with
    | none => none
    | some m' =>
      match f n with
      | none => none
      | some w => if dst + n < m'.length then some (m'.set (dst + n) w) else none

/-- `bit_array_zero_all`, c/bit_array.h:70-74. -/
def bitArrayZeroAll (m : List (BitVec 64)) (b n : ℕ) : Option (List (BitVec 64)) :=
  bitWriteWords (fun _ => some 0#64) b (bitNwords n) m

/-- `bit_array_copy` within one block, c/bit_array.h:108-111 (`memcpy` reads the old contents: source and destination rows do not overlap
or are the same row). -/
def bitArrayCopy (m : List (BitVec 64)) (dest src n : ℕ) : Option (List (BitVec 64)) :=
  bitWriteWords (fun j => m[src + j]?) dest (bitNwords n) m

/-- The operations applied to a packed matrix of bit arrays. -/
inductive BitOp
  | set (row bit : ℕ) (x : Bool)
  | zero (row : ℕ)
  | copy (dst src : ℕ)

/-- One operation on the block, addressing the rows by `bit_array_offset`, as c/eaf.c:141 and c/eaf3d.c do. -/
def bitOpRun (nbits : ℕ) (m : List (BitVec 64)) : BitOp → Option (List (BitVec 64))
  | .set k i x => bitArraySet m (bitArrayOffset 0 k nbits) i x
  | .zero k => bitArrayZeroAll m (bitArrayOffset 0 k nbits) nbits
  | .copy k l => bitArrayCopy m (bitArrayOffset 0 k nbits) (bitArrayOffset 0 l nbits) nbits

/-- A history of operations. -/
def bitRun (nbits : ℕ) : List BitOp → List (BitVec 64) → Option (List (BitVec 64))
  | [], m => some m
  | o :: os, m =>
    match bitOpRun nbits m o with
    | none => none
    | some m' => bitRun nbits os m'

/-- Number of set bits in positions `lo ≤ k < hi`: the loops of `attained_left_right`, c/eaf.h:138-141. -/
def bitCount (m : List (BitVec 64)) (b lo : ℕ) : ℕ → Option ℕ
  | 0 => some 0
  | n + 1 =>
    match bitCount m b lo n, bitArrayGet m b (lo + n) with
    | some c, some true => some (c + 1)
    | some c, some false => some c
    | _, _ => none

/-- `attained_left_right`, c/eaf.h:129-145.  `none` = failed assertion or access outside of the block. -/
def attainedLeftRight (m : List (BitVec 64)) (b division total : ℕ) : Option (ℕ × ℕ) :=
  if division < total then
    match bitCount m b 0 division, bitCount m b division (total - division) with
    | some l, some r => some (l, r)
    | _, _ => none
  else none

/-- the loop of `eaf_store_point_help` that packs `save_attained` into row `k`, c/eaf.c:140-142. -/
def bitStoreRow (nbits k : ℕ) (saved : ℕ → ℕ) : ℕ → List (BitVec 64) → Option (List (BitVec 64))
  | 0, m => some m
  | n + 1, m =>
    match bitStoreRow nbits k saved n m with
    | none => none
    | some m' => bitArraySet m' (bitArrayOffset 0 k nbits) n (decide (saved n ≠ 0))

end Moo
