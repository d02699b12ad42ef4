import Verif.Model.WhvHype
import Mathlib.Data.Real.Basic

/-!
# Model of the random number generator (c/mt19937/mt19937.c, c/mt19937/mt19937.h, c/rng.h)

`uint32_t` is `BitVec 32`; the computations in `unsigned long` are all reduced to 32 bits by the assignment.  `none` is an access outside of the
array `key`.  `mt19937_init_by_array` is in Model/MtArray, `rng_uniform` in Model/RngUniform.  Not modelled:
`mt19937_jump` (declared only).
-/

set_option autoImplicit false

namespace Moo

/-- c/mt19937/mt19937.h:20-23 `mt19937_state`. -/
structure MtState where
  /-- `key[RK_STATE_LEN]` -/
  key : ℕ → BitVec 32
  /-- `pos` -/
  pos : ℕ

/-- c/mt19937/mt19937.c:11-14: the loop of `mt19937_seed`, over the remaining values of `pos`. -/
def mtSeedLoop : List ℕ → BitVec 32 → (ℕ → BitVec 32) → (ℕ → BitVec 32)
  | [], _, key => key
  | pos :: rest, seed, key =>
    mtSeedLoop rest (1812433253#32 * (seed ^^^ (seed >>> 30)) + BitVec.ofNat 32 pos + 1#32) (upd key pos seed)

/-- c/mt19937/mt19937.c:6-16 `mt19937_seed` (and c/rng.h:7-13 `rng_new`); `key0` is the uninitialised memory. -/
def mtSeed (key0 : ℕ → BitVec 32) (seed : BitVec 32) : MtState :=
  { key := mtSeedLoop (List.range 624) seed key0, pos := 624 }

/-- c/mt19937/mt19937.c:117, 121, 124: `y`. -/
def mtY (key : ℕ → BitVec 32) (i j : ℕ) : BitVec 32 := (key i &&& 0x80000000#32) ||| (key j &&& 0x7fffffff#32)

/-- c/mt19937/mt19937.c:118, 122, 125: `(y >> 1) ^ (-(y & 1) & MATRIX_A)`. -/
def mtMix (y : BitVec 32) : BitVec 32 := (y >>> 1) ^^^ (-(y &&& 1#32) &&& 0x9908b0df#32)

/-- c/mt19937/mt19937.c:116-119: one iteration of the first loop. -/
def mtGenStep1 (key : ℕ → BitVec 32) (i : ℕ) : ℕ → BitVec 32 := upd key i (key (i + 397) ^^^ mtMix (mtY key i (i + 1)))

/-- c/mt19937/mt19937.c:120-123: one iteration of the second loop; `i + (M - N)`. -/
def mtGenStep2 (key : ℕ → BitVec 32) (i : ℕ) : ℕ → BitVec 32 := upd key i (key (i - 227) ^^^ mtMix (mtY key i (i + 1)))

/-- c/mt19937/mt19937.c:96-132 `mt19937_gen`. -/
def mtGen (s : MtState) : MtState :=
  let key1 := (List.range 227).foldl mtGenStep1 s.key
  let key2 := (List.range' 227 396).foldl mtGenStep2 key1
  { key := upd key2 623 (key2 396 ^^^ mtMix (mtY key2 623 0)), pos := 0 }

/-- c/mt19937/mt19937.h:30-46 `mt19937_next`. -/
def mtNext (s : MtState) : Option (BitVec 32 × MtState) :=
  let s1 := if s.pos = 624 then mtGen s else s
  if s1.pos < 624 then
    let y := s1.key s1.pos
    let s2 : MtState := { key := s1.key, pos := s1.pos + 1 }
    let y := y ^^^ (y >>> 11)
    let y := y ^^^ ((y <<< 7) &&& 0x9d2c5680#32)
    let y := y ^^^ ((y <<< 15) &&& 0xefc60000#32)
    let y := y ^^^ (y >>> 18)
    some (y, s2)
  else none

/-- `n` successive calls of `mt19937_next`: the results and the final state. -/
def mtWords : ℕ → MtState → Option (List (BitVec 32) × MtState)
  | 0, s => some ([], s)
  | n + 1, s => match mtNext s with
    | none => none
    | some (y, s1) => match mtWords n s1 with
      | none => none
      | some (l, s2) => some (y :: l, s2)

/-- c/mt19937/mt19937.h:59-62 `mt19937_next_double` (and c/rng.h:22-26 `rng_random`), with a rounding after each of the three operations.
`int32_t a, b` hold 27 and 26 bits, so that the conversions to `double` are exact. -/
noncomputable def mtNextDouble (rnd : ℝ → ℝ) (s : MtState) : Option (ℝ × MtState) :=
  match mtNext s with
  | none => none
  | some (w1, s1) => match mtNext s1 with
    | none => none
    | some (w2, s2) =>
      let a := (w1 >>> 5).toNat
      let b := (w2 >>> 6).toNat
      some (rnd (rnd (rnd ((a : ℝ) * 67108864) + (b : ℝ)) / 9007199254740992), s2)

end Moo
