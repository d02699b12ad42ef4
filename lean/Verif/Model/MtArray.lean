import Verif.Model.Mt19937

/-!
# Model of the seeding from an array (c/mt19937/mt19937.c)

`uint32_t` is `BitVec 32`.  `none` is an access outside of `key` or of `init_key`.  `int` does not overflow here, as `i`, `j` and `k` are at most
`max(624, key_length)`.
-/

set_option autoImplicit false
set_option linter.unusedSectionVars false

namespace Moo

/-- c/mt19937/mt19937.c:24-47: the loop of `init_genrand`, over the remaining values of `mti`. -/
def initGenrandLoop : List ℕ → (ℕ → BitVec 32) → (ℕ → BitVec 32)
  | [], mt => mt
  | mti :: rest, mt => initGenrandLoop rest (upd mt mti (1812433253#32 * (mt (mti - 1) ^^^ (mt (mti - 1) >>> 30)) + BitVec.ofNat 32 mti))

/-- c/mt19937/mt19937.c:19-50 `init_genrand`; `key0` is the memory before the call. -/
def initGenrand (key0 : ℕ → BitVec 32) (s : BitVec 32) : MtState :=
  { key := initGenrandLoop (List.range' 1 623) (upd key0 0 s), pos := 624 }

/-- c/mt19937/mt19937.c:70-77 and 84-89: store `v` at position `i`, increment `i`, and start again at 1 behind the end. -/
def mtPut (mt : ℕ → BitVec 32) (i : ℕ) (v : BitVec 32) : (ℕ → BitVec 32) × ℕ :=
  let mt := upd mt i v
  if i + 1 ≥ 624 then (upd mt 0 (mt 623), 1) else (mt, i + 1)

/-- c/mt19937/mt19937.c:66-81: the first loop, `k` iterations left. -/
def mtArrayLoop1 (initKey : List (BitVec 32)) (keyLength : ℤ) : ℕ → (ℕ → BitVec 32) → ℕ → ℕ → Option ((ℕ → BitVec 32) × ℕ)
  | 0, mt, i, _ => some (mt, i)
  | k + 1, mt, i, j =>
    if 1 ≤ i ∧ i < 624 then
      match initKey[j]? with
      | none => none
      | some w =>
        let r := mtPut mt i ((mt i ^^^ ((mt (i - 1) ^^^ (mt (i - 1) >>> 30)) * 1664525#32)) + w + BitVec.ofNat 32 j)
        mtArrayLoop1 initKey keyLength k r.1 r.2 (if ((j + 1 : ℕ) : ℤ) ≥ keyLength then 0 else j + 1)
    else none

/-- c/mt19937/mt19937.c:82-91: the second loop, `k` iterations left. -/
def mtArrayLoop2 : ℕ → (ℕ → BitVec 32) → ℕ → Option (ℕ → BitVec 32)
  | 0, mt, _ => some mt
  | k + 1, mt, i =>
    if 1 ≤ i ∧ i < 624 then
      let r := mtPut mt i ((mt i ^^^ ((mt (i - 1) ^^^ (mt (i - 1) >>> 30)) * 1566083941#32)) - BitVec.ofNat 32 i)
      mtArrayLoop2 k r.1 r.2
    else none

/-- c/mt19937/mt19937.c:56-94 `mt19937_init_by_array`; `key0` is the memory of the state before the call. -/
def mtInitByArray (key0 : ℕ → BitVec 32) (initKey : List (BitVec 32)) (keyLength : ℤ) : Option MtState :=
  let s := initGenrand key0 19650218#32
  match mtArrayLoop1 initKey keyLength (if 624 > keyLength then 624 else keyLength.toNat) s.key 1 0 with
  | none => none
  | some (mt, i) =>
    match mtArrayLoop2 623 mt i with
    | none => none
    | some mt => some { key := upd mt 0 0x80000000#32, pos := s.pos }

end Moo
