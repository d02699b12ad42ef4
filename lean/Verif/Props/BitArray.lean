import Verif.Lemmas.BitArray

set_option autoImplicit false

/-! # Properties of the packed bit arrays (`c/bit_array.h`) -/

namespace Moo

/-- Specification: an abstract matrix of bits, and what each operation does to it. -/
def bitSpecStep (A : ℕ → ℕ → Bool) : BitOp → ℕ → ℕ → Bool
  | .set k i x => fun r j => if r = k ∧ j = i then x else A r j
  | .zero k => fun r j => if r = k then false else A r j
  | .copy k l => fun r j => if r = k then A l j else A r j

/-- Specification: the abstract matrix after a history. -/
def bitSpecRun : List BitOp → (ℕ → ℕ → Bool) → ℕ → ℕ → Bool
  | [], A => A
  | o :: os, A => bitSpecRun os (bitSpecStep A o)

/-- An operation addresses rows and bits inside of the matrix. -/
def BitOp.InRange (rows nbits : ℕ) : BitOp → Prop
  | .set k i _ => k < rows ∧ i < nbits
  | .zero k => k < rows
  | .copy k l => k < rows ∧ l < rows

theorem bitOp_rep {rows nbits : ℕ} {m : List (BitVec 64)} {A : ℕ → ℕ → Bool} (h : BitRep rows nbits m A) (o : BitOp)
    (ho : o.InRange rows nbits) : ∃ m', bitOpRun nbits m o = some m' ∧ BitRep rows nbits m' (bitSpecStep A o) := by
  cases o with
  | set k i x => exact bitRep_set h ho.1 ho.2 x
  | zero k =>
    refine bitRep_write h (k := k) ho _ (fun _ => false) (fun _ _ => rfl) ?_
    intro i _; simp
  | copy k l =>
    refine bitRep_write h (k := k) ho.1 _ (A l) ?_ ?_
    · intro j hj
      have : bitArrayOffset 0 l nbits + j < m.length := by
        rw [h.len]; unfold bitArrayOffset; rw [Nat.zero_add]; exact row_word_lt ho.2 hj
      rw [List.getElem?_eq_getElem this]; rfl
    · intro i hi
      have := h.get l ho.2 i hi
      rwa [bitArrayGet_eq] at this

theorem bitRun_rep {rows nbits : ℕ} : ∀ (ops : List BitOp) {m : List (BitVec 64)} {A : ℕ → ℕ → Bool},
    BitRep rows nbits m A → (∀ o ∈ ops, o.InRange rows nbits) →
    ∃ m', bitRun nbits ops m = some m' ∧ BitRep rows nbits m' (bitSpecRun ops A) := by
  intro ops
  induction ops with
  | nil => intro m A h _; exact ⟨m, rfl, h⟩
  | cons o os ih =>
    intro m A h hin
    obtain ⟨m1, h1, h2⟩ := bitOp_rep h o (hin o (List.mem_cons_self ..))
    obtain ⟨m2, h3, h4⟩ := ih h2 (fun o' ho' => hin o' (List.mem_cons_of_mem _ ho'))
    exact ⟨m2, by unfold bitRun; rw [h1]; exact h3, h4⟩

/-- **C28 (histories).** After any history of sets, row copies and row clears on a zero-initialised matrix of `rows` bit arrays of
`nbits` bits packed in `rows * bit_nwords(nbits)` words, no operation leaves the allocated words, and reading any bit gives the value it has after
the same history on an abstract matrix of bits. -/
theorem C28_bit_array_history (rows nbits : ℕ) (ops : List BitOp) (hops : ∀ o ∈ ops, o.InRange rows nbits) :
    ∃ m, bitRun nbits ops (bitArrayCalloc rows nbits) = some m ∧ m.length = rows * bitNwords nbits ∧
      ∀ k < rows, ∀ i < nbits,
        bitArrayGet m (bitArrayOffset 0 k nbits) i = some (bitSpecRun ops (fun _ _ => false) k i) := by
  obtain ⟨m, h1, h2⟩ := bitRun_rep ops (bitRep_calloc rows nbits) hops
  exact ⟨m, h1, h2.len, h2.get⟩

/-- **C28 (one set).** On any allocated matrix (whatever its contents), setting one bit succeeds, the bit then reads as stored, and every other
bit, of the same or of another row, reads as before. -/
theorem C28_bit_array_get_set (rows nbits : ℕ) (m : List (BitVec 64)) (hm : m.length = rows * bitNwords nbits)
    (k i : ℕ) (hk : k < rows) (hi : i < nbits) (x : Bool) :
    ∃ m', bitArraySet m (bitArrayOffset 0 k nbits) i x = some m' ∧ m'.length = m.length ∧
      bitArrayGet m' (bitArrayOffset 0 k nbits) i = some x ∧
      ∀ k' < rows, ∀ i' < nbits, (k', i') ≠ (k, i) →
        bitArrayGet m' (bitArrayOffset 0 k' nbits) i' = bitArrayGet m (bitArrayOffset 0 k' nbits) i' := by
  obtain ⟨A, hA⟩ := bitRep_any rows nbits m hm
  obtain ⟨m', h1, h2⟩ := bitRep_set hA hk hi x
  refine ⟨m', h1, by rw [h2.len, hm], by rw [h2.get k hk i hi]; simp, ?_⟩
  intro k' hk' i' hi' hne
  rw [h2.get k' hk' i' hi', hA.get k' hk' i' hi', if_neg]
  rintro ⟨rfl, rfl⟩; exact hne rfl

/-- **C28 (no spill).** A row of `nbits` bits needs and gets exactly `⌈nbits/64⌉` words. -/
theorem C28_bit_nwords (nbits : ℕ) : nbits ≤ 64 * bitNwords nbits ∧ 64 * bitNwords nbits < nbits + 64 := by
  unfold bitNwords bitWordSize; omega

/-- **C28 (storing an attainment vector).** Packing the run counters of a point into row `k` stores "counter ≠ 0" for every run and changes no other row. -/
theorem C28_store_attained (rows nruns : ℕ) (m : List (BitVec 64)) (hm : m.length = rows * bitNwords nruns)
    (k : ℕ) (hk : k < rows) (saved : ℕ → ℕ) :
    ∃ m', bitStoreRow nruns k saved nruns m = some m' ∧ m'.length = m.length ∧
      (∀ r < nruns, bitArrayGet m' (bitArrayOffset 0 k nruns) r = some (decide (saved r ≠ 0))) ∧
      ∀ k' < rows, k' ≠ k → ∀ r < nruns,
        bitArrayGet m' (bitArrayOffset 0 k' nruns) r = bitArrayGet m (bitArrayOffset 0 k' nruns) r := by
  obtain ⟨A, hA⟩ := bitRep_any rows nruns m hm
  obtain ⟨m', h1, h2⟩ := bitStoreRow_rep hA hk saved nruns le_rfl
  refine ⟨m', h1, by rw [h2.len, hm], ?_, ?_⟩
  · intro r hr; rw [h2.get k hk r hr, if_pos ⟨rfl, hr⟩]
  · intro k' hk' hne r hr
    rw [h2.get k' hk' r hr, hA.get k' hk' r hr, if_neg (by tauto)]

/-- Non-vacuity: a history on rows of 100 bits that crosses a word boundary. -/
example : ∀ o ∈ [BitOp.set 0 63 true, .set 0 64 true, .set 1 99 true, .copy 2 1, .zero 0, .set 2 64 true, .set 2 99 false],
    o.InRange 3 100 := by
  simp [BitOp.InRange]

example : bitSpecRun [BitOp.set 0 63 true, .set 0 64 true, .set 1 99 true, .copy 2 1, .zero 0, .set 2 64 true]
    (fun _ _ => false) 2 99 = true := by
  simp [bitSpecRun, bitSpecStep]

end Moo
