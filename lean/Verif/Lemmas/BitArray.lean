import Verif.Model.BitArray
import Mathlib.Tactic.Ring

set_option autoImplicit false

namespace Moo

theorem bitArrayGet_eq (m : List (BitVec 64)) (b i : ℕ) :
    bitArrayGet m b i = (m[b + i / 64]?).map (fun w => w.getLsbD (i % 64)) := by
  unfold bitArrayGet bitsetWord bitsetIndex bitWordSize
  cases h : m[b + i / 64]? with
  | none => rfl
  | some w =>
    simp only [Option.map_some, Option.some.injEq]
    have : w >>> (i % 64) &&& 1#64 = 0#64 ↔ w.getLsbD (i % 64) = false := by
      constructor
      · intro h
        have := congrArg (fun v => BitVec.getLsbD v 0) h
        simpa using this
      · intro h
        apply BitVec.eq_of_getLsbD_eq
        intro j hj
        cases j with
        | zero => simp [h]
        | succ j => simp [BitVec.getLsbD_one]
    rcases Bool.eq_false_or_eq_true (w.getLsbD (i % 64)) with h1 | h1
    · rw [h1, decide_eq_true_eq, Ne, this, h1]; simp
    · rw [h1, decide_eq_false_iff_not, not_not, this, h1]

theorem bitArraySet_eq (m : List (BitVec 64)) (b i : ℕ) (x : Bool) (h : b + i / 64 < m.length) :
    ∃ m', bitArraySet m b i x = some m' ∧ m'.length = m.length ∧
      (∀ j, j ≠ b + i / 64 → m'[j]? = m[j]?) ∧
      ∃ w w', m[b + i / 64]? = some w ∧ m'[b + i / 64]? = some w' ∧
        ∀ k < 64, w'.getLsbD k = if k = i % 64 then x else w.getLsbD k := by
  have hw := List.getElem?_eq_getElem h
  have h64 : i % 64 < 64 := Nat.mod_lt _ (by norm_num)
  unfold bitArraySet bitArraySetOne bitArraySetZero bitsetWord bitsetIndex bitWordSize bitsetMask
  rw [hw]
  cases x with
  | true =>
    refine ⟨_, rfl, List.length_set, ?_, m[b + i / 64], _, rfl, List.getElem?_set_self h, ?_⟩
    · intro j hj; rw [List.getElem?_set_ne (Ne.symm hj)]
    · intro k hk
      simp only [BitVec.getLsbD_or, BitVec.getLsbD_shiftLeft, BitVec.getLsbD_one]
      by_cases hki : k = i % 64
      · simp [hki, h64]
      · rw [if_neg hki]
        by_cases hlt : k < i % 64
        · simp [hlt]
        · have : k - i % 64 ≠ 0 := by omega
          simp [this]
  | false =>
    refine ⟨_, rfl, List.length_set, ?_, m[b + i / 64], _, rfl, List.getElem?_set_self h, ?_⟩
    · intro j hj; rw [List.getElem?_set_ne (Ne.symm hj)]
    · intro k hk
      simp only [BitVec.getLsbD_and, BitVec.getLsbD_not, BitVec.getLsbD_shiftLeft, BitVec.getLsbD_one]
      by_cases hki : k = i % 64
      · simp [hki]
      · rw [if_neg hki]
        by_cases hlt : k < i % 64
        · simp [hlt, hk]
        · have : k - i % 64 ≠ 0 := by omega
          simp [this, hk]

theorem bitWriteWords_eq (f : ℕ → Option (BitVec 64)) (dst : ℕ) (m : List (BitVec 64)) :
    ∀ n, dst + n ≤ m.length → (∀ j < n, (f j).isSome) →
      ∃ m', bitWriteWords f dst n m = some m' ∧ m'.length = m.length ∧
        (∀ j, (j < dst ∨ dst + n ≤ j) → m'[j]? = m[j]?) ∧ (∀ j < n, m'[dst + j]? = f j) := by
  intro n
  induction n with
  | zero => intro _ _; exact ⟨m, rfl, rfl, fun _ _ => rfl, fun j hj => absurd hj (by omega)⟩
  | succ n ih =>
    intro hlen hf
    obtain ⟨m', h1, h2, h3, h4⟩ := ih (by omega) (fun j hj => hf j (by omega))
    obtain ⟨w, hw⟩ := Option.isSome_iff_exists.1 (hf n (by omega))
    unfold bitWriteWords
    rw [h1]; simp only [hw]
    rw [if_pos (by omega)]
    refine ⟨_, rfl, by rw [List.length_set, h2], ?_, ?_⟩
    · intro j hj
      rw [List.getElem?_set_ne (by omega), h3 j (by omega)]
    · intro j hj
      by_cases hjn : j = n
      · subst hjn; rw [List.getElem?_set_self (by omega), hw]
      · rw [List.getElem?_set_ne (by omega), h4 j (by omega)]

theorem word_lt_nwords {i nbits : ℕ} (h : i < nbits) : i / 64 < bitNwords nbits := by
  unfold bitNwords bitWordSize
  omega

theorem row_word_lt {k rows w n : ℕ} (hk : k < rows) (hw : w < n) : k * n + w < rows * n := by
  have : (k + 1) * n ≤ rows * n := Nat.mul_le_mul_right n hk
  have e : (k + 1) * n = k * n + n := by ring
  omega

theorem row_word_inj {k l n w v : ℕ} (hw : w < n) (hv : v < n) (h : k * n + w = l * n + v) : k = l ∧ w = v := by
  have h1 : (k * n + w) / n = k := by
    rw [Nat.mul_comm, Nat.mul_add_div (by omega), Nat.div_eq_of_lt hw, Nat.add_zero]
  have h2 : (l * n + v) / n = l := by
    rw [Nat.mul_comm, Nat.mul_add_div (by omega), Nat.div_eq_of_lt hv, Nat.add_zero]
  have hkl : k = l := by rw [← h1, ← h2, h]
  subst hkl
  exact ⟨rfl, by omega⟩

/-- The block holds the matrix `A`. -/
structure BitRep (rows nbits : ℕ) (m : List (BitVec 64)) (A : ℕ → ℕ → Bool) : Prop where
  len : m.length = rows * bitNwords nbits
  get : ∀ k < rows, ∀ i < nbits, bitArrayGet m (bitArrayOffset 0 k nbits) i = some (A k i)

theorem bitRep_set {rows nbits : ℕ} {m : List (BitVec 64)} {A : ℕ → ℕ → Bool} (h : BitRep rows nbits m A)
    {k i : ℕ} (hk : k < rows) (hi : i < nbits) (x : Bool) :
    ∃ m', bitArraySet m (bitArrayOffset 0 k nbits) i x = some m' ∧
      BitRep rows nbits m' (fun r j => if r = k ∧ j = i then x else A r j) := by
  have hlt : bitArrayOffset 0 k nbits + i / 64 < m.length := by
    rw [h.len]; unfold bitArrayOffset; rw [Nat.zero_add]; exact row_word_lt hk (word_lt_nwords hi)
  obtain ⟨m', h1, h2, h3, w, w', h4, h5, h6⟩ := bitArraySet_eq m _ i x hlt
  refine ⟨m', h1, by rw [h2, h.len], ?_⟩
  intro r hr j hj
  have hg := h.get r hr j hj
  rw [bitArrayGet_eq] at hg ⊢
  by_cases hidx : bitArrayOffset 0 r nbits + j / 64 = bitArrayOffset 0 k nbits + i / 64
  · have hrk : r = k ∧ j / 64 = i / 64 := by
      unfold bitArrayOffset at hidx
      exact row_word_inj (word_lt_nwords hj) (word_lt_nwords hi) (by omega)
    rw [hidx, h4] at hg
    rw [hidx, h5]
    simp only [Option.map_some, Option.some.injEq] at hg ⊢
    rw [h6 _ (Nat.mod_lt _ (by norm_num)), hg]
    have : j % 64 = i % 64 ↔ (r = k ∧ j = i) := by omega
    by_cases hc : j % 64 = i % 64
    · rw [if_pos hc, if_pos (this.1 hc)]
    · rw [if_neg hc, if_neg (fun h => hc (this.2 h))]
  · rw [h3 _ hidx, hg, if_neg]
    rintro ⟨rfl, rfl⟩; exact hidx rfl

theorem bitRep_write {rows nbits : ℕ} {m : List (BitVec 64)} {A : ℕ → ℕ → Bool} (h : BitRep rows nbits m A)
    {k : ℕ} (hk : k < rows) (f : ℕ → Option (BitVec 64)) (B : ℕ → Bool) (hf : ∀ j < bitNwords nbits, (f j).isSome)
    (hB : ∀ i < nbits, (f (i / 64)).map (fun w => w.getLsbD (i % 64)) = some (B i)) :
    ∃ m', bitWriteWords f (bitArrayOffset 0 k nbits) (bitNwords nbits) m = some m' ∧
      BitRep rows nbits m' (fun r j => if r = k then B j else A r j) := by
  have hle : bitArrayOffset 0 k nbits + bitNwords nbits ≤ m.length := by
    rw [h.len]; unfold bitArrayOffset
    have : (k + 1) * bitNwords nbits ≤ rows * bitNwords nbits := Nat.mul_le_mul_right _ hk
    have e : (k + 1) * bitNwords nbits = k * bitNwords nbits + bitNwords nbits := by ring
    omega
  obtain ⟨m', h1, h2, h3, h4⟩ := bitWriteWords_eq f _ m _ hle hf
  refine ⟨m', h1, by rw [h2, h.len], ?_⟩
  intro r hr j hj
  have hg := h.get r hr j hj
  rw [bitArrayGet_eq] at hg ⊢
  have hwj := word_lt_nwords hj
  by_cases hrk : r = k
  · subst hrk
    rw [h4 _ hwj, hB j hj, if_pos rfl]
  · rw [if_neg hrk, h3, hg]
    unfold bitArrayOffset
    by_contra hc
    have hc' : k * bitNwords nbits ≤ r * bitNwords nbits + j / 64 ∧
        r * bitNwords nbits + j / 64 < k * bitNwords nbits + bitNwords nbits := by omega
    have := row_word_inj (k := r) (l := k) (w := j / 64) (v := r * bitNwords nbits + j / 64 - k * bitNwords nbits)
      hwj (by omega) (by omega)
    exact hrk this.1

theorem bitRep_calloc (rows nbits : ℕ) : BitRep rows nbits (bitArrayCalloc rows nbits) (fun _ _ => false) := by
  refine ⟨by simp [bitArrayCalloc], ?_⟩
  intro k hk i hi
  have : bitArrayOffset 0 k nbits + i / 64 < (bitArrayCalloc rows nbits).length := by
    simp only [bitArrayCalloc, List.length_replicate, bitArrayOffset, Nat.zero_add]
    exact row_word_lt hk (word_lt_nwords hi)
  rw [bitArrayGet_eq, List.getElem?_eq_getElem this]
  simp [bitArrayCalloc]

/-- A freshly allocated block holds some matrix, whatever its contents. -/
theorem bitRep_any (rows nbits : ℕ) (m : List (BitVec 64)) (h : m.length = rows * bitNwords nbits) :
    ∃ A, BitRep rows nbits m A := by
  refine ⟨fun k i => (bitArrayGet m (bitArrayOffset 0 k nbits) i).getD false, h, ?_⟩
  intro k hk i hi
  have : bitArrayOffset 0 k nbits + i / 64 < m.length := by
    rw [h]; unfold bitArrayOffset; rw [Nat.zero_add]; exact row_word_lt hk (word_lt_nwords hi)
  rw [bitArrayGet_eq, List.getElem?_eq_getElem this]
  simp

theorem bitStoreRow_rep {rows nbits : ℕ} {m : List (BitVec 64)} {A : ℕ → ℕ → Bool} (h : BitRep rows nbits m A)
    {k : ℕ} (hk : k < rows) (saved : ℕ → ℕ) : ∀ n, n ≤ nbits →
    ∃ m', bitStoreRow nbits k saved n m = some m' ∧
      BitRep rows nbits m' (fun r j => if r = k ∧ j < n then decide (saved j ≠ 0) else A r j) := by
  intro n
  induction n with
  | zero => intro _; exact ⟨m, rfl, by simpa using h⟩
  | succ n ih =>
    intro hn
    obtain ⟨m', h1, h2⟩ := ih (by omega)
    obtain ⟨m'', h3, h4⟩ := bitRep_set h2 hk (i := n) (by omega) (decide (saved n ≠ 0))
    refine ⟨m'', by unfold bitStoreRow; rw [h1]; exact h3, h4.len, ?_⟩
    intro r hr j hj
    rw [h4.get r hr j hj]
    congr 1
    by_cases hrk : r = k
    · subst hrk
      rcases lt_trichotomy j n with hj' | hj' | hj'
      · rw [if_neg (by omega), if_pos ⟨rfl, hj'⟩, if_pos ⟨rfl, by omega⟩]
      · subst hj'; rw [if_pos ⟨rfl, rfl⟩, if_pos ⟨rfl, by omega⟩]
      · rw [if_neg (by omega), if_neg (by omega), if_neg (by omega)]
    · rw [if_neg (by tauto), if_neg (by tauto), if_neg (by tauto)]

theorem bitCount_rep {rows nbits : ℕ} {m : List (BitVec 64)} {A : ℕ → ℕ → Bool} (h : BitRep rows nbits m A)
    {k : ℕ} (hk : k < rows) (lo : ℕ) : ∀ n, lo + n ≤ nbits →
    bitCount m (bitArrayOffset 0 k nbits) lo n = some (((List.range n).filter (fun i => A k (lo + i))).length) := by
  intro n
  induction n with
  | zero => intro _; rfl
  | succ n ih =>
    intro hn
    unfold bitCount
    rw [ih (by omega), h.get k hk (lo + n) (by omega), List.range_succ, List.filter_append]
    rcases Bool.eq_false_or_eq_true (A k (lo + n)) with ha | ha <;> simp [ha]

end Moo
