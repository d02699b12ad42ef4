import Verif.Model.EafStore
import Verif.Lemmas.BitArray
import Mathlib.Tactic.Ring
import Mathlib.Tactic.Push

/-!
# The memory of an attainment surface
-/

set_option autoImplicit false

namespace Moo

variable {α : Type*}

/-- The surface holds exactly these points, with these attainment indicators. -/
structure EafHolds (nobj : ℕ) (e : EafT α) (rows : List ((ℕ → α) × (ℕ → ℤ))) : Prop where
  size : e.size = rows.length
  le : e.size ≤ e.maxsize
  dlen : e.data.length = nobj * e.maxsize
  blen : e.bits.length = e.maxsize * bitNwords e.nruns
  data : ∀ i (hi : i < rows.length), ∀ j < nobj, e.data[nobj * i + j]? = some (rows[i].1 j)
  bits : ∀ i (hi : i < rows.length), ∀ r < e.nruns, bitArrayGet e.bits (bitArrayOffset 0 i e.nruns) r = some (decide (rows[i].2 r ≠ 0))

theorem resize_length {β : Type*} (l : List β) (n : ℕ) (junk : ℕ → β) : (resize l n junk).length = n := by simp [resize]

theorem resize_get {β : Type*} (l : List β) (n : ℕ) (junk : ℕ → β) {i : ℕ} (hi : i < n) (hl : i < l.length) : (resize l n junk)[i]? = l[i]? := by
  unfold resize
  rw [List.getElem?_map, List.getElem?_range hi, List.getElem?_eq_getElem hl]
  simp [List.getElem?_eq_getElem hl]

theorem eafCreate_holds (V : EafEnv α) (nobj nruns npoints : ℕ) : EafHolds nobj (eafCreate V nobj nruns npoints) [] :=
  ⟨rfl, Nat.zero_le _, by simp [eafCreate, resize_length], by simp [eafCreate, resize_length], by simp, by simp⟩

theorem eafRealloc_holds (V : EafEnv α) {nobj : ℕ} {e : EafT α} {rows : List ((ℕ → α) × (ℕ → ℤ))} (h : EafHolds nobj e rows) (hn : 0 < nobj)
    {m k : ℕ} (hm : e.size ≤ m) (hm0 : 0 < m) :
    ∃ e', eafRealloc V { e with maxsize := m, nreallocs := k } nobj = some e' ∧ EafHolds nobj e' rows ∧ e'.maxsize = m ∧ e'.nruns = e.nruns := by
  have hs := h.size
  unfold eafRealloc
  rw [if_neg (by have := Nat.mul_pos hn hm0; simp only; omega)]
  refine ⟨_, rfl, ⟨hs, hm, resize_length _ _ _, resize_length _ _ _, ?_, ?_⟩, rfl, rfl⟩
  · intro i hi j hj
    have h1 : nobj * i + j < nobj * rows.length := by
      calc nobj * i + j < nobj * i + nobj := by omega
        _ = nobj * (i + 1) := by ring
        _ ≤ nobj * rows.length := Nat.mul_le_mul_left _ hi
    have h2 : nobj * rows.length ≤ nobj * m := Nat.mul_le_mul_left _ (by omega)
    have h3 : nobj * rows.length ≤ nobj * e.maxsize := Nat.mul_le_mul_left _ (by have := h.le; omega)
    have := resize_get e.data (nobj * m) V.junkData (i := nobj * i + j) (by omega) (by rw [h.dlen]; omega)
    simp only
    rw [this]
    exact h.data i hi j hj
  · intro i hi r hr
    have hr' : r < e.nruns := hr
    have hw := word_lt_nwords hr'
    have h1 : i * bitNwords e.nruns + r / 64 < rows.length * bitNwords e.nruns := row_word_lt hi hw
    have h2 : rows.length * bitNwords e.nruns ≤ m * bitNwords e.nruns := Nat.mul_le_mul_right _ (by omega)
    have h3 : rows.length * bitNwords e.nruns ≤ e.maxsize * bitNwords e.nruns := Nat.mul_le_mul_right _ (by have := h.le; omega)
    have := h.bits i hi r hr'
    rw [bitArrayGet_eq] at this ⊢
    simp only [bitArrayOffset, Nat.zero_add] at this ⊢
    rw [resize_get e.bits _ V.junkBits (by omega) (by rw [h.blen]; omega)]
    exact this

/-- The capacity never shrinks when the block grows. -/
def GrowOk (V : EafEnv α) : Prop := ∀ k m, m ≤ V.grow k m

theorem writeCoords_spec (b : ℕ) (p : ℕ → α) (k : ℕ) : ∀ (l : List α), b + k ≤ l.length →
    ∃ l', writeCoords b p k l = some l' ∧ l'.length = l.length ∧ (∀ j < k, l'[b + j]? = some (p j)) ∧
      ∀ i, (i < b ∨ b + k ≤ i) → l'[i]? = l[i]? := by
  induction k with
  | zero => intro l _; exact ⟨l, rfl, rfl, by simp, fun _ _ => rfl⟩
  | succ k ih =>
    intro l hl
    obtain ⟨l1, h1, h2, h3, h4⟩ := ih l (by omega)
    rw [writeCoords, h1]
    dsimp only
    rw [if_pos (by omega)]
    refine ⟨_, rfl, by simp [h2], ?_, ?_⟩
    · intro j hj
      by_cases hjk : j = k
      · subst hjk; rw [List.getElem?_set_self (by omega)]
      · rw [List.getElem?_set_ne (by omega)]; exact h3 j (by omega)
    · intro i hi
      rw [List.getElem?_set_ne (by omega)]
      exact h4 i (by omega)

theorem eafStorePoint_holds (V : EafEnv α) (hV : GrowOk V) {nobj : ℕ} (hn : 0 < nobj) {e : EafT α} {rows : List ((ℕ → α) × (ℕ → ℤ))}
    (h : EafHolds nobj e rows) (hsz : rows.length < 1073741823) (p : ℕ → α) (saved : ℕ → ℤ) :
    ∃ e', eafStorePoint V nobj e p saved = some e' ∧ EafHolds nobj e' (rows ++ [(p, saved)]) ∧ e'.nruns = e.nruns := by
  have hgrow : ∃ e1, (if e.size = e.maxsize then
      if e.size < 2147483647 / 2 then
        eafRealloc V { e with maxsize := V.grow e.nreallocs e.maxsize + 100, nreallocs := e.nreallocs + 1 } nobj
      else none
    else some e) = some e1 ∧ EafHolds nobj e1 rows ∧ e1.size < e1.maxsize ∧ e1.nruns = e.nruns := by
    by_cases hfull : e.size = e.maxsize
    · have hs := h.size
      rw [if_pos hfull, if_pos (by omega)]
      have hg := hV e.nreallocs e.maxsize
      obtain ⟨e1, h1, h2, h3, h4⟩ := eafRealloc_holds V h hn (m := V.grow e.nreallocs e.maxsize + 100) (k := e.nreallocs + 1) (by omega) (by omega)
      refine ⟨e1, h1, h2, ?_, h4⟩
      rw [h2.size, h3]; omega
    · rw [if_neg hfull]
      exact ⟨e, rfl, h, lt_of_le_of_ne h.le hfull, rfl⟩
  obtain ⟨e1, g1, g2, g3, g4⟩ := hgrow
  unfold eafStorePoint eafStorePointHelp
  rw [g1]
  dsimp only
  obtain ⟨A, hA⟩ := bitRep_any e1.maxsize e1.nruns e1.bits g2.blen
  obtain ⟨m', b1, b2⟩ := bitStoreRow_rep hA g3 (fun k => (saved k).natAbs) e1.nruns le_rfl
  rw [b1]
  dsimp only
  have hlen : nobj * e1.size + nobj ≤ e1.data.length := by
    rw [g2.dlen]
    calc nobj * e1.size + nobj = nobj * (e1.size + 1) := by ring
      _ ≤ nobj * e1.maxsize := Nat.mul_le_mul_left _ g3
  obtain ⟨d', w1, w2, w3, w4⟩ := writeCoords_spec (nobj * e1.size) p nobj e1.data hlen
  rw [w1]
  refine ⟨_, rfl, ⟨?_, ?_, ?_, ?_, ?_, ?_⟩, g4⟩
  · simp [g2.size]
  · exact g3
  · simp only; rw [w2, g2.dlen]
  · simp only; rw [b2.len]
  · intro i hi j hj
    simp only [List.length_append, List.length_singleton] at hi
    simp only
    by_cases hil : i < rows.length
    · rw [List.getElem_append_left hil, w4]
      · exact g2.data i hil j hj
      · left
        calc nobj * i + j < nobj * i + nobj := by omega
          _ = nobj * (i + 1) := by ring
          _ ≤ nobj * e1.size := Nat.mul_le_mul_left _ (by rw [g2.size]; omega)
    · have hie : i = rows.length := by omega
      subst hie
      rw [List.getElem_append_right (by omega)]
      have := w3 j hj
      rw [g2.size] at this
      simpa using this
  · intro i hi r hr
    simp only [List.length_append, List.length_singleton] at hi
    simp only at hr ⊢
    have hie : i < e1.maxsize := by rw [g2.size] at g3; omega
    rw [b2.get i hie r hr]
    by_cases hil : i < rows.length
    · rw [List.getElem_append_left hil, if_neg (by rw [g2.size]; omega), ← hA.get i hie r hr]
      exact g2.bits i hil r hr
    · have hie2 : i = rows.length := by omega
      subst hie2
      rw [if_pos ⟨g2.size.symm, hr⟩, List.getElem_append_right (by omega)]
      simp

theorem eafStoreAll_holds (V : EafEnv α) (hV : GrowOk V) {nobj : ℕ} (hn : 0 < nobj) (new : List ((ℕ → α) × (ℕ → ℤ))) :
    ∀ {e : EafT α} {rows : List ((ℕ → α) × (ℕ → ℤ))}, EafHolds nobj e rows → rows.length + new.length ≤ 1073741823 →
    ∃ e', eafStoreAll V nobj new e = some e' ∧ EafHolds nobj e' (rows ++ new) ∧ e'.nruns = e.nruns := by
  induction new with
  | nil => intro e rows h _; exact ⟨e, rfl, by simpa using h, rfl⟩
  | cons r new ih =>
    intro e rows h hl
    simp only [List.length_cons] at hl
    obtain ⟨e1, h1, h2, h3⟩ := eafStorePoint_holds V hV hn h (by omega) r.1 r.2
    rw [eafStoreAll, h1]
    dsimp only
    obtain ⟨e2, h4, h5, h6⟩ := ih h2 (by simp; omega)
    exact ⟨e2, h4, by simpa using h5, by rw [h6, h3]⟩

theorem eafAdjust_holds (V : EafEnv α) {nobj : ℕ} (hn : 0 < nobj) {e : EafT α} {rows : List ((ℕ → α) × (ℕ → ℤ))}
    (h : EafHolds nobj e rows) (hne : rows ≠ []) :
    ∃ e', eafAdjustMemory V e nobj = some e' ∧ EafHolds nobj e' rows ∧ e'.nruns = e.nruns := by
  have hpos : 0 < e.size := by rw [h.size]; exact List.length_pos_iff.2 hne
  unfold eafAdjustMemory
  by_cases hlt : e.size < e.maxsize
  · rw [if_pos hlt]
    obtain ⟨e', h1, h2, h3, h4⟩ := eafRealloc_holds V h hn (m := e.size) (k := e.nreallocs) le_rfl hpos
    exact ⟨e', h1, h2, h4⟩
  · rw [if_neg hlt]
    exact ⟨e, rfl, h, rfl⟩

theorem mapM_some {β γ : Type*} (f : β → Option γ) (g : β → γ) : ∀ (l : List β), (∀ x ∈ l, f x = some (g x)) → l.mapM f = some (l.map g) := by
  intro l
  induction l with
  | nil => intro _; rfl
  | cons x l ih =>
    intro h
    rw [List.mapM_cons, h x (by simp), ih (fun y hy => h y (by simp [hy]))]
    rfl

theorem eafRows_holds {nobj : ℕ} {e : EafT α} {rows : List ((ℕ → α) × (ℕ → ℤ))} (h : EafHolds nobj e rows) (p : α) :
    eafRows e nobj p = some (rows.map (fun r => (List.range nobj).map r.1 ++ [p])) := by
  unfold eafRows
  have : ∀ i ∈ List.range e.size, ((List.range nobj).mapM (fun j => e.data[j + i * nobj]?)).map (fun c => c ++ [p]) =
      some ((fun i => (rows.map (fun r => (List.range nobj).map r.1 ++ [p])).getD i []) i) := by
    intro i hi
    rw [List.mem_range, h.size] at hi
    rw [mapM_some _ (rows[i].1) (List.range nobj)]
    · simp [List.getElem?_eq_getElem hi]
    · intro j hj
      rw [List.mem_range] at hj
      rw [Nat.add_comm, Nat.mul_comm]
      exact h.data i hi j hj
  rw [mapM_some _ _ _ this]
  congr 1
  apply List.ext_getElem
  · simp [h.size]
  · intro i h1 h2
    rw [List.getElem_map, List.getElem_range]
    exact List.getD_eq_getElem _ _ h2

end Moo
