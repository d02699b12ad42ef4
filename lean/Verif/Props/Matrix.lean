import Verif.Model.Matrix
import Mathlib.Tactic.Ring
import Mathlib.Tactic.Common
import Mathlib.Algebra.Order.Ring.Nat

set_option autoImplicit false

/-! # Properties of matrix layout: `matrix_transpose_double`, `eaf2matrix`, `eaf2matrix_R` -/

namespace Moo

variable {α : Type*}

theorem transposeInner_spec (src : ℕ → α) (ncols j : ℕ) : ∀ (n i : ℕ) (dst : ℕ → α) (pos : ℕ),
    (transposeInner src ncols j i n (dst, pos)).2 = pos + n ∧
    ∀ q, (transposeInner src ncols j i n (dst, pos)).1 q =
      if pos ≤ q ∧ q < pos + n then src (j + (i + (q - pos)) * ncols) else dst q := by
  intro n
  induction n with
  | zero => intro i dst pos; refine ⟨rfl, fun q => ?_⟩; rw [if_neg (by omega)]; rfl
  | succ n ih =>
    intro i dst pos
    obtain ⟨h1, h2⟩ := ih (i + 1) (upd dst pos (src (j + i * ncols))) (pos + 1)
    unfold transposeInner
    refine ⟨by rw [h1]; omega, fun q => ?_⟩
    rw [h2 q]
    by_cases hq : q = pos
    · subst hq
      rw [if_neg (by omega), if_pos (by omega), upd_same, Nat.sub_self, Nat.add_zero]
    · rw [upd_ne _ _ hq]
      by_cases hc : pos + 1 ≤ q ∧ q < pos + 1 + n
      · rw [if_pos hc, if_pos (by omega)]
        congr 3; omega
      · rw [if_neg hc, if_neg (by omega)]

theorem transposeOuter_spec (src : ℕ → α) (nrows ncols : ℕ) : ∀ (n j : ℕ) (dst : ℕ → α) (pos : ℕ),
    (transposeOuter src nrows ncols j n (dst, pos)).2 = pos + n * nrows ∧
    (∀ q, (q < pos ∨ pos + n * nrows ≤ q) → (transposeOuter src nrows ncols j n (dst, pos)).1 q = dst q) ∧
    ∀ a < n, ∀ i < nrows, (transposeOuter src nrows ncols j n (dst, pos)).1 (pos + a * nrows + i) = src (j + a + i * ncols) := by
  intro n
  induction n with
  | zero => intro j dst pos; exact ⟨by simp [transposeOuter], fun q _ => rfl, fun a ha => absurd ha (by omega)⟩
  | succ n ih =>
    intro j dst pos
    unfold transposeOuter
    obtain ⟨e2, e1⟩ := transposeInner_spec src ncols j nrows 0 dst pos
    generalize transposeInner src ncols j 0 nrows (dst, pos) = s at e1 e2
    obtain ⟨d1, p1⟩ := s
    dsimp only at e1 e2
    subst e2
    obtain ⟨h1, h2, h3⟩ := ih (j + 1) d1 (pos + nrows)
    have hm : (n + 1) * nrows = nrows + n * nrows := by ring
    refine ⟨by rw [h1, hm]; omega, ?_, ?_⟩
    · intro q hq
      rw [h2 q (by omega), e1 q, if_neg (by omega)]
    · intro a ha i hi
      cases a with
      | zero =>
        have e : pos + 0 * nrows + i = pos + i := by ring
        rw [e, h2 _ (by omega), e1, if_pos (by omega)]
        congr 2
        have : 0 + (pos + i - pos) = i := by omega
        rw [this]
      | succ a =>
        have e : pos + (a + 1) * nrows + i = pos + nrows + a * nrows + i := by ring
        rw [e, h3 a (by omega) i hi]
        congr 2; omega

/-- **C30 (transposition).** `matrix_transpose_double` stores entry `(i,j)` of the `nrows × ncols` row-major source at entry `(j,i)` of the
`ncols × nrows` row-major destination, writes exactly `nrows * ncols` cells and touches nothing beyond them. -/
theorem C30_transpose (dst src : ℕ → α) (nrows ncols : ℕ) :
    (∀ i < nrows, ∀ j < ncols, (matrixTranspose dst src nrows ncols).1 (j * nrows + i) = src (i * ncols + j)) ∧
    (matrixTranspose dst src nrows ncols).2 = nrows * ncols ∧
    ∀ q, nrows * ncols ≤ q → (matrixTranspose dst src nrows ncols).1 q = dst q := by
  obtain ⟨h1, h2, h3⟩ := transposeOuter_spec src nrows ncols ncols 0 dst 0
  refine ⟨?_, ?_, ?_⟩
  · intro i hi j hj
    have := h3 j hj i hi
    rw [Nat.zero_add, Nat.zero_add, Nat.add_comm j] at this
    exact this
  · unfold matrixTranspose; rw [h1]; ring
  · intro q hq
    exact h2 q (Or.inr (by rw [Nat.zero_add, Nat.mul_comm]; exact hq))

/-- **C30 (involution).** Transposing twice gives the matrix back. -/
theorem C30_transpose_transpose (dst dst' src : ℕ → α) (nrows ncols : ℕ) (q : ℕ) (hq : q < nrows * ncols) :
    (matrixTranspose dst' (matrixTranspose dst src nrows ncols).1 ncols nrows).1 q = src q := by
  have hc : 0 < ncols := by
    rcases Nat.eq_zero_or_pos ncols with h | h
    · subst h; simp at hq
    · exact h
  have hi : q / ncols < nrows := Nat.div_lt_of_lt_mul (by rwa [Nat.mul_comm])
  have hj : q % ncols < ncols := Nat.mod_lt _ hc
  have e : q = q / ncols * ncols + q % ncols := (Nat.div_add_mod' q ncols).symm
  have h1 := (C30_transpose dst' (matrixTranspose dst src nrows ncols).1 ncols nrows).1 _ hj _ hi
  rw [← e] at h1
  rw [h1, (C30_transpose dst src nrows ncols).1 _ hi _ hj, ← e]

/-! ### EAF matrices -/

theorem eafRowCopy_spec (data : ℕ → α) (nobj i : ℕ) (addr : ℕ → ℕ) (n : ℕ)
    (hinj : ∀ a < n, ∀ b < n, addr a = addr b → a = b) (m : ℕ → α) :
    (∀ j < n, eafRowCopy data nobj i addr n m (addr j) = data (j + i * nobj)) ∧
    ∀ q, (∀ j < n, q ≠ addr j) → eafRowCopy data nobj i addr n m q = m q := by
  induction n with
  | zero => exact ⟨fun j hj => absurd hj (by omega), fun q _ => rfl⟩
  | succ n ih =>
    obtain ⟨h1, h2⟩ := ih (fun a ha b hb => hinj a (by omega) b (by omega))
    unfold eafRowCopy
    refine ⟨?_, ?_⟩
    · intro j hj
      by_cases hjn : j = n
      · subst hjn; rw [upd_same]
      · rw [upd_ne _ _ (fun h => hjn (hinj j hj n (by omega) h)), h1 j (by omega)]
    · intro q hq
      rw [upd_ne _ _ (hq n (by omega)), h2 q (fun j hj => hq j (by omega))]

/-- `addr` gives different cells to different (row, column) pairs of a `total × (nobj+1)` table. -/
def AddrInj (addr : ℕ → ℕ → ℕ) (total nobj : ℕ) : Prop :=
  ∀ r < total, ∀ j ≤ nobj, ∀ r' < total, ∀ j' ≤ nobj, addr r j = addr r' j' → r = r' ∧ j = j'

theorem eafLevelCopy_spec (data : ℕ → α) (nobj : ℕ) (p : α) (addr : ℕ → ℕ → ℕ) (total : ℕ) (hinj : AddrInj addr total nobj) :
    ∀ (n i : ℕ) (m : ℕ → α) (pos : ℕ), pos + n ≤ total →
    (eafLevelCopy data nobj p addr i n (m, pos)).2 = pos + n ∧
    (∀ r < n, ∀ j ≤ nobj, (eafLevelCopy data nobj p addr i n (m, pos)).1 (addr (pos + r) j) =
      if j < nobj then data (j + (i + r) * nobj) else p) ∧
    ∀ q, (∀ r < n, ∀ j ≤ nobj, q ≠ addr (pos + r) j) → (eafLevelCopy data nobj p addr i n (m, pos)).1 q = m q := by
  intro n
  induction n with
  | zero => intro i m pos _; exact ⟨rfl, fun r hr => absurd hr (by omega), fun q _ => rfl⟩
  | succ n ih =>
    intro i m pos hpos
    unfold eafLevelCopy
    obtain ⟨h1, h2, h3⟩ := ih (i + 1) (upd (eafRowCopy data nobj i (addr pos) nobj m) (addr pos nobj) p) (pos + 1) (by omega)
    have hrow := eafRowCopy_spec data nobj i (addr pos) nobj
      (fun a ha b hb h => (hinj pos (by omega) a (by omega) pos (by omega) b (by omega) h).2) m
    refine ⟨by rw [h1]; omega, ?_, ?_⟩
    · intro r hr j hj
      cases r with
      | zero =>
        rw [h3 _ (fun r' hr' j' hj' h => by
          have := (hinj (pos + 0) (by omega) j hj (pos + 1 + r') (by omega) j' hj' h).1; omega)]
        by_cases hjn : j < nobj
        · rw [if_pos hjn, upd_ne _ _ (fun h => by
            have := (hinj (pos + 0) (by omega) j hj pos (by omega) nobj le_rfl h).2; omega)]
          exact hrow.1 j hjn
        · have : j = nobj := by omega
          subst this
          rw [if_neg hjn, Nat.add_zero, upd_same]
      | succ r =>
        have e : pos + (r + 1) = pos + 1 + r := by omega
        have e' : i + (r + 1) = i + 1 + r := by omega
        rw [e, h2 r (by omega) j hj, e']
    · intro q hq
      rw [h3 q (fun r hr j hj => by
        have := hq (r + 1) (by omega) j hj
        have e : pos + (r + 1) = pos + 1 + r := by omega
        rwa [e] at this)]
      have h0 : ∀ j ≤ nobj, q ≠ addr pos j := fun j hj => hq 0 (by omega) j hj
      rw [upd_ne _ _ (h0 nobj le_rfl), hrow.2 q (fun j hj => h0 j (by omega))]

/-- number of points of the levels before level `k` -/
def eafOffset (eaf : List (EafSurf α)) (k : ℕ) : ℕ := ((eaf.take k).map (fun e => e.size)).sum

theorem eafLevelsCopy_spec (nobj : ℕ) (p : ℕ → α) (addr : ℕ → ℕ → ℕ) (total : ℕ) (hinj : AddrInj addr total nobj) :
    ∀ (eaf : List (EafSurf α)) (k0 : ℕ) (m : ℕ → α) (pos : ℕ), pos + (eaf.map (fun e => e.size)).sum ≤ total →
    (∀ (k : ℕ) (hk : k < eaf.length), ∀ i < eaf[k].size, ∀ j ≤ nobj,
      (eafLevelsCopy nobj p addr k0 eaf (m, pos)).1 (addr (pos + eafOffset eaf k + i) j) =
        if j < nobj then eaf[k].data (j + i * nobj) else p (k0 + k)) ∧
    ∀ q, (∀ r < (eaf.map (fun e => e.size)).sum, ∀ j ≤ nobj, q ≠ addr (pos + r) j) →
      (eafLevelsCopy nobj p addr k0 eaf (m, pos)).1 q = m q := by
  intro eaf
  induction eaf with
  | nil => intro k0 m pos _; exact ⟨fun k hk => absurd hk (by simp), fun q _ => rfl⟩
  | cons e es ih =>
    intro k0 m pos hpos
    rw [List.map_cons, List.sum_cons] at hpos
    unfold eafLevelsCopy
    obtain ⟨h1, h2, h3⟩ := eafLevelCopy_spec e.data nobj (p k0) addr total hinj e.size 0 m pos (by omega)
    generalize eafLevelCopy e.data nobj (p k0) addr 0 e.size (m, pos) = s at h1 h2 h3
    obtain ⟨m1, p1⟩ := s
    dsimp only at h1 h2 h3
    subst h1
    obtain ⟨i1, i2⟩ := ih (k0 + 1) m1 (pos + e.size) (by omega)
    refine ⟨?_, ?_⟩
    · intro k hk i hi j hj
      cases k with
      | zero =>
        simp only [List.getElem_cons_zero] at hi ⊢
        have e0 : eafOffset (e :: es) 0 = 0 := by simp [eafOffset]
        simp only [e0, Nat.add_zero]
        rw [i2 _ (fun r hr j' hj' h => by
          have := (hinj (pos + i) (by omega) j hj (pos + e.size + r) (by omega) j' hj' h).1; omega), h2 i hi j hj, Nat.zero_add]
      | succ k =>
        simp only [List.getElem_cons_succ, List.length_cons] at hi hk ⊢
        have e0 : eafOffset (e :: es) (k + 1) = e.size + eafOffset es k := by simp [eafOffset]
        have := i1 k (by omega) i hi j hj
        rw [e0, ← Nat.add_assoc pos, this]
        have : k0 + (k + 1) = k0 + 1 + k := by omega
        rw [this]
    · intro q hq
      rw [List.map_cons, List.sum_cons] at hq
      rw [i2 q (fun r hr j hj => by
        have := hq (e.size + r) (by omega) j hj
        rwa [← Nat.add_assoc] at this), h3 q (fun r hr j hj => hq r (by omega) j hj)]

theorem eafTotalpoints_eq (eaf : List (EafSurf α)) : eafTotalpoints eaf = (eaf.map (fun e => e.size)).sum := by
  have : ∀ (l : List (EafSurf α)) (t : ℕ), l.foldl (fun t e => t + e.size) t = t + (l.map (fun e => e.size)).sum := by
    intro l
    induction l with
    | nil => intro t; simp
    | cons e es ih => intro t; rw [List.foldl_cons, ih, List.map_cons, List.sum_cons, Nat.add_assoc]
  unfold eafTotalpoints; rw [this, Nat.zero_add]

theorem addrInj_rowMajor (total nobj : ℕ) : AddrInj (fun pos j => j + pos * (nobj + 1)) total nobj := by
  intro r _ j hj r' _ j' hj' h
  dsimp only at h
  have h1 : (j + r * (nobj + 1)) / (nobj + 1) = r := by
    rw [Nat.add_mul_div_right _ _ (by omega), Nat.div_eq_of_lt (by omega), Nat.zero_add]
  have h2 : (j' + r' * (nobj + 1)) / (nobj + 1) = r' := by
    rw [Nat.add_mul_div_right _ _ (by omega), Nat.div_eq_of_lt (by omega), Nat.zero_add]
  have hr : r = r' := by rw [← h1, ← h2, h]
  subst hr
  exact ⟨rfl, by omega⟩

theorem addrInj_colMajor (total nobj : ℕ) : AddrInj (fun pos j => pos + j * total) total nobj := by
  intro r hr j _ r' hr' j' _ h
  dsimp only at h
  have h1 : (r + j * total) / total = j := by
    rw [Nat.add_mul_div_right _ _ (by omega), Nat.div_eq_of_lt hr, Nat.zero_add]
  have h2 : (r' + j' * total) / total = j' := by
    rw [Nat.add_mul_div_right _ _ (by omega), Nat.div_eq_of_lt hr', Nat.zero_add]
  have hj : j = j' := by rw [← h1, ← h2, h]
  subst hj
  exact ⟨by omega, rfl⟩

/-- **C30 (EAF matrix, row major).** Point `i` of level `k` is row `(points of earlier levels) + i` of the table returned by `eaf2matrix`: its first
`nobj` columns are the point's coordinates and its last column is the percentile of level `k`; the
`eaf_totalpoints * (nobj + 1)` allocated cells are never exceeded. -/
theorem C30_eaf2matrix (rmat : ℕ → α) (eaf : List (EafSurf α)) (nobj : ℕ) (p : ℕ → α) :
    (∀ (k : ℕ) (hk : k < eaf.length), ∀ i < eaf[k].size, ∀ j ≤ nobj,
      eaf2matrix rmat eaf nobj p (j + (eafOffset eaf k + i) * (nobj + 1)) =
        if j < nobj then eaf[k].data (j + i * nobj) else p k) ∧
    ∀ q, eafTotalpoints eaf * (nobj + 1) ≤ q → eaf2matrix rmat eaf nobj p q = rmat q := by
  obtain ⟨h1, h2⟩ := eafLevelsCopy_spec nobj p _ (eafTotalpoints eaf) (addrInj_rowMajor _ nobj) eaf 0 rmat 0
    (by rw [eafTotalpoints_eq]; omega)
  refine ⟨?_, ?_⟩
  · intro k hk i hi j hj
    have := h1 k hk i hi j hj
    rw [Nat.zero_add, Nat.zero_add] at this
    exact this
  · intro q hq
    refine h2 q (fun r hr j hj h => ?_)
    rw [eafTotalpoints_eq] at hq
    have hle : (r + 1) * (nobj + 1) ≤ (eaf.map (fun e => e.size)).sum * (nobj + 1) := Nat.mul_le_mul_right _ hr
    have e : (r + 1) * (nobj + 1) = r * (nobj + 1) + nobj + 1 := by ring
    rw [Nat.zero_add] at h
    omega

/-- **C30 (EAF matrix, column major).** The same table, as stored for R. -/
theorem C30_eaf2matrix_R (rmat : ℕ → α) (eaf : List (EafSurf α)) (nobj : ℕ) (p : ℕ → α) :
    (∀ (k : ℕ) (hk : k < eaf.length), ∀ i < eaf[k].size, ∀ j ≤ nobj,
      eaf2matrixR rmat eaf nobj (eafTotalpoints eaf) p (eafOffset eaf k + i + j * eafTotalpoints eaf) =
        if j < nobj then eaf[k].data (j + i * nobj) else p k) ∧
    ∀ q, eafTotalpoints eaf * (nobj + 1) ≤ q → eaf2matrixR rmat eaf nobj (eafTotalpoints eaf) p q = rmat q := by
  obtain ⟨h1, h2⟩ := eafLevelsCopy_spec nobj p _ (eafTotalpoints eaf) (addrInj_colMajor _ nobj) eaf 0 rmat 0
    (by rw [eafTotalpoints_eq]; omega)
  refine ⟨?_, ?_⟩
  · intro k hk i hi j hj
    have := h1 k hk i hi j hj
    rw [Nat.zero_add, Nat.zero_add] at this
    exact this
  · intro q hq
    refine h2 q (fun r hr j hj h => ?_)
    rw [← eafTotalpoints_eq] at hr
    rw [Nat.zero_add] at h
    have hle : j * eafTotalpoints eaf ≤ nobj * eafTotalpoints eaf := Nat.mul_le_mul_right _ hj
    have e : eafTotalpoints eaf * (nobj + 1) = nobj * eafTotalpoints eaf + eafTotalpoints eaf := by ring
    omega

/-- Every row of the table is a point of some level. -/
theorem eafOffset_surj (eaf : List (EafSurf α)) : ∀ r < (eaf.map (fun e => e.size)).sum,
    ∃ (k : ℕ) (hk : k < eaf.length), ∃ i < eaf[k].size, r = eafOffset eaf k + i := by
  induction eaf with
  | nil => intro r hr; simp at hr
  | cons e es ih =>
    intro r hr
    rw [List.map_cons, List.sum_cons] at hr
    by_cases h : r < e.size
    · exact ⟨0, by simp, r, by simpa using h, by simp [eafOffset]⟩
    · obtain ⟨k, hk, i, hi, he⟩ := ih (r - e.size) (by omega)
      refine ⟨k + 1, by simpa using hk, i, by simpa using hi, ?_⟩
      have e0 : eafOffset (e :: es) (k + 1) = e.size + eafOffset es k := by simp [eafOffset]
      omega

/-- **C30 (same table).** Cell `(r, j)` of the row-major and of the column-major result are equal, for every row and column. -/
theorem C30_eaf2matrix_same (m m' : ℕ → α) (eaf : List (EafSurf α)) (nobj : ℕ) (p : ℕ → α) (r j : ℕ)
    (hr : r < eafTotalpoints eaf) (hj : j ≤ nobj) :
    eaf2matrix m eaf nobj p (j + r * (nobj + 1)) =
      eaf2matrixR m' eaf nobj (eafTotalpoints eaf) p (r + j * eafTotalpoints eaf) := by
  rw [eafTotalpoints_eq] at hr
  obtain ⟨k, hk, i, hi, rfl⟩ := eafOffset_surj eaf r hr
  rw [(C30_eaf2matrix m eaf nobj p).1 k hk i hi j hj, (C30_eaf2matrix_R m' eaf nobj p).1 k hk i hi j hj]

/-- Non-vacuity: two levels with 2 and 1 points. -/
example : (matrixTranspose (fun _ => 0) (fun q => q) 2 3).1 1 = 3 := by decide
example : eafTotalpoints [(⟨2, fun q => q⟩ : EafSurf ℕ), ⟨1, fun q => 10 + q⟩] = 3 ∧
    eaf2matrix (fun _ => 0) [(⟨2, fun q => q⟩ : EafSurf ℕ), ⟨1, fun q => 10 + q⟩] 2 (fun k => 50 * (k + 1)) 8 = 100 := by decide

end Moo
