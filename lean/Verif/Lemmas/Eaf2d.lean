import Verif.Model.Eaf2d
import Verif.Spec.Eaf
import Mathlib.Data.Finset.Card
import Mathlib.Data.Finset.Range
import Mathlib.Data.Finset.Max
import Mathlib.Tactic.Linarith
import Mathlib.Tactic.Push

/-!
# The sweep of `eaf2d`
-/

set_option autoImplicit false
set_option linter.unusedSectionVars false

namespace Moo

open Classical

variable {α : Type*} [LinearOrder α]

/-- What the setup of `eaf2d` guarantees. -/
structure EafOk (E : EafIn α) : Prop where
  dxlt : ∀ i < E.n, E.datax i < E.n
  dxinj : ∀ i < E.n, ∀ j < E.n, E.datax i = E.datax j → i = j
  dxsurj : ∀ p < E.n, ∃ i < E.n, E.datax i = p
  dylt : ∀ i < E.n, E.datay i < E.n
  dyinj : ∀ i < E.n, ∀ j < E.n, E.datay i = E.datay j → i = j
  dysurj : ∀ p < E.n, ∃ i < E.n, E.datay i = p
  Xmono : ∀ i j, i ≤ j → j < E.n → E.X i ≤ E.X j
  Yanti : ∀ i j, i ≤ j → j < E.n → E.Y j ≤ E.Y i
  runlt : ∀ p < E.n, E.run p < E.nruns
  lev : 1 ≤ E.level

/-- The points counted when the sweep is at `x`, `y`. -/
noncomputable def eafS (E : EafIn α) (x y : ℕ) : Finset ℕ :=
  (Finset.range E.n).filter (fun p => (∃ i, i ≤ x ∧ i < E.n ∧ E.datax i = p) ∧ (∃ i, y ≤ i ∧ i < E.n ∧ E.datay i = p))

/-- The number of runs with a point in `S`. -/
noncomputable def eafNrun (E : EafIn α) (S : Finset ℕ) : ℕ :=
  ((Finset.range E.nruns).filter (fun r => ∃ p ∈ S, E.run p = r)).card

/-- The counters are right for the set of points `S`. -/
def EafCnt (E : EafIn α) (S : Finset ℕ) (att : ℕ → ℤ) (natt : ℤ) : Prop :=
  (∀ r, att r = ((S.filter (fun p => E.run p = r)).card : ℤ)) ∧ natt = (eafNrun E S : ℤ)

theorem eafNrun_mono {E : EafIn α} {S T : Finset ℕ} (h : S ⊆ T) : eafNrun E S ≤ eafNrun E T := by
  apply Finset.card_le_card
  intro r hr
  rw [Finset.mem_filter] at *
  obtain ⟨h1, p, hp, h2⟩ := hr
  exact ⟨h1, p, h hp, h2⟩

theorem att_eq_zero {E : EafIn α} {S : Finset ℕ} {att : ℕ → ℤ} {natt : ℤ} (h : EafCnt E S att natt) (r : ℕ) :
    att r = 0 ↔ ¬ ∃ p ∈ S, E.run p = r := by
  rw [h.1 r]
  simp only [Int.natCast_eq_zero, Finset.card_eq_zero, Finset.filter_eq_empty_iff]
  push Not
  rfl

theorem cnt_insert {E : EafIn α} {S : Finset ℕ} {att : ℕ → ℤ} {natt : ℤ} {p : ℕ} (h : EafCnt E S att natt) (hp : p ∉ S)
    (hr : E.run p < E.nruns) :
    EafCnt E (insert p S) (upd att (E.run p) (att (E.run p) + 1)) (if att (E.run p) = 0 then natt + 1 else natt) := by
  constructor
  · intro r
    rw [Finset.filter_insert]
    by_cases hrr : r = E.run p
    · subst hrr
      rw [upd_same, if_pos rfl, Finset.card_insert_of_notMem (by simp [hp]), h.1]
      simp
    · rw [upd_ne _ _ hrr, if_neg (Ne.symm hrr), h.1]
  · have hset : (Finset.range E.nruns).filter (fun r => ∃ q ∈ insert p S, E.run q = r) =
        insert (E.run p) ((Finset.range E.nruns).filter (fun r => ∃ q ∈ S, E.run q = r)) := by
      ext r
      simp only [Finset.mem_filter, Finset.mem_range, Finset.mem_insert]
      constructor
      · rintro ⟨h1, q, rfl | hq, h2⟩
        · exact Or.inl h2.symm
        · exact Or.inr ⟨h1, q, hq, h2⟩
      · rintro (rfl | ⟨h1, q, hq, h2⟩)
        · exact ⟨hr, p, Or.inl rfl, rfl⟩
        · exact ⟨h1, q, Or.inr hq, h2⟩
    unfold eafNrun
    rw [hset]
    split
    · rename_i h0
      rw [att_eq_zero h] at h0
      rw [Finset.card_insert_of_notMem (by simp only [Finset.mem_filter]; exact fun hh => h0 hh.2), h.2, eafNrun]
      push_cast; rfl
    · rename_i h0
      rw [att_eq_zero h, not_not] at h0
      rw [Finset.insert_eq_of_mem (by simp only [Finset.mem_filter, Finset.mem_range]; exact ⟨hr, h0⟩), h.2, eafNrun]

theorem cnt_erase {E : EafIn α} {S : Finset ℕ} {att : ℕ → ℤ} {natt : ℤ} {p : ℕ} (h : EafCnt E S att natt) (hp : p ∈ S)
    (hr : E.run p < E.nruns) :
    EafCnt E (S.erase p) (upd att (E.run p) (att (E.run p) - 1))
      (if (upd att (E.run p) (att (E.run p) - 1)) (E.run p) = 0 then natt - 1 else natt) := by
  have h1 : ∀ r, upd att (E.run p) (att (E.run p) - 1) r = (((S.erase p).filter (fun q => E.run q = r)).card : ℤ) := by
    intro r
    rw [Finset.filter_erase]
    by_cases hrr : r = E.run p
    · subst hrr
      have hm : p ∈ S.filter (fun q => E.run q = E.run p) := by simp [hp]
      have := Finset.card_pos.2 ⟨p, hm⟩
      rw [upd_same, Finset.card_erase_of_mem hm, h.1]
      omega
    · rw [upd_ne _ _ hrr, h.1, Finset.erase_eq_of_notMem]
      simp only [Finset.mem_filter, not_and]
      exact fun _ e => hrr e.symm
  refine ⟨h1, ?_⟩
  by_cases h0 : ∃ q ∈ S.erase p, E.run q = E.run p
  · have hne : upd att (E.run p) (att (E.run p) - 1) (E.run p) ≠ 0 := by
      rw [h1]
      obtain ⟨q, hq, e⟩ := h0
      have := Finset.card_pos.2 ⟨q, (Finset.mem_filter (p := fun q => E.run q = E.run p)).2 ⟨hq, e⟩⟩
      omega
    rw [if_neg hne, h.2]
    unfold eafNrun
    congr 2
    ext r
    simp only [Finset.mem_filter]
    constructor
    · rintro ⟨h3, q, hq, rfl⟩
      by_cases hqp : q = p
      · subst hqp; exact ⟨h3, h0⟩
      · exact ⟨h3, q, Finset.mem_erase.2 ⟨hqp, hq⟩, rfl⟩
    · rintro ⟨h3, q, hq, rfl⟩
      exact ⟨h3, q, Finset.mem_of_mem_erase hq, rfl⟩
  · have he : upd att (E.run p) (att (E.run p) - 1) (E.run p) = 0 := by
      rw [h1]
      simp only [Int.natCast_eq_zero, Finset.card_eq_zero, Finset.filter_eq_empty_iff]
      intro q hq e
      exact h0 ⟨q, hq, e⟩
    rw [if_pos he, h.2]
    unfold eafNrun
    have hset : (Finset.range E.nruns).filter (fun r => ∃ q ∈ S.erase p, E.run q = r) =
        ((Finset.range E.nruns).filter (fun r => ∃ q ∈ S, E.run q = r)).erase (E.run p) := by
      ext r
      simp only [Finset.mem_filter, Finset.mem_range, Finset.mem_erase]
      constructor
      · rintro ⟨h3, q, ⟨hne, hq⟩, rfl⟩
        refine ⟨?_, h3, q, hq, rfl⟩
        intro e
        exact h0 ⟨q, Finset.mem_erase.2 ⟨hne, hq⟩, e⟩
      · rintro ⟨hne, h3, q, hq, rfl⟩
        refine ⟨h3, q, ⟨?_, hq⟩, rfl⟩
        rintro rfl
        exact hne rfl
    have hm : E.run p ∈ (Finset.range E.nruns).filter (fun r => ∃ q ∈ S, E.run q = r) := by
      simp only [Finset.mem_filter, Finset.mem_range]; exact ⟨hr, p, hp, rfl⟩
    have := Finset.card_pos.2 ⟨_, hm⟩
    rw [hset, Finset.card_erase_of_mem hm]
    omega

/-- `y` is the start of a group of equal second coordinates. -/
def YBd (E : EafIn α) (y : ℕ) : Prop := y = 0 ∨ E.Y y < E.Y (y - 1)

/-- `x` is the end of a group of equal first coordinates. -/
def XBd (E : EafIn α) (x : ℕ) : Prop := x < E.n ∧ (x = E.n - 1 ∨ E.X x < E.X (x + 1))

theorem ybd_iff {E : EafIn α} (ok : EafOk E) {y : ℕ} (hy : y < E.n) (hb : YBd E y) {p : ℕ} (hp : p < E.n) :
    E.pts p 1 ≤ E.Y y ↔ ∃ i, y ≤ i ∧ i < E.n ∧ E.datay i = p := by
  constructor
  · intro h
    obtain ⟨i, hi, rfl⟩ := ok.dysurj p hp
    refine ⟨i, ?_, hi, rfl⟩
    by_contra hlt
    push Not at hlt
    rcases hb with rfl | hb
    · omega
    · have : E.Y (y - 1) ≤ E.Y i := ok.Yanti i (y - 1) (by omega) (by omega)
      exact absurd (hb.trans_le this) (not_lt.2 h)
  · rintro ⟨i, h1, h2, rfl⟩
    exact ok.Yanti y i h1 h2

theorem xbd_iff {E : EafIn α} (ok : EafOk E) {x : ℕ} (hb : XBd E x) {p : ℕ} (hp : p < E.n) :
    E.pts p 0 ≤ E.X x ↔ ∃ i, i ≤ x ∧ i < E.n ∧ E.datax i = p := by
  constructor
  · intro h
    obtain ⟨i, hi, rfl⟩ := ok.dxsurj p hp
    refine ⟨i, ?_, hi, rfl⟩
    by_contra hlt
    push Not at hlt
    rcases hb.2 with e | hb'
    · omega
    · have : E.X (x + 1) ≤ E.X i := ok.Xmono (x + 1) i (by omega) hi
      exact absurd (hb'.trans_le this) (not_lt.2 h)
  · rintro ⟨i, h1, h2, rfl⟩
    exact ok.Xmono i x h1 hb.1

/-- At boundaries the counted points are the points that weakly dominate the corner. -/
theorem mem_eafS {E : EafIn α} (ok : EafOk E) {x y : ℕ} (hx : XBd E x) (hy : y < E.n) (hyb : YBd E y) {p : ℕ} :
    p ∈ eafS E x y ↔ p < E.n ∧ E.pts p 0 ≤ E.X x ∧ E.pts p 1 ≤ E.Y y := by
  unfold eafS
  rw [Finset.mem_filter, Finset.mem_range]
  constructor
  · rintro ⟨h1, h2, h3⟩
    exact ⟨h1, (xbd_iff ok hx h1).2 h2, (ybd_iff ok hy hyb h1).2 h3⟩
  · rintro ⟨h1, h2, h3⟩
    exact ⟨h1, (xbd_iff ok hx h1).1 h2, (ybd_iff ok hy hyb h1).1 h3⟩

theorem eafS_succ {E : EafIn α} (ok : EafOk E) {x y : ℕ} (hx : x + 1 < E.n) (hy : y < E.n) (hyb : YBd E y) :
    eafS E (x + 1) y = if E.pts (E.datax (x + 1)) 1 ≤ E.Y y then insert (E.datax (x + 1)) (eafS E x y) else eafS E x y := by
  have hd := ok.dxlt _ hx
  ext p
  by_cases hc : E.pts (E.datax (x + 1)) 1 ≤ E.Y y
  · rw [if_pos hc]
    rw [ybd_iff ok hy hyb hd] at hc
    unfold eafS
    simp only [Finset.mem_filter, Finset.mem_range, Finset.mem_insert]
    constructor
    · rintro ⟨h1, ⟨i, hi, hi2, rfl⟩, h3⟩
      by_cases he : i = x + 1
      · subst he; exact Or.inl rfl
      · exact Or.inr ⟨h1, ⟨i, by omega, hi2, rfl⟩, h3⟩
    · rintro (rfl | ⟨h1, ⟨i, hi, hi2, rfl⟩, h3⟩)
      · exact ⟨hd, ⟨x + 1, le_rfl, hx, rfl⟩, hc⟩
      · exact ⟨h1, ⟨i, by omega, hi2, rfl⟩, h3⟩
  · rw [if_neg hc]
    rw [ybd_iff ok hy hyb hd] at hc
    unfold eafS
    simp only [Finset.mem_filter, Finset.mem_range]
    constructor
    · rintro ⟨h1, ⟨i, hi, hi2, rfl⟩, h3⟩
      by_cases he : i = x + 1
      · subst he; exact absurd h3 hc
      · exact ⟨h1, ⟨i, by omega, hi2, rfl⟩, h3⟩
    · rintro ⟨h1, ⟨i, hi, hi2, rfl⟩, h3⟩
      exact ⟨h1, ⟨i, by omega, hi2, rfl⟩, h3⟩

theorem dx_not_mem {E : EafIn α} (ok : EafOk E) {x y : ℕ} (hx : x + 1 < E.n) : E.datax (x + 1) ∉ eafS E x y := by
  unfold eafS
  simp only [Finset.mem_filter, Finset.mem_range, not_and]
  rintro _ ⟨i, hi, hi2, e⟩
  have := ok.dxinj i hi2 (x + 1) hx e
  omega

theorem eafS_down {E : EafIn α} (ok : EafOk E) {x y : ℕ} (hx : XBd E x) (hy : y < E.n) :
    eafS E x (y + 1) = if E.pts (E.datay y) 0 ≤ E.X x then (eafS E x y).erase (E.datay y) else eafS E x y := by
  have hd := ok.dylt _ hy
  ext p
  by_cases hc : E.pts (E.datay y) 0 ≤ E.X x
  · rw [if_pos hc]
    unfold eafS
    simp only [Finset.mem_filter, Finset.mem_range, Finset.mem_erase]
    constructor
    · rintro ⟨h1, h2, i, hi, hi2, rfl⟩
      refine ⟨?_, h1, h2, i, by omega, hi2, rfl⟩
      intro e
      have := ok.dyinj i hi2 y hy e
      omega
    · rintro ⟨hne, h1, h2, i, hi, hi2, rfl⟩
      refine ⟨h1, h2, i, ?_, hi2, rfl⟩
      have : i ≠ y := by rintro rfl; exact hne rfl
      omega
  · rw [if_neg hc]
    rw [xbd_iff ok hx hd] at hc
    unfold eafS
    simp only [Finset.mem_filter, Finset.mem_range]
    constructor
    · rintro ⟨h1, h2, i, hi, hi2, rfl⟩
      exact ⟨h1, h2, i, by omega, hi2, rfl⟩
    · rintro ⟨h1, h2, i, hi, hi2, rfl⟩
      refine ⟨h1, h2, i, ?_, hi2, rfl⟩
      have : i ≠ y := by rintro rfl; exact hc h2
      omega

theorem dy_mem {E : EafIn α} (ok : EafOk E) {x y : ℕ} (hx : XBd E x) (hy : y < E.n) (hc : E.pts (E.datay y) 0 ≤ E.X x) :
    E.datay y ∈ eafS E x y := by
  unfold eafS
  simp only [Finset.mem_filter, Finset.mem_range]
  exact ⟨ok.dylt _ hy, (xbd_iff ok hx (ok.dylt _ hy)).1 hc, y, le_rfl, hy, rfl⟩

theorem eafRight_spec {E : EafIn α} (ok : EafOk E) (fuel : ℕ) : ∀ (s : EafSt), s.x < E.n → s.y < E.n → YBd E s.y → E.n - s.x ≤ fuel →
    EafCnt E (eafS E s.x s.y) s.att s.natt →
    ∃ s', eafRight E fuel s = some s' ∧ s'.y = s.y ∧ s.x ≤ s'.x ∧ s'.x < E.n ∧ EafCnt E (eafS E s'.x s'.y) s'.att s'.natt ∧
      ¬ (s'.x < E.n - 1 ∧ (s'.natt < E.level ∨ E.X s'.x = E.X (s'.x + 1))) ∧
      (∀ i, s.x ≤ i → i < s'.x → E.X i < E.X (i + 1) → (eafNrun E (eafS E i s.y) : ℤ) < E.level) := by
  induction fuel with
  | zero => intro s h1 _ _ h2; omega
  | succ fuel ih =>
    intro s hx hy hyb hf hc
    rw [eafRight]
    by_cases hcond : s.x < E.n - 1 ∧ (s.natt < E.level ∨ E.X s.x = E.X (s.x + 1))
    · rw [if_pos hcond]
      dsimp only
      rw [if_neg (by simpa using hy)]
      have hx1 : s.x + 1 < E.n := by omega
      have hcnt : ∀ i, s.x ≤ i → i < s.x + 1 → E.X i < E.X (i + 1) → (eafNrun E (eafS E i s.y) : ℤ) < E.level := by
        intro i h1 h2 h3
        obtain rfl : i = s.x := by omega
        rcases hcond.2 with h | h
        · rw [← hc.2]; exact h
        · exact absurd h h3.ne
      have hS := eafS_succ ok hx1 hy hyb
      have hrun := ok.runlt _ (ok.dxlt _ hx1)
      by_cases hy1 : E.pts (E.datax (s.x + 1)) 1 ≤ E.Y s.y
      · rw [if_pos hy1, if_neg (by simpa using hrun)]
        rw [if_pos hy1] at hS
        have hc' := cnt_insert hc (dx_not_mem ok hx1) hrun
        rw [← hS] at hc'
        obtain ⟨s', e1, e2, e3, e4, e5, e6, e7⟩ := ih ⟨s.x + 1, s.y, upd s.att (E.run (E.datax (s.x + 1))) (s.att (E.run (E.datax (s.x + 1))) + 1),
          if s.att (E.run (E.datax (s.x + 1))) = 0 then s.natt + 1 else s.natt⟩ hx1 hy hyb (by simp only; omega) hc'
        refine ⟨s', e1, e2, by simp only at e3; omega, e4, e5, e6, ?_⟩
        intro i h1 h2 h3
        by_cases hi : i < s.x + 1
        · exact hcnt i h1 hi h3
        · exact e7 i (by simp only; omega) h2 h3
      · rw [if_neg hy1]
        rw [if_neg hy1] at hS
        obtain ⟨s', e1, e2, e3, e4, e5, e6, e7⟩ := ih ⟨s.x + 1, s.y, s.att, s.natt⟩ hx1 hy hyb (by simp only; omega) (by rw [hS]; exact hc)
        refine ⟨s', e1, e2, by simp only at e3; omega, e4, e5, e6, ?_⟩
        intro i h1 h2 h3
        by_cases hi : i < s.x + 1
        · exact hcnt i h1 hi h3
        · exact e7 i (by simp only; omega) h2 h3
    · rw [if_neg hcond]
      exact ⟨s, rfl, rfl, le_rfl, hx, hc, hcond, fun i h1 h2 => by omega⟩

theorem eafDownGroup_spec {E : EafIn α} (ok : EafOk E) (fuel : ℕ) : ∀ (s : EafSt), XBd E s.x → s.y < E.n → E.n - s.y ≤ fuel →
    EafCnt E (eafS E s.x s.y) s.att s.natt →
    ∃ s', eafDownGroup E fuel s = some s' ∧ s'.x = s.x ∧ s.y < s'.y ∧ s'.y ≤ E.n ∧ EafCnt E (eafS E s'.x s'.y) s'.att s'.natt ∧
      E.Y (s'.y - 1) = E.Y s.y ∧ (s'.y < E.n → YBd E s'.y) := by
  induction fuel with
  | zero => intro s _ h1 h2; omega
  | succ fuel ih =>
    intro s hx hy hf hc
    rw [eafDownGroup]
    dsimp only
    have hrun := ok.runlt _ (ok.dylt _ hy)
    rw [if_neg (by push Not; exact ⟨hy, hx.1⟩), if_neg (by simpa using hrun)]
    have hS := eafS_down ok hx hy
    -- the state after the point is processed
    obtain ⟨s', hs', h1, h2, h3⟩ : ∃ s' : EafSt, s' = (if E.pts (E.datay s.y) 0 ≤ E.X s.x then
          (⟨s.x, s.y + 1, upd s.att (E.run (E.datay s.y)) (s.att (E.run (E.datay s.y)) - 1),
            if (upd s.att (E.run (E.datay s.y)) (s.att (E.run (E.datay s.y)) - 1)) (E.run (E.datay s.y)) = 0 then s.natt - 1 else s.natt⟩ : EafSt)
          else ⟨s.x, s.y + 1, s.att, s.natt⟩) ∧ s'.x = s.x ∧ s'.y = s.y + 1 ∧ EafCnt E (eafS E s'.x s'.y) s'.att s'.natt := by
      refine ⟨_, rfl, ?_⟩
      by_cases hc1 : E.pts (E.datay s.y) 0 ≤ E.X s.x
      · rw [if_pos hc1]
        rw [if_pos hc1] at hS
        refine ⟨rfl, rfl, ?_⟩
        have := cnt_erase hc (dy_mem ok hx hy hc1) hrun
        rw [← hS] at this
        exact this
      · rw [if_neg hc1]
        rw [if_neg hc1] at hS
        refine ⟨rfl, rfl, ?_⟩
        rw [← hS] at hc
        exact hc
    rw [← hs']
    by_cases hcond : s'.y < E.n ∧ E.Y s'.y = E.Y (s'.y - 1)
    · rw [if_pos hcond]
      obtain ⟨t, e1, e2, e3, e4, e5, e6, e7⟩ := ih s' (by rw [h1]; exact hx) hcond.1 (by omega) h3
      refine ⟨t, e1, by rw [e2, h1], by omega, e4, e5, ?_, e7⟩
      rw [e6, hcond.2, h2]; rfl
    · rw [if_neg hcond]
      refine ⟨s', rfl, h1, by omega, by omega, h3, by rw [h2]; rfl, ?_⟩
      intro hlt
      right
      have hne : E.Y s'.y ≠ E.Y (s'.y - 1) := fun e => hcond ⟨hlt, e⟩
      exact lt_of_le_of_ne (ok.Yanti _ _ (by omega) hlt) hne

theorem eafS_empty {E : EafIn α} {x y : ℕ} (hy : E.n ≤ y) : eafS E x y = ∅ := by
  ext p
  unfold eafS
  simp only [Finset.mem_filter, Finset.mem_range, Finset.notMem_empty, iff_false, not_and]
  rintro _ _ ⟨i, h1, h2, _⟩
  omega

theorem eafNrun_empty (E : EafIn α) : eafNrun E ∅ = 0 := by simp [eafNrun]

theorem eafDown_spec {E : EafIn α} (ok : EafOk E) (fuel : ℕ) : ∀ (s : EafSt), XBd E s.x → s.y < E.n → YBd E s.y → E.n - s.y < fuel →
    EafCnt E (eafS E s.x s.y) s.att s.natt → E.level ≤ s.natt →
    ∃ s' save y0, eafDown E fuel s = some (s', save) ∧ s'.x = s.x ∧ s.y ≤ y0 ∧ y0 < s'.y ∧ s'.y ≤ E.n ∧ YBd E y0 ∧
      EafCnt E (eafS E s'.x s'.y) s'.att s'.natt ∧ s'.natt < E.level ∧
      E.Y (s'.y - 1) = E.Y y0 ∧ (s'.y < E.n → YBd E s'.y) ∧ (∃ m, EafCnt E (eafS E s.x y0) save m ∧ E.level ≤ m) := by
  induction fuel with
  | zero => intro s _ h1 _ h2; omega
  | succ fuel ih =>
    intro s hx hy hyb hf hc hl
    obtain ⟨s1, e1, e2, e3, e4, e5, e6, e7⟩ := eafDownGroup_spec ok fuel s hx hy (by omega) hc
    rw [eafDown, e1]
    dsimp only
    by_cases hcond : s1.natt ≥ E.level ∧ s1.y < E.n
    · rw [if_pos hcond]
      obtain ⟨s', save, y0, g1, g2, g3, g4, g5, g6, g7, g8, g9, g10, g11⟩ := ih s1 (by rw [e2]; exact hx) hcond.2 (e7 hcond.2) (by omega) e5 hcond.1
      exact ⟨s', save, y0, g1, by rw [g2, e2], by omega, g4, g5, g6, g7, g8, g9, g10, by rw [e2] at g11; exact g11⟩
    · rw [if_neg hcond]
      refine ⟨s1, s.att, s.y, rfl, e2, le_rfl, e3, e4, hyb, e5, ?_, e6, e7, s.natt, hc, hl⟩
      by_cases hlt : s1.y < E.n
      · by_contra hge
        exact hcond ⟨not_lt.1 hge, hlt⟩
      · rw [e5.2, eafS_empty (by omega), eafNrun_empty]
        have := ok.lev
        simp; omega

/-- `p` weakly dominates `z` in two objectives. -/
def Le2 (p : ℕ → α) (z : α × α) : Prop := p 0 ≤ z.1 ∧ p 1 ≤ z.2

/-- Points that weakly dominate `z`. -/
noncomputable def eafD (E : EafIn α) (z : α × α) : Finset ℕ := (Finset.range E.n).filter (fun p => Le2 (E.pts p) z)

theorem mem_eafD {E : EafIn α} {z : α × α} {p : ℕ} : p ∈ eafD E z ↔ p < E.n ∧ E.pts p 0 ≤ z.1 ∧ E.pts p 1 ≤ z.2 := by
  unfold eafD Le2; simp

theorem eafS_eq_eafD {E : EafIn α} (ok : EafOk E) {x y : ℕ} (hx : XBd E x) (hy : y < E.n) (hyb : YBd E y) :
    eafS E x y = eafD E (E.X x, E.Y y) := by
  ext p; rw [mem_eafS ok hx hy hyb, mem_eafD]

/-- What is required of the list of stored points. -/
structure EafOut (E : EafIn α) (out : List (α × α × (ℕ → ℤ))) : Prop where
  chain : out.Pairwise (fun a b => a.1 < b.1 ∧ b.2.1 < a.2.1)
  att : ∀ o ∈ out, E.level ≤ (eafNrun E (eafD E (o.1, o.2.1)) : ℤ) ∧
    ∀ r, o.2.2 r = (((eafD E (o.1, o.2.1)).filter (fun p => E.run p = r)).card : ℤ)

/-- Last index whose first coordinate is at most `a`. -/
theorem exists_last_x {E : EafIn α} (ok : EafOk E) {a : α} {x : ℕ} (hx : x < E.n) (ha : E.X x ≤ a) :
    ∃ i, x ≤ i ∧ XBd E i ∧ E.X i ≤ a ∧ ∀ p < E.n, E.pts p 0 ≤ a → E.pts p 0 ≤ E.X i := by
  have hfin : ∃ i, (x ≤ i ∧ i < E.n ∧ E.X i ≤ a) ∧ ∀ j, x ≤ j → j < E.n → E.X j ≤ a → j ≤ i := by
    let T := (Finset.range E.n).filter (fun i => x ≤ i ∧ E.X i ≤ a)
    have hne : T.Nonempty := ⟨x, by simp [T, hx, ha]⟩
    have hm := Finset.max'_mem T hne
    simp only [T, Finset.mem_filter, Finset.mem_range] at hm
    refine ⟨T.max' hne, ⟨hm.2.1, hm.1, hm.2.2⟩, ?_⟩
    intro j h1 h2 h3
    exact Finset.le_max' T j (by simp [T, h1, h2, h3])
  obtain ⟨i, ⟨h1, h2, h3⟩, h4⟩ := hfin
  have hbd : XBd E i := by
    refine ⟨h2, ?_⟩
    by_cases he : i = E.n - 1
    · exact Or.inl he
    · right
      by_contra hge
      have := h4 (i + 1) (by omega) (by omega) ((not_lt.1 hge).trans h3)
      omega
  refine ⟨i, h1, hbd, h3, ?_⟩
  intro p hp hpa
  obtain ⟨j, hj, rfl⟩ := ok.dxsurj p hp
  by_cases hxj : x ≤ j
  · exact ok.Xmono j i (h4 j hxj hj hpa) h2
  · exact ok.Xmono j i (by omega) h2

theorem eafSweep_spec {E : EafIn α} (ok : EafOk E) (fuel : ℕ) : ∀ (s : EafSt) (out : List (α × α × (ℕ → ℤ))),
    s.x < E.n → s.y < E.n → YBd E s.y → E.n - s.y + E.n < fuel → EafCnt E (eafS E s.x s.y) s.att s.natt → EafOut E out →
    (out = [] ∨ XBd E s.x ∧ s.x < E.n - 1 ∧ s.natt < E.level) →
    (∀ o ∈ out, o.1 ≤ E.X s.x ∧ E.Y s.y < o.2.1) →
    (∀ z : α × α, E.level ≤ (eafNrun E (eafD E z) : ℤ) → (∃ o ∈ out, o.1 ≤ z.1 ∧ o.2.1 ≤ z.2) ∨
      (E.X s.x ≤ z.1 ∧ ∀ p < E.n, E.pts p 1 ≤ z.2 → E.pts p 1 ≤ E.Y s.y)) →
    ∃ out', eafSweep E fuel s out = some out' ∧ EafOut E out' ∧
      ∀ z : α × α, E.level ≤ (eafNrun E (eafD E z) : ℤ) → ∃ o ∈ out', o.1 ≤ z.1 ∧ o.2.1 ≤ z.2 := by
  induction fuel with
  | zero => intro s out _ _ _ h; omega
  | succ fuel ih =>
    intro s out hx hy hyb hf hc hout hst hob hcov
    obtain ⟨s1, e1, e2, e3, e4, e5, e6, e7⟩ := eafRight_spec ok fuel s hx hy hyb (by omega) hc
    rw [eafSweep, e1]
    dsimp only
    -- z lies to the right of the new x
    have hright : ∀ z : α × α, E.level ≤ (eafNrun E (eafD E z) : ℤ) → (∃ o ∈ out, o.1 ≤ z.1 ∧ o.2.1 ≤ z.2) ∨
        ∃ i, s1.x ≤ i ∧ XBd E i ∧ E.X i ≤ z.1 ∧ (∀ p < E.n, E.pts p 0 ≤ z.1 → E.pts p 0 ≤ E.X i) ∧
          ∀ p < E.n, E.pts p 1 ≤ z.2 → E.pts p 1 ≤ E.Y s.y := by
      intro z hz
      rcases hcov z hz with h | ⟨h1, h2⟩
      · exact Or.inl h
      · right
        obtain ⟨i, hi1, hi2, hi3, hi4⟩ := exists_last_x ok hx h1
        refine ⟨i, ?_, hi2, hi3, hi4, h2⟩
        by_contra hlt
        push Not at hlt
        have hXi : E.X i < E.X (i + 1) := by
          rcases hi2.2 with h | h
          · omega
          · exact h
        have h5 := e7 i hi1 hlt hXi
        rw [eafS_eq_eafD ok hi2 hy hyb] at h5
        have h6 : eafNrun E (eafD E z) ≤ eafNrun E (eafD E (E.X i, E.Y s.y)) := by
          apply eafNrun_mono
          intro p hp
          rw [mem_eafD] at *
          exact ⟨hp.1, hi4 p hp.1 hp.2.1, h2 p hp.1 hp.2.2⟩
        omega
    by_cases hlev : s1.natt < E.level
    · rw [if_pos hlev]
      have hxe : ¬ s1.x < E.n - 1 := fun h => e6 ⟨h, Or.inl hlev⟩
      rw [if_neg (fun h => hxe h.1)]
      refine ⟨out, rfl, hout, ?_⟩
      intro z hz
      rcases hright z hz with h | ⟨i, h1, h2, h3, h4, h5⟩
      · exact h
      · exfalso
        obtain rfl : i = s1.x := by have := h2.1; omega
        have h6 : eafNrun E (eafD E z) ≤ eafNrun E (eafD E (E.X s1.x, E.Y s.y)) := by
          apply eafNrun_mono
          intro p hp
          rw [mem_eafD] at *
          exact ⟨hp.1, h4 p hp.1 hp.2.1, h5 p hp.1 hp.2.2⟩
        have h7 := e5.2
        rw [e2, eafS_eq_eafD ok h2 hy hyb] at h7
        omega
    rw [if_neg hlev]
    have hxb : XBd E s1.x := by
      refine ⟨e4, ?_⟩
      by_cases he : s1.x = E.n - 1
      · exact Or.inl he
      · right
        have hne : E.X s1.x ≠ E.X (s1.x + 1) := fun e => e6 ⟨by omega, Or.inr e⟩
        exact lt_of_le_of_ne (ok.Xmono _ _ (by omega) (by omega)) hne
    obtain ⟨s2, save, y0, g1, g2, g3, g4, g5, g6, g7, g8, g9, g10, m, g11, g12⟩ :=
      eafDown_spec ok fuel s1 hxb (by rw [e2]; exact hy) (by rw [e2]; exact hyb) (by omega) e5 (not_lt.1 hlev)
    rw [g1]
    dsimp only
    rw [if_neg (by simpa using g8), g9, g2]
    have hy0 : y0 < E.n := by omega
    have hS0 := eafS_eq_eafD ok hxb hy0 g6
    -- strictly to the right when there was an output before
    have hstrict : ∀ o ∈ out, o.1 < E.X s1.x := by
      intro o ho
      rcases hst with rfl | ⟨hb, hb2, hb3⟩
      · simp at ho
      · have hlt : s.x < s1.x := by
          by_contra hge
          have hxx : s1.x = s.x := by omega
          have h1 := hc.2
          have h2 := e5.2
          rw [e2, hxx] at h2
          omega
        refine (hob o ho).1.trans_lt ?_
        rcases hb.2 with h | h
        · omega
        · exact h.trans_le (ok.Xmono _ _ (by omega) e4)
    have hYle : E.Y y0 ≤ E.Y s.y := ok.Yanti _ _ (by omega) hy0
    have hout' : EafOut E (out ++ [(E.X s1.x, E.Y y0, save)]) := by
      constructor
      · rw [List.pairwise_append]
        refine ⟨hout.chain, by simp, ?_⟩
        intro a ha b hb
        simp only [List.mem_singleton] at hb
        subst hb
        exact ⟨hstrict a ha, hYle.trans_lt (hob a ha).2⟩
      · intro o ho
        rw [List.mem_append, List.mem_singleton] at ho
        rcases ho with ho | rfl
        · exact hout.att o ho
        · rw [← hS0]
          exact ⟨by have := g11.2; omega, g11.1⟩
    -- uncovered vectors
    have hnext : ∀ z : α × α, E.level ≤ (eafNrun E (eafD E z) : ℤ) → (∃ o ∈ out ++ [(E.X s1.x, E.Y y0, save)], o.1 ≤ z.1 ∧ o.2.1 ≤ z.2) ∨
        (s1.x < E.n - 1 ∧ s2.y < E.n ∧ E.X s1.x ≤ z.1 ∧ ∀ p < E.n, E.pts p 1 ≤ z.2 → E.pts p 1 ≤ E.Y s2.y) := by
      intro z hz
      rcases hright z hz with ⟨o, ho, h⟩ | ⟨i, h1, h2, h3, h4, h5⟩
      · exact Or.inl ⟨o, by simp [ho], h⟩
      · have hX1 : E.X s1.x ≤ z.1 := (ok.Xmono _ _ h1 h2.1).trans h3
        by_cases hzy : E.Y y0 ≤ z.2
        · exact Or.inl ⟨(E.X s1.x, E.Y y0, save), by simp, hX1, hzy⟩
        · push Not at hzy
          right
          have hpy : ∀ p < E.n, E.pts p 1 ≤ z.2 → s2.y < E.n ∧ E.pts p 1 ≤ E.Y s2.y := by
            intro p hp hpz
            obtain ⟨j, hj, rfl⟩ := ok.dysurj p hp
            have hjs : s2.y ≤ j := by
              by_contra hlt
              have h6 : E.Y (s2.y - 1) ≤ E.Y j := ok.Yanti j (s2.y - 1) (by omega) (by omega)
              rw [g9] at h6
              exact absurd (hpz.trans_lt hzy) (not_lt.2 h6)
            exact ⟨by omega, ok.Yanti _ _ hjs hj⟩
          -- some point weakly dominates z
          have hex : ∃ p, p ∈ eafD E z := by
            by_contra hno
            have : eafD E z = ∅ := Finset.eq_empty_of_forall_notMem (fun p hp => hno ⟨p, hp⟩)
            rw [this, eafNrun_empty] at hz
            have := ok.lev
            simp at hz; omega
          obtain ⟨p, hp⟩ := hex
          rw [mem_eafD] at hp
          have hs2 := (hpy p hp.1 hp.2.2).1
          refine ⟨?_, hs2, hX1, fun p hp hpz => (hpy p hp hpz).2⟩
          by_contra hge
          obtain rfl : i = s1.x := by have := h2.1; omega
          have h6 : eafNrun E (eafD E z) ≤ eafNrun E (eafD E (E.X s1.x, E.Y s2.y)) := by
            apply eafNrun_mono
            intro p hp
            rw [mem_eafD] at *
            exact ⟨hp.1, h4 p hp.1 hp.2.1, (hpy p hp.1 hp.2.2).2⟩
          have h7 := g7.2
          rw [g2, eafS_eq_eafD ok h2 hs2 (g10 hs2)] at h7
          omega
    by_cases hcont : s1.x < E.n - 1 ∧ s2.y < E.n
    · rw [if_pos hcont]
      refine ih s2 _ (by rw [g2]; exact e4) hcont.2 (g10 hcont.2) ?_ g7 hout' ?_ ?_ ?_
      · omega
      · right; rw [g2]; exact ⟨hxb, hcont.1, g8⟩
      · intro o ho
        rw [List.mem_append, List.mem_singleton] at ho
        have hY2 : E.Y s2.y < E.Y y0 := by
          rcases g10 hcont.2 with h | h
          · omega
          · rwa [g9] at h
        rw [g2]
        rcases ho with ho | rfl
        · exact ⟨(hstrict o ho).le, hY2.trans (hYle.trans_lt (hob o ho).2)⟩
        · exact ⟨le_rfl, hY2⟩
      · intro z hz
        rcases hnext z hz with h | h
        · exact Or.inl h
        · right; rw [g2]; exact ⟨h.2.2.1, h.2.2.2⟩
    · rw [if_neg hcont]
      refine ⟨_, rfl, hout', ?_⟩
      intro z hz
      rcases hnext z hz with h | h
      · exact h
      · exact absurd ⟨h.1, h.2.1⟩ hcont

end Moo
