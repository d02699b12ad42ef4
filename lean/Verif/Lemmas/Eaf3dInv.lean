import Verif.Lemmas.Eaf3dIter
import Mathlib.Data.Finset.Card
import Mathlib.Data.Finset.Insert
import Mathlib.Data.Finset.Range

/-!
# The invariant of the main loop of `eaf3df`: levels and outputs
-/

set_option autoImplicit false
set_option linter.unusedSectionVars false

namespace Moo

variable {α : Type*} [LinearOrder α]

/-- A point of run `s` is at least as good as `(a, b)` in the first two objectives. -/
def At2 (P : List (Pt3 α)) (s : ℕ) (a b : α) : Prop := ∃ p ∈ P, p.set = s ∧ p.x ≤ a ∧ p.y ≤ b
/-- A point of run `s` is at least as good as `(a, b, c)`. -/
def At3 (P : List (Pt3 α)) (s : ℕ) (a b c : α) : Prop := ∃ p ∈ P, p.set = s ∧ p.x ≤ a ∧ p.y ≤ b ∧ p.z ≤ c

open Classical in
noncomputable def cnt2 (P : List (Pt3 α)) (n : ℕ) (a b : α) : ℕ := ((Finset.range n).filter (fun s => At2 P s a b)).card
open Classical in
noncomputable def cnt3 (P : List (Pt3 α)) (n : ℕ) (a b c : α) : ℕ := ((Finset.range n).filter (fun s => At3 P s a b c)).card

section counts
variable {P : List (Pt3 α)} {p : Pt3 α} {n : ℕ} {a b c a' b' c' : α} {s : ℕ}

theorem At2.mono (h : At2 P s a b) (ha : a ≤ a') (hb : b ≤ b') : At2 P s a' b' := by
  obtain ⟨q, h1, h2, h3, h4⟩ := h
  exact ⟨q, h1, h2, h3.trans ha, h4.trans hb⟩

theorem At3.mono (h : At3 P s a b c) (ha : a ≤ a') (hb : b ≤ b') (hc : c ≤ c') : At3 P s a' b' c' := by
  obtain ⟨q, h1, h2, h3, h4, h5⟩ := h
  exact ⟨q, h1, h2, h3.trans ha, h4.trans hb, h5.trans hc⟩

theorem At3.at2 (h : At3 P s a b c) : At2 P s a b := by
  obtain ⟨q, h1, h2, h3, h4, -⟩ := h
  exact ⟨q, h1, h2, h3, h4⟩

theorem At2.at3 (h : At2 P s a b) (hz : ∀ q ∈ P, q.z ≤ c) : At3 P s a b c := by
  obtain ⟨q, h1, h2, h3, h4⟩ := h
  exact ⟨q, h1, h2, h3, h4, hz q h1⟩

theorem at2_cons : At2 (p :: P) s a b ↔ (p.set = s ∧ p.x ≤ a ∧ p.y ≤ b) ∨ At2 P s a b := by
  unfold At2
  simp

theorem at3_cons : At3 (p :: P) s a b c ↔ (p.set = s ∧ p.x ≤ a ∧ p.y ≤ b ∧ p.z ≤ c) ∨ At3 P s a b c := by
  unfold At3
  simp

theorem cnt2_mono (ha : a ≤ a') (hb : b ≤ b') : cnt2 P n a b ≤ cnt2 P n a' b' := by
  classical
  apply Finset.card_le_card
  intro s hs
  rw [Finset.mem_filter] at *
  exact ⟨hs.1, hs.2.mono ha hb⟩

theorem cnt3_mono (ha : a ≤ a') (hb : b ≤ b') (hc : c ≤ c') : cnt3 P n a b c ≤ cnt3 P n a' b' c' := by
  classical
  apply Finset.card_le_card
  intro s hs
  rw [Finset.mem_filter] at *
  exact ⟨hs.1, hs.2.mono ha hb hc⟩

theorem cnt2_cons_le : cnt2 P n a b ≤ cnt2 (p :: P) n a b := by
  classical
  apply Finset.card_le_card
  intro s hs
  rw [Finset.mem_filter] at *
  exact ⟨hs.1, at2_cons.mpr (Or.inr hs.2)⟩

theorem cnt2_cons_old (h : p.x ≤ a → p.y ≤ b → At2 P p.set a b) : cnt2 (p :: P) n a b = cnt2 P n a b := by
  classical
  unfold cnt2
  congr 1
  apply Finset.filter_congr
  intro s _
  rw [at2_cons]
  constructor
  · rintro (⟨rfl, h1, h2⟩ | h')
    · exact h h1 h2
    · exact h'
  · exact Or.inr

theorem cnt2_cons_new (hs : p.set < n) (hx : p.x ≤ a) (hy : p.y ≤ b) (h : ¬ At2 P p.set a b) : cnt2 (p :: P) n a b = cnt2 P n a b + 1 := by
  classical
  unfold cnt2
  rw [← Finset.card_insert_of_notMem (s := (Finset.range n).filter (fun s => At2 P s a b)) (a := p.set) (by simp [h])]
  congr 1
  ext s
  rw [Finset.mem_insert, Finset.mem_filter, Finset.mem_filter, Finset.mem_range, at2_cons]
  constructor
  · rintro ⟨h1, ⟨h2, -⟩ | h2⟩
    · exact Or.inl h2.symm
    · exact Or.inr ⟨h1, h2⟩
  · rintro (rfl | ⟨h1, h2⟩)
    · exact ⟨hs, Or.inl ⟨rfl, hx, hy⟩⟩
    · exact ⟨h1, Or.inr h2⟩

theorem cnt2_lt (hs : s < n) (h : ¬ At2 P s a b) : cnt2 P n a b < n := by
  classical
  unfold cnt2
  conv_rhs => rw [← Finset.card_range n]
  apply Finset.card_lt_card
  rw [Finset.ssubset_iff_of_subset (Finset.filter_subset _ _)]
  exact ⟨s, Finset.mem_range.mpr hs, by simp [h]⟩

theorem cnt2_le : cnt2 P n a b ≤ n := by
  classical
  unfold cnt2
  conv_rhs => rw [← Finset.card_range n]
  exact Finset.card_le_card (Finset.filter_subset _ _)

theorem cnt3_le : cnt3 P n a b c ≤ n := by
  classical
  unfold cnt3
  conv_rhs => rw [← Finset.card_range n]
  exact Finset.card_le_card (Finset.filter_subset _ _)

theorem cnt3_eq_cnt2 (hz : ∀ q ∈ P, q.z ≤ c) : cnt3 P n a b c = cnt2 P n a b := by
  classical
  unfold cnt2 cnt3
  congr 1
  apply Finset.filter_congr
  exact fun s _ => ⟨fun h => h.at2, fun h => h.at3 hz⟩

theorem cnt3_cons_lt (h : c < p.z) : cnt3 (p :: P) n a b c = cnt3 P n a b c := by
  classical
  unfold cnt3
  congr 1
  apply Finset.filter_congr
  intro s _
  rw [at3_cons]
  constructor
  · rintro (h' | h')
    · exact absurd h'.2.2.2 (not_le.mpr h)
    · exact h'
  · exact Or.inr

end counts

/-- The nodes of level `k` that are in the output or in the tree. -/
def Live (mn mx : α) (st : St3 α) (k : ℕ) (n : LNode α) : Prop := n ∈ st.outs k ∨ (n ∈ st.levels k ∧ mn < n.x ∧ n.x < mx)

/-- The number of runs with a point in the list. -/
noncomputable def nsets (mask : ℕ → Bool) (n : ℕ) : ℕ := ((Finset.range n).filter (fun s => mask s = true)).card

/-- The invariant of the main loop, for the levels and outputs.  `P` are the points seen so far. -/
structure Inv3 (mn mx junk : α) (nset : ℕ) (xs : α → Prop) (P : List (Pt3 α)) (zb : α) (st : St3 α) : Prop where
  lvl : ∀ k, IsLvl mn mx junk (st.levels k)
  set : ∀ s, IsSet mn mx (st.sets s)
  sreg : ∀ s a b, a < mx → b < mx → (SReg (st.sets s) a b ↔ At2 P s a b)
  reg : ∀ k a b, a < mx → b < mx → (Reg (st.levels k) a b ↔ k + 1 ≤ cnt2 P nset a b)
  pz : ∀ q ∈ P, q.z ≤ zb
  xn : ∀ k, ∀ n ∈ st.levels k, mn < n.x → n.x < mx → xs n.x
  zs : ∀ k, ∀ n ∈ st.levels k, mn < n.x → n.x < mx → n.z ≤ zb
  zo : ∀ k, ∀ n ∈ st.outs k, n.z < zb
  oreg : ∀ k, ∀ n ∈ st.outs k, Reg (st.levels k) n.x n.y ∧ mn < n.x ∧ n.x < mx ∧ mn < n.y ∧ n.y < mx
  cov : ∀ k a b c, a < mx → b < mx → (k + 1 ≤ cnt3 P nset a b c ↔ ∃ n, Live mn mx st k n ∧ n.x ≤ a ∧ n.y ≤ b ∧ n.z ≤ c)
  anti : ∀ k n m, Live mn mx st k n → Live mn mx st k m → n.x ≤ m.x → n.y ≤ m.y → n.z ≤ m.z → n = m
  nodup : ∀ k, (st.outs k).Nodup
  disj : ∀ k, ∀ n ∈ st.outs k, n ∉ st.levels k

/-- The invariant for `set_mask` and `start_at`. -/
structure InvM (nset : ℕ) (P : List (Pt3 α)) (start : ℕ) (mask : ℕ → Bool) : Prop where
  msk : ∀ s, mask s = true ↔ ∃ q ∈ P, q.set = s
  str : start = min (nsets mask nset - 1) (nset - 2)
  pos : 1 ≤ nsets mask nset

/-- The context of an iteration. -/
def ctx3 (mn mx junk : α) (nset : ℕ) (xs : α → Prop) (st : St3 α) (p : Pt3 α) : Ctx3 α := ⟨mn, mx, junk, nset, st, p, xs⟩

/-- What is assumed of the next point. -/
structure PtOk (mn mx : α) (nset : ℕ) (xs : α → Prop) (zb : α) (p : Pt3 α) : Prop where
  px : mn < p.x ∧ p.x < mx
  py : mn < p.y ∧ p.y < mx
  xp : xs p.x
  set : p.set < nset
  z : zb ≤ p.z

section
variable {mn mx junk : α} {nset : ℕ} {xs : α → Prop} {P : List (Pt3 α)} {zb : α} {st : St3 α} {p : Pt3 α}

theorem Inv3.ok (h : Inv3 mn mx junk nset xs P zb st) (hp : PtOk mn mx nset xs zb p) : (ctx3 mn mx junk nset xs st p).Ok where
  lvl := h.lvl
  set := h.set _
  px := hp.px
  py := hp.py
  xp := hp.xp
  xn := h.xn
  zs := fun k n hn h1 h2 => (h.zs k n hn h1 h2).trans hp.z

theorem nsets_ge {mask : ℕ → Bool} (h : ∀ s, mask s = true ↔ ∃ q ∈ P, q.set = s) (a b : α) : cnt2 P nset a b ≤ nsets mask nset := by
  classical
  unfold cnt2 nsets
  apply Finset.card_le_card
  intro s hs
  rw [Finset.mem_filter] at *
  obtain ⟨h1, q, h2, h3, -⟩ := hs
  exact ⟨h1, (h s).mpr ⟨q, h2, h3⟩⟩

theorem InvM.bound {start : ℕ} {mask : ℕ → Bool} (hM : InvM nset P start mask) {s : ℕ} (hs : s < nset) (a b : α) (hA : ¬ At2 P s a b) :
    cnt2 P nset a b ≤ start + 1 := by
  have h1 := nsets_ge (nset := nset) hM.msk a b
  have h2 : cnt2 P nset a b < nset := cnt2_lt hs hA
  have h3 := hM.str
  have h4 := hM.pos
  omega

theorem InvM.skip {start : ℕ} {mask : ℕ → Bool} (h : InvM nset P start mask) (hq : ∃ q ∈ P, q.set = p.set) : InvM nset (p :: P) start mask where
  msk := by
    intro s
    rw [h.msk]
    constructor
    · rintro ⟨q, h1, h2⟩
      exact ⟨q, List.mem_cons_of_mem _ h1, h2⟩
    · rintro ⟨q, h1, h2⟩
      rcases List.mem_cons.mp h1 with rfl | h1
      · rw [← h2]
        exact hq
      · exact ⟨q, h1, h2⟩
  str := h.str
  pos := h.pos

theorem InvM.new {start : ℕ} {mask : ℕ → Bool} (h : InvM nset P start mask) (hs : p.set < nset) :
    InvM nset (p :: P) (if mask p.set then start else if start + 2 < nset then start + 1 else start) (if mask p.set then mask else upd mask p.set true) := by
  rcases Bool.eq_false_or_eq_true (mask p.set) with hm | hm
  · rw [if_pos hm, if_pos hm]
    exact h.skip ((h.msk _).mp hm)
  · have hm' : ¬ mask p.set = true := by rw [hm]; simp
    rw [if_neg hm', if_neg hm']
    have hn : nsets (upd mask p.set true) nset = nsets mask nset + 1 := by
      unfold nsets
      rw [← Finset.card_insert_of_notMem (s := (Finset.range nset).filter (fun s => mask s = true)) (a := p.set) (by simp [hm])]
      congr 1
      ext s
      rw [Finset.mem_insert, Finset.mem_filter, Finset.mem_filter, Finset.mem_range]
      by_cases hse : s = p.set
      · subst hse
        simp [upd_same, hs]
      · rw [upd_ne _ _ hse]
        simp [hse]
    refine ⟨?_, ?_, by omega⟩
    · intro s
      by_cases hse : s = p.set
      · subst hse
        rw [upd_same]
        simp
      · rw [upd_ne _ _ hse, h.msk]
        constructor
        · rintro ⟨q, h1, h2⟩
          exact ⟨q, List.mem_cons_of_mem _ h1, h2⟩
        · rintro ⟨q, h1, h2⟩
          rcases List.mem_cons.mp h1 with rfl | h1
          · exact absurd h2.symm hse
          · exact ⟨q, h1, h2⟩
    · rw [hn]
      have h1 := h.str
      have h2 := h.pos
      split <;> omega

/-- A skipped point changes nothing. -/
theorem Inv3.skip (h : Inv3 mn mx junk nset xs P zb st) (hp : PtOk mn mx nset xs zb p) (hS : SReg (st.sets p.set) p.x p.y) :
    Inv3 mn mx junk nset xs (p :: P) p.z st := by
  have hA : At2 P p.set p.x p.y := (h.sreg _ _ _ hp.px.2 hp.py.2).mp hS
  refine ⟨h.lvl, h.set, ?_, ?_, ?_, h.xn, fun k n hn h1 h2 => (h.zs k n hn h1 h2).trans hp.z, fun k n hn => (h.zo k n hn).trans_le hp.z, h.oreg, ?_, h.anti, h.nodup,
    h.disj⟩
  · intro s a b ha hb
    rw [h.sreg s a b ha hb, at2_cons]
    constructor
    · exact Or.inr
    · rintro (⟨rfl, h1, h2⟩ | h')
      · exact hA.mono h1 h2
      · exact h'
  · intro k a b ha hb
    rw [h.reg k a b ha hb, cnt2_cons_old (fun h1 h2 => hA.mono h1 h2)]
  · intro q hq
    rcases List.mem_cons.mp hq with rfl | hq
    · exact le_refl _
    · exact (h.pz q hq).trans hp.z
  · intro k a b c ha hb
    rw [← h.cov k a b c ha hb]
    rcases lt_or_ge c p.z with hc | hc
    · rw [cnt3_cons_lt hc]
    · have hz : ∀ q ∈ P, q.z ≤ c := fun q hq => (h.pz q hq).trans (hp.z.trans hc)
      have hz' : ∀ q ∈ p :: P, q.z ≤ c := by
        intro q hq
        rcases List.mem_cons.mp hq with rfl | hq
        · exact hc
        · exact hz q hq
      rw [cnt3_eq_cnt2 hz, cnt3_eq_cnt2 hz', cnt2_cons_old (fun h1 h2 => hA.mono h1 h2)]

theorem IsLvl.inner {L : List (LNode α)} (h : IsLvl mn mx junk L) {n : LNode α} (hn : n ∈ L) {a b : α} (ha : a < mx) (hb : b < mx) (h1 : n.x ≤ a) (h2 : n.y ≤ b) :
    mn < n.x ∧ n.x < mx ∧ mn < n.y ∧ n.y < mx := by
  rcases h.bnd n hn with e | e | e
  · rw [e] at h2
    exact absurd (lt_of_le_of_lt h2 hb) (lt_irrefl _)
  · rw [e] at h1
    exact absurd (lt_of_le_of_lt h1 ha) (lt_irrefl _)
  · exact e

theorem IsLvl.inner' {L : List (LNode α)} (h : IsLvl mn mx junk L) {n : LNode α} (hn : n ∈ L) (h1 : mn < n.x) (h2 : n.x < mx) :
    mn < n.y ∧ n.y < mx := by
  rcases h.bnd n hn with e | e | e
  · rw [e] at h1
    exact absurd h1 (lt_irrefl _)
  · rw [e] at h2
    exact absurd h2 (lt_irrefl _)
  · exact e.2.2

/-- The regions of the levels after an iteration. -/
theorem Inv3.reg_new (h : Inv3 mn mx junk nset xs P zb st) (hp : PtOk mn mx nset xs zb p) {start : ℕ}
    (hM : ∀ a b, ¬ At2 P p.set a b → cnt2 P nset a b ≤ start + 1) {stA : St3 α} (hmid : Mid (ctx3 mn mx junk nset xs st p) stA) {stop : ℕ} (hstop : stop ≤ start + 1)
    (hpstop : Reg (stA.levels stop) p.x p.y) (hlow : stop = 0 ∨ Reg (st.levels (stop - 1)) p.x p.y)
    (hfull : ∀ k, stop ≤ k → k ≤ start → Full (ctx3 mn mx junk nset xs st p) k stA) (k : ℕ) {a b : α} (ha : a < mx) (hb : b < mx) :
    Reg (stA.levels k) a b ↔ k + 1 ≤ cnt2 (p :: P) nset a b := by
  constructor
  · rintro ⟨n, hn, h1, h2⟩
    refine le_trans ?_ (cnt2_mono h1 h2)
    have hin := (hmid.lvl k).inner hn ha hb h1 h2
    rcases hmid.mem k n hn with ho | hnew
    · exact ((h.reg k n.x n.y hin.2.1 hin.2.2.2).mp ⟨n, ho, le_refl _, le_refl _⟩).trans cnt2_cons_le
    · have hA : ¬ At2 P p.set n.x n.y := fun h' => hnew.nset ((h.sreg _ _ _ hin.2.1 hin.2.2.2).mpr h')
      rw [cnt2_cons_new hp.set hnew.px hnew.py hA]
      rcases hnew.prev with h0 | h0
      · omega
      · have := (h.reg (k - 1) n.x n.y hin.2.1 hin.2.2.2).mp h0
        omega
  · intro hc
    by_cases hold : k + 1 ≤ cnt2 P nset a b
    · exact hmid.mono k a b ((h.reg k a b ha hb).mpr hold)
    · have hup : p.x ≤ a ∧ p.y ≤ b := by
        by_contra hcon
        rw [cnt2_cons_old (fun h1 h2 => absurd ⟨h1, h2⟩ hcon)] at hc
        exact hold hc
      have hA : ¬ At2 P p.set a b := by
        intro h'
        rw [cnt2_cons_old (fun _ _ => h')] at hc
        exact hold hc
      have hSab : ¬ SReg (st.sets p.set) a b := fun h' => hA ((h.sreg _ _ _ ha hb).mp h')
      rw [cnt2_cons_new hp.set hup.1 hup.2 hA] at hc
      have hup' : ∀ j, Reg (stA.levels j) p.x p.y → Reg (stA.levels j) a b := by
        rintro j ⟨n, hn, h1, h2⟩
        exact ⟨n, hn, h1.trans hup.1, h2.trans hup.2⟩
      rcases lt_trichotomy k stop with hk | hk | hk
      · rcases hlow with h0 | h0
        · omega
        · have h1 := (h.reg (stop - 1) p.x p.y hp.px.2 hp.py.2).mp h0
          have h2 : k + 1 ≤ cnt2 P nset p.x p.y := by omega
          exact hup' k (hmid.mono k _ _ ((h.reg k _ _ hp.px.2 hp.py.2).mpr h2))
      · subst hk
        exact hup' k hpstop
      · by_cases hks : k - 1 ≤ start
        · have := hfull (k - 1) (by omega) hks a b hup.1 hup.2 ha hb hSab ((h.reg (k - 1) a b ha hb).mpr (by omega))
          rwa [Nat.sub_add_cancel (by omega)] at this
        · exfalso
          have h1 := hM a b hA
          omega

/-- What stays live. -/
theorem Mid.live {k : ℕ} (hl0 : IsLvl mn mx junk (st.levels k)) (hp : PtOk mn mx nset xs zb p) {stA : St3 α} (hmid : Mid (ctx3 mn mx junk nset xs st p) stA) {n : LNode α} :
    Live mn mx stA k n ↔ (Live mn mx st k n ∧ (n.z < p.z ∨ n ∈ st.outs k ∨ n ∈ stA.levels k)) ∨ (n ∈ stA.levels k ∧ NewNode (ctx3 mn mx junk nset xs st p) k n) := by
  obtain ⟨R, hR, -, hmem⟩ := hmid.outs k
  have hR' : stA.outs k = st.outs k ++ R := hR
  have hmem' : ∀ n, n ∈ R ↔ n ∈ st.levels k ∧ n ∉ stA.levels k ∧ n.z < p.z := hmem
  have hnewx : NewNode (ctx3 mn mx junk nset xs st p) k n → mn < n.x ∧ n.x < mx := fun h' => ⟨hp.px.1.trans_le h'.px, h'.bx⟩
  unfold Live
  rw [hR', List.mem_append, hmem']
  constructor
  · rintro ((h1 | ⟨h1, h2, h3⟩) | ⟨h1, h2, h3⟩)
    · exact Or.inl ⟨Or.inl h1, Or.inr (Or.inl h1)⟩
    · by_cases hb : mn < n.x ∧ n.x < mx
      · exact Or.inl ⟨Or.inr ⟨h1, hb⟩, Or.inl h3⟩
      · exfalso
        rcases hl0.bnd n h1 with e | e | e
        · exact h2 (e ▸ (hmid.lvl k).head)
        · exact h2 (e ▸ (hmid.lvl k).tail)
        · exact hb ⟨e.1, e.2.1⟩
    · rcases hmid.mem k n h1 with h4 | h4
      · exact Or.inl ⟨Or.inr ⟨h4, h2, h3⟩, Or.inr (Or.inr h1)⟩
      · exact Or.inr ⟨h1, h4⟩
  · rintro (⟨h1 | ⟨h1, h2, h3⟩, h4⟩ | ⟨h1, h2⟩)
    · exact Or.inl (Or.inl h1)
    · by_cases hs : n ∈ stA.levels k
      · exact Or.inr ⟨hs, h2, h3⟩
      · rcases h4 with h4 | h4 | h4
        · exact Or.inl (Or.inr ⟨h1, hs, h4⟩)
        · exact Or.inl (Or.inl h4)
        · exact absurd h4 hs
    · exact Or.inr ⟨h1, hnewx h2⟩

/-- The invariant after an iteration that does not skip the point. -/
theorem Inv3.new (h : Inv3 mn mx junk nset xs P zb st) (hp : PtOk mn mx nset xs zb p) {start : ℕ}
    (hM : ∀ a b, ¬ At2 P p.set a b → cnt2 P nset a b ≤ start + 1) {stA : St3 α} (hmid : Mid (ctx3 mn mx junk nset xs st p) stA) {stop : ℕ} (hstop : stop ≤ start + 1)
    (hpstop : Reg (stA.levels stop) p.x p.y) (hlow : stop = 0 ∨ Reg (st.levels (stop - 1)) p.x p.y)
    (hfull : ∀ k, stop ≤ k → k ≤ start → Full (ctx3 mn mx junk nset xs st p) k stA) {S' : List (α × α)} (hS' : IsSet mn mx S')
    (hSreg : ∀ a b, SReg S' a b ↔ SReg (st.sets p.set) a b ∨ (p.x ≤ a ∧ p.y ≤ b)) :
    Inv3 mn mx junk nset xs (p :: P) p.z { stA with sets := upd st.sets p.set S' } := by
  have hreg := fun k a b (ha : a < mx) (hb : b < mx) => h.reg_new hp hM hmid hstop hpstop hlow hfull k ha hb
  have hlive : ∀ k n, Live mn mx stA k n ↔ _ := fun k n => hmid.live (h.lvl k) hp (n := n)
  have hlz : ∀ k n, Live mn mx st k n → n.z ≤ zb := by
    rintro k n (h1 | ⟨h1, h2, h3⟩)
    · exact (h.zo k n h1).le
    · exact h.zs k n h1 h2 h3
  have hlreg : ∀ k n, Live mn mx st k n → Reg (st.levels k) n.x n.y ∧ mn < n.x ∧ n.x < mx ∧ mn < n.y ∧ n.y < mx := by
    rintro k n (h1 | ⟨h1, h2, h3⟩)
    · exact h.oreg k n h1
    · exact ⟨⟨n, h1, le_refl _, le_refl _⟩, h2, h3, (h.lvl k).inner' h1 h2 h3⟩
  have hzout : ∀ k, ∀ n ∈ stA.outs k, n.z < p.z ∧ (n ∈ st.outs k ∨ (n ∈ st.levels k ∧ n ∉ stA.levels k)) := by
    intro k n hn
    obtain ⟨R, hR, -, hmem⟩ := hmid.outs k
    rw [hR] at hn
    rcases List.mem_append.mp hn with hn | hn
    · exact ⟨(h.zo k n hn).trans_le hp.z, Or.inl hn⟩
    · have := (hmem n).mp hn
      exact ⟨this.2.2, Or.inr ⟨this.1, this.2.1⟩⟩
  have hzlvl : ∀ k, ∀ n ∈ stA.levels k, mn < n.x → n.x < mx → n.z ≤ p.z := by
    intro k n hn h1 h2
    rcases hmid.mem k n hn with h' | h'
    · exact (h.zs k n h' h1 h2).trans hp.z
    · exact h'.z.le
  have hpz : ∀ q ∈ p :: P, q.z ≤ p.z := by
    intro q hq
    rcases List.mem_cons.mp hq with rfl | hq
    · exact le_refl _
    · exact (h.pz q hq).trans hp.z
  have hlzA : ∀ k n, Live mn mx stA k n → n.z ≤ p.z := by
    rintro k n (h1 | ⟨h1, h2, h3⟩)
    · exact (hzout k n h1).1.le
    · exact hzlvl k n h1 h2 h3
  have hregO : ∀ k, ∀ n ∈ stA.outs k, Reg (stA.levels k) n.x n.y ∧ mn < n.x ∧ n.x < mx ∧ mn < n.y ∧ n.y < mx := by
    intro k n hn
    have hL : Live mn mx st k n := by
      rcases (hlive k n).mp (Or.inl hn) with h' | ⟨-, h'⟩
      · exact h'.1
      · exact absurd h'.z (hzout k n hn).1.ne
    obtain ⟨h1, h2⟩ := hlreg k n hL
    exact ⟨hmid.mono k _ _ h1, h2⟩
  refine ⟨hmid.lvl, ?_, ?_, hreg, hpz, ?_, hzlvl, fun k n hn => (hzout k n hn).1, hregO, ?_, ?_, ?_, ?_⟩
  · intro s
    by_cases hs : s = p.set
    · subst hs
      show IsSet mn mx (upd st.sets p.set S' p.set)
      rw [upd_same]
      exact hS'
    · show IsSet mn mx (upd st.sets p.set S' s)
      rw [upd_ne _ _ hs]
      exact h.set s
  · intro s a b ha hb
    show SReg (upd st.sets p.set S' s) a b ↔ _
    rw [at2_cons, ← h.sreg s a b ha hb]
    by_cases hs : s = p.set
    · subst hs
      rw [upd_same, hSreg]
      constructor
      · rintro (h' | h')
        · exact Or.inr h'
        · exact Or.inl ⟨rfl, h'⟩
      · rintro (h' | h')
        · exact Or.inr h'.2
        · exact Or.inl h'
    · rw [upd_ne _ _ hs]
      constructor
      · exact Or.inr
      · rintro (h' | h')
        · exact absurd h'.1.symm hs
        · exact h'
  · intro k n hn h1 h2
    rcases hmid.mem k n hn with h' | h'
    · exact h.xn k n h' h1 h2
    · exact h'.xs
  · intro k a b c ha hb
    show _ ↔ ∃ n, Live mn mx stA k n ∧ n.x ≤ a ∧ n.y ≤ b ∧ n.z ≤ c
    rcases lt_or_ge c p.z with hc | hc
    · rw [cnt3_cons_lt hc, h.cov k a b c ha hb]
      constructor
      · rintro ⟨n, h1, h2, h3, h4⟩
        exact ⟨n, (hlive k n).mpr (Or.inl ⟨h1, Or.inl (h4.trans_lt hc)⟩), h2, h3, h4⟩
      · rintro ⟨n, h1, h2, h3, h4⟩
        rcases (hlive k n).mp h1 with h' | ⟨-, h'⟩
        · exact ⟨n, h'.1, h2, h3, h4⟩
        · exact absurd (h'.z ▸ h4) (not_le.mpr hc)
    · rw [cnt3_eq_cnt2 (fun q hq => (hpz q hq).trans hc), ← hreg k a b ha hb]
      constructor
      · rintro ⟨n, hn, h1, h2⟩
        have hin := (hmid.lvl k).inner hn ha hb h1 h2
        exact ⟨n, Or.inr ⟨hn, hin.1, hin.2.1⟩, h1, h2, (hzlvl k n hn hin.1 hin.2.1).trans hc⟩
      · rintro ⟨n, h1 | h1, h2, h3, -⟩
        · obtain ⟨m, hm, h4, h5⟩ := (hregO k n h1).1
          exact ⟨m, hm, h4.trans h2, h5.trans h3⟩
        · exact ⟨n, h1.1, h2, h3⟩
  · intro k n m hn hm hx hy hz
    have hn' : Live mn mx stA k n := hn
    have hm' : Live mn mx stA k m := hm
    rcases (hlive k m).mp hm' with hmo | ⟨hmL, hmn⟩
    · rcases (hlive k n).mp hn' with hno | ⟨hnL, hnn⟩
      · exact h.anti k n m hno.1 hmo.1 hx hy hz
      · -- the old node has the third coordinate of the new point, so it is in the level
        have hmz : m.z = p.z := le_antisymm (hlzA k m hm') (hnn.z ▸ hz)
        have hmL : m ∈ stA.levels k := by
          rcases hm' with h' | h'
          · exact absurd hmz (hzout k m h').1.ne
          · exact h'.1
        exact lvl_eq_of_le (hmid.lvl k).sorted hnL hmL hx hy
    · rcases (hlive k n).mp hn' with hno | ⟨hnL, hnn⟩
      · exfalso
        obtain ⟨⟨q, hq, h1, h2⟩, -⟩ := hlreg k n hno.1
        exact hmn.nreg ⟨q, hq, h1.trans hx, h2.trans hy⟩
      · exact lvl_eq_of_le (hmid.lvl k).sorted hnL hmL hx hy
  · intro k
    obtain ⟨R, hR, hnd, hmem⟩ := hmid.outs k
    show (stA.outs k).Nodup
    rw [hR, List.nodup_append]
    refine ⟨h.nodup k, hnd, ?_⟩
    intro a ha b hb e
    subst e
    exact h.disj k a ha ((hmem a).mp hb).1
  · intro k n hn hL
    obtain ⟨hz, h1 | h1⟩ := hzout k n hn
    · rcases hmid.mem k n hL with h2 | h2
      · exact h.disj k n h1 h2
      · exact absurd h2.z hz.ne
    · exact h1.2 hL

end

end Moo
