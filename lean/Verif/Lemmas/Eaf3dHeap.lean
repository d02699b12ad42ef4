import Verif.Lemmas.Eaf3dInv

/-!
# The pointers `promoter`, `remover` and `equal` of `eaf3df`
-/

set_option autoImplicit false
set_option linter.unusedSectionVars false

namespace Moo

variable {α : Type*} [LinearOrder α]

/-- What the proof remembers of every allocated node, by its number: the node, its level, and the runs of the nodes that are reached by `promoter`. -/
structure Ghost (α : Type*) where
  tab : ℕ → LNode α
  lev : ℕ → ℕ
  ch : ℕ → Finset ℕ

/-- The node was allocated. -/
def Alloc (fresh : ℕ) (g : Ghost α) (n : LNode α) : Prop := 2 ≤ n.id ∧ n.id < fresh ∧ g.tab n.id = n

/-- `m` is at least as good as `n` in all coordinates. -/
def NLe (m n : LNode α) : Prop := m.x ≤ n.x ∧ m.y ≤ n.y ∧ m.z ≤ n.z
/-- The same coordinates. -/
def NEq (m n : LNode α) : Prop := m.x = n.x ∧ m.y = n.y ∧ m.z = n.z

theorem NEq.symm {m n : LNode α} (h : NEq m n) : NEq n m := ⟨h.1.symm, h.2.1.symm, h.2.2.symm⟩
theorem NEq.trans {m n o : LNode α} (h : NEq m n) (h' : NEq n o) : NEq m o := ⟨h.1.trans h'.1, h.2.1.trans h'.2.1, h.2.2.trans h'.2.2⟩

/-- The pointers of the allocated nodes. -/
structure HInv (nset : ℕ) (P : List (Pt3 α)) (h : Heap3 α) (g : Ghost α) : Prop where
  lev : ∀ i, 2 ≤ i → i < h.fresh → g.lev i < nset
  card : ∀ i, 2 ≤ i → i < h.fresh → (g.ch i).card = g.lev i + 1
  att : ∀ i, 2 ≤ i → i < h.fresh → ∀ s ∈ g.ch i, s < nset ∧ At3 P s (g.tab i).x (g.tab i).y (g.tab i).z
  prom : ∀ i, 2 ≤ i → i < h.fresh → (h.prom i = none ∧ g.ch i = {(g.tab i).set}) ∨
    ∃ m, h.prom i = some m ∧ Alloc h.fresh g m ∧ g.lev i = g.lev m.id + 1 ∧ NLe m (g.tab i) ∧ g.ch i = insert (g.tab i).set (g.ch m.id)
  rem : ∀ i, 2 ≤ i → i < h.fresh → ∀ m, h.rem i = some m → Alloc h.fresh g m ∧ i < m.id ∧ g.lev m.id = g.lev i ∧ NLe m (g.tab i)
  eql : ∀ i, 2 ≤ i → i < h.fresh → ∀ m, h.eql i = some m → Alloc h.fresh g m ∧ g.lev m.id = g.lev i + 1 ∧ NEq m (g.tab i)

/-- The invariant of the main loop for the pointers. -/
structure HG (mn mx : α) (nset : ℕ) (P : List (Pt3 α)) (st : St3 α) (g : Ghost α) : Prop where
  heap : HInv nset P st.heap g
  live : ∀ k n, Live mn mx st k n → Alloc st.heap.fresh g n ∧ g.lev n.id = k
  eq : ∀ k n m, Live mn mx st k n → Live mn mx st (k + 1) m → NEq n m → st.heap.eql n.id = some m
  full : ∀ k n, Live mn mx st k n → ∀ s, s < nset → At3 P s n.x n.y n.z → s ∈ g.ch n.id ∨ ∃ j m, k < j ∧ Live mn mx st j m ∧ NEq n m ∧ m.set = s

/-- The pointers during an iteration. -/
structure HMid (C : Ctx3 α) (P : List (Pt3 α)) (g0 : Ghost α) (st : St3 α) (g : Ghost α) : Prop where
  heap : HInv C.nset (C.p :: P) st.heap g
  ext : ∀ i, i < C.st.heap.fresh → g.tab i = g0.tab i ∧ g.lev i = g0.lev i ∧ g.ch i = g0.ch i
  live : ∀ k, ∀ n ∈ st.levels k, C.mn < n.x → n.x < C.mx → Alloc st.heap.fresh g n ∧ g.lev n.id = k
  two : 2 ≤ C.st.heap.fresh
  eqNew : ∀ k, ∀ m ∈ st.levels (k + 1), NewNode C (k + 1) m → ∀ n ∈ C.L k, C.mn < n.x → n.x < C.mx → NEq n m → st.heap.eql n.id = some m
  eqOld : ∀ k n, Live C.mn C.mx C.st k n → Reg (C.L (k + 1)) n.x n.y → st.heap.eql n.id = C.st.heap.eql n.id

theorem Alloc.ext {C : Ctx3 α} {g0 g : Ghost α} {f : ℕ} {n : LNode α} (h : Alloc C.st.heap.fresh g0 n) (hf : C.st.heap.fresh ≤ f)
    (he : ∀ i, i < C.st.heap.fresh → g.tab i = g0.tab i ∧ g.lev i = g0.lev i ∧ g.ch i = g0.ch i) : Alloc f g n :=
  ⟨h.1, h.2.1.trans_le hf, by rw [(he _ h.2.1).1]; exact h.2.2⟩

/-- The ghost after an allocation. -/
def Ghost.add (g : Ghost α) (nn : LNode α) (j : ℕ) (c : Finset ℕ) : Ghost α := ⟨upd g.tab nn.id nn, upd g.lev nn.id j, upd g.ch nn.id c⟩

theorem Alloc.add {g : Ghost α} {f : ℕ} {n nn : LNode α} (h : Alloc f g n) (hn : nn.id = f) (j : ℕ) (c : Finset ℕ) : Alloc (f + 1) (g.add nn j c) n := by
  refine ⟨h.1, h.2.1.trans (Nat.lt_succ_self _), ?_⟩
  show upd g.tab nn.id nn n.id = n
  rw [upd_ne _ _ (by have := h.2.1; omega)]
  exact h.2.2

theorem Ghost.add_tab {g : Ghost α} {nn : LNode α} {j : ℕ} {c : Finset ℕ} {i : ℕ} (h : i ≠ nn.id) : (g.add nn j c).tab i = g.tab i := upd_ne _ _ h
theorem Ghost.add_lev {g : Ghost α} {nn : LNode α} {j : ℕ} {c : Finset ℕ} {i : ℕ} (h : i ≠ nn.id) : (g.add nn j c).lev i = g.lev i := upd_ne _ _ h
theorem Ghost.add_ch {g : Ghost α} {nn : LNode α} {j : ℕ} {c : Finset ℕ} {i : ℕ} (h : i ≠ nn.id) : (g.add nn j c).ch i = g.ch i := upd_ne _ _ h
theorem Ghost.add_tab' {g : Ghost α} {nn : LNode α} {j : ℕ} {c : Finset ℕ} : (g.add nn j c).tab nn.id = nn := upd_same _ _ _
theorem Ghost.add_lev' {g : Ghost α} {nn : LNode α} {j : ℕ} {c : Finset ℕ} : (g.add nn j c).lev nn.id = j := upd_same _ _ _
theorem Ghost.add_ch' {g : Ghost α} {nn : LNode α} {j : ℕ} {c : Finset ℕ} : (g.add nn j c).ch nn.id = c := upd_same _ _ _

section
variable {C : Ctx3 α} {P : List (Pt3 α)} {g0 g : Ghost α} {st st' : St3 α}

theorem HMid.promo (ok : C.Ok) (hsreg : ∀ a b, a < C.mx → b < C.mx → (SReg C.S a b ↔ At2 P C.p.set a b)) (hset : C.p.set < C.nset)
    (hg0 : HG C.mn C.mx C.nset P C.st g0) (m : Mid C st) (hm : HMid C P g0 st g) (h : Promo C st st') : ∃ g', HMid C P g0 st' g' := by
  rcases h.cases ok m with ⟨_, _, _, rfl, -⟩ | ⟨j, x, y, pr, st1, hj, hx, hy, hpx, hpy, hS, hxs, hpr, hreg, hA, he⟩
  · exact ⟨g, hm⟩
  obtain ⟨nn, hnn⟩ : ∃ nn : LNode α, nn = ⟨st.heap.fresh, x, y, C.p.z, C.p.set⟩ := ⟨_, rfl⟩
  rw [← hnn] at hA
  rw [← hnn] at he
  have hnid : nn.id = st.heap.fresh := by rw [hnn]
  have hnx : nn.x = x := by rw [hnn]
  have hny : nn.y = y := by rw [hnn]
  have hnz : nn.z = C.p.z := by rw [hnn]
  have hns : nn.set = C.p.set := by rw [hnn]
  have hmx : ∀ k, ∀ n ∈ C.L k, n.x ≤ x → n.y ≤ y → C.mn < n.x ∧ n.x < C.mx ∧ C.mn < n.y ∧ n.y < C.mx := fun k n hn h1 h2 => (ok.lvl k).inner hn hx hy h1 h2
  have hlive0 : ∀ k, ∀ n ∈ C.L k, C.mn < n.x → n.x < C.mx → Alloc C.st.heap.fresh g0 n ∧ g0.lev n.id = k := fun k n hn h1 h2 => hg0.live k n (Or.inr ⟨hn, h1, h2⟩)
  -- the states differ only in `equal`
  have hsl : st'.levels = st1.levels ∧ st'.heap.fresh = st1.heap.fresh ∧ st'.heap.prom = st1.heap.prom ∧ st'.heap.rem = st1.heap.rem := by
    rcases he with ⟨mm, -, -, rfl⟩ | ⟨rfl, -⟩ <;> exact ⟨rfl, rfl, rfl, rfl⟩
  obtain ⟨hsl, hsf, hsp, hsr⟩ := hsl
  have hfresh : st'.heap.fresh = st.heap.fresh + 1 := by rw [hsf, hA.fresh]
  have hseq : ∀ i, (st'.heap.eql i = upd st.heap.eql nn.id none i) ∨
      (st'.heap.eql i = some nn ∧ ∃ k mm, pr = some mm ∧ j = k + 1 ∧ mm ∈ C.L k ∧ mm.id = i ∧ NEq mm nn) := by
    intro i
    rcases he with ⟨mm, h1, h2, rfl⟩ | ⟨rfl, -⟩
    · by_cases hi : i = mm.id
      · right
        rcases hpr with ⟨h3, -⟩ | ⟨k, m', h3, h4, h5, h6, h7⟩
        · rw [h3] at h1
          simp at h1
        · rw [h3, Option.some.injEq] at h1
          subst h1
          refine ⟨?_, k, m', h3, h4, h5, hi.symm, h2.2.1.trans hnx.symm, h2.2.2.trans hny.symm, h2.1.trans hnz.symm⟩
          show upd st1.heap.eql m'.id (some nn) i = _
          rw [hi, upd_same]
      · left
        show upd st1.heap.eql mm.id (some nn) i = _
        rw [upd_ne _ _ hi, hA.eql]
    · left
      rw [hA.eql]
  -- the runs of the new node
  obtain ⟨c, hc⟩ : ∃ c : Finset ℕ, (pr = none ∧ c = {C.p.set}) ∨ ∃ mm, pr = some mm ∧ c = insert C.p.set (g.ch mm.id) := by
    cases pr with
    | none => exact ⟨_, Or.inl ⟨rfl, rfl⟩⟩
    | some mm => exact ⟨_, Or.inr ⟨mm, rfl, rfl⟩⟩
  have hF := m.fresh
  have h2 := hm.two
  have hmmem : ∀ n ∈ st.levels j, nn.x ≤ n.x → nn.y ≤ n.y → C.mn < n.x ∧ n.x < C.mx := by
    intro n hn h3 h4
    rcases (m.lvl j).bnd n hn with e | e | e
    · exfalso
      rw [e] at h3
      rw [hnx] at h3
      exact absurd (ok.px.1.trans_le (hpx.trans h3)) (lt_irrefl _)
    · exfalso
      rw [e] at h4
      rw [hny] at h4
      exact absurd (ok.py.1.trans_le (hpy.trans h4)) (lt_irrefl _)
    · exact ⟨e.1, e.2.1⟩
  refine ⟨g.add nn j c, ⟨⟨?_, ?_, ?_, ?_, ?_, ?_⟩, ?_, ?_, hm.two, ?_, ?_⟩⟩
  · intro i hi hi'
    by_cases hin : i = nn.id
    · rw [hin, Ghost.add_lev']
      exact hj
    · rw [Ghost.add_lev hin]
      exact hm.heap.lev i hi (by omega)
  · intro i hi hi'
    by_cases hin : i = nn.id
    · rw [hin, Ghost.add_lev', Ghost.add_ch']
      rcases hpr with ⟨h3, h4⟩ | ⟨k, mm, h3, h4, h5, h6, h7⟩
      · rcases hc with ⟨-, hc⟩ | ⟨m', hc, -⟩
        · rw [hc, h4]
          simp
        · rw [h3] at hc
          simp at hc
      · rcases hc with ⟨hc, -⟩ | ⟨m', hc, hc'⟩
        · rw [h3] at hc
          simp at hc
        · rw [h3, Option.some.injEq] at hc
          subst hc
          have hin := hmx k mm h5 h6 h7
          obtain ⟨hal, hlv⟩ := hlive0 k mm h5 hin.1 hin.2.1
          have hx0 := hm.ext mm.id hal.2.1
          have hnot : C.p.set ∉ g.ch mm.id := by
            rw [hx0.2.2]
            intro hmem
            have h8 := (hg0.heap.att mm.id hal.1 hal.2.1 _ hmem).2
            rw [hal.2.2] at h8
            exact hS ((hsreg x y hx hy).mpr (h8.at2.mono h6 h7))
          rw [hc', Finset.card_insert_of_notMem hnot, hx0.2.2, hg0.heap.card mm.id hal.1 hal.2.1, hlv, h4]
    · rw [Ghost.add_lev hin, Ghost.add_ch hin]
      exact hm.heap.card i hi (by omega)
  · intro i hi hi' s hs
    by_cases hin : i = nn.id
    · rw [hin, Ghost.add_ch'] at hs
      rw [hin, Ghost.add_tab', hnx, hny, hnz]
      have hself : At3 (C.p :: P) C.p.set x y C.p.z := at3_cons.mpr (Or.inl ⟨rfl, hpx, hpy, le_refl _⟩)
      rcases hpr with ⟨h3, h4⟩ | ⟨k, mm, h3, h4, h5, h6, h7⟩
      · rcases hc with ⟨-, hc⟩ | ⟨m', hc, -⟩
        · rw [hc, Finset.mem_singleton] at hs
          subst hs
          exact ⟨hset, hself⟩
        · rw [h3] at hc
          simp at hc
      · rcases hc with ⟨hc, -⟩ | ⟨m', hc, hc'⟩
        · rw [h3] at hc
          simp at hc
        · rw [h3, Option.some.injEq] at hc
          subst hc
          rw [hc', Finset.mem_insert] at hs
          rcases hs with rfl | hs
          · exact ⟨hset, hself⟩
          · have hin := hmx k mm h5 h6 h7
            obtain ⟨hal, hlv⟩ := hlive0 k mm h5 hin.1 hin.2.1
            have h8 := hm.heap.att mm.id hal.1 (hal.2.1.trans_le hF) s hs
            rw [(hm.ext mm.id hal.2.1).1, hal.2.2] at h8
            exact ⟨h8.1, h8.2.mono h6 h7 (ok.zs k mm h5 hin.1 hin.2.1)⟩
    · rw [Ghost.add_ch hin] at hs
      rw [Ghost.add_tab hin]
      exact hm.heap.att i hi (by omega) s hs
  · intro i hi hi'
    rw [hsp, hA.prom, hfresh]
    by_cases hin : i = nn.id
    · rw [hin, Ghost.add_tab', Ghost.add_ch', Ghost.add_lev', upd_same]
      rcases hpr with ⟨h3, h4⟩ | ⟨k, mm, h3, h4, h5, h6, h7⟩
      · rcases hc with ⟨-, hc⟩ | ⟨m', hc, -⟩
        · exact Or.inl ⟨h3, by rw [hc, hns]⟩
        · rw [h3] at hc
          simp at hc
      · rcases hc with ⟨hc, -⟩ | ⟨m', hc, hc'⟩
        · rw [h3] at hc
          simp at hc
        · rw [h3, Option.some.injEq] at hc
          subst hc
          have hin := hmx k mm h5 h6 h7
          obtain ⟨hal, hlv⟩ := hlive0 k mm h5 hin.1 hin.2.1
          have hne : mm.id ≠ nn.id := by have := hal.2.1; omega
          refine Or.inr ⟨mm, h3, (hal.ext hF hm.ext).add hnid j c, ?_, ⟨h6.trans hnx.ge, h7.trans hny.ge, (ok.zs k mm h5 hin.1 hin.2.1).trans hnz.ge⟩, ?_⟩
          · rw [Ghost.add_lev hne, (hm.ext mm.id hal.2.1).2.1, hlv, h4]
          · rw [Ghost.add_ch hne, hc', hns]
    · rw [upd_ne _ _ hin, Ghost.add_tab hin, Ghost.add_ch hin, Ghost.add_lev hin]
      rcases hm.heap.prom i hi (by omega) with h3 | ⟨mm, h3, h4, h5, h6, h7⟩
      · exact Or.inl h3
      · have hne : mm.id ≠ nn.id := by have := h4.2.1; omega
        exact Or.inr ⟨mm, h3, h4.add hnid j c, by rw [Ghost.add_lev hne]; exact h5, h6, by rw [Ghost.add_ch hne]; exact h7⟩
  · intro i hi hi' mm hmm
    rw [hsr] at hmm
    rw [hfresh]
    rcases hA.rem i with h3 | ⟨h3, n, hn, h4, h5, h6, h7⟩
    · rw [h3] at hmm
      by_cases hin : i = nn.id
      · rw [hin, upd_same] at hmm
        simp at hmm
      · rw [upd_ne _ _ hin] at hmm
        obtain ⟨h4, h5, h6, h7⟩ := hm.heap.rem i hi (by omega) mm hmm
        have hne : mm.id ≠ nn.id := by have := h4.2.1; omega
        exact ⟨h4.add hnid j c, h5, by rw [Ghost.add_lev hne, Ghost.add_lev hin]; exact h6, by rw [Ghost.add_tab hin]; exact h7⟩
    · rw [h3, Option.some.injEq] at hmm
      subst hmm
      have hb := hmmem n hn h5 h6
      obtain ⟨hal, hlv⟩ := hm.live j n hn hb.1 hb.2
      have hin : i ≠ nn.id := by have := hal.2.1; omega
      refine ⟨⟨by omega, by omega, Ghost.add_tab'⟩, by have := hal.2.1; omega, ?_, ?_⟩
      · rw [Ghost.add_lev', Ghost.add_lev hin, ← h4, hlv]
      · rw [Ghost.add_tab hin, ← h4, hal.2.2]
        exact ⟨h5, h6, not_lt.mp h7⟩
  · intro i hi hi' mm hmm
    rw [hfresh]
    rcases hseq i with h3 | ⟨h3, k, n, h4, h5, h6, h7, h8⟩
    · rw [h3] at hmm
      by_cases hin : i = nn.id
      · rw [hin, upd_same] at hmm
        simp at hmm
      · rw [upd_ne _ _ hin] at hmm
        obtain ⟨h4, h5, h6⟩ := hm.heap.eql i hi (by omega) mm hmm
        have hne : mm.id ≠ nn.id := by have := h4.2.1; omega
        exact ⟨h4.add hnid j c, by rw [Ghost.add_lev hne, Ghost.add_lev hin]; exact h5, by rw [Ghost.add_tab hin]; exact h6⟩
    · rw [h3, Option.some.injEq] at hmm
      subst hmm
      have hb := hmx k n h6 (h8.1.le.trans hnx.le) (h8.2.1.le.trans hny.le)
      obtain ⟨hal, hlv⟩ := hlive0 k n h6 hb.1 hb.2.1
      have hin : i ≠ nn.id := by have := hal.2.1; omega
      have hx0 := hm.ext n.id hal.2.1
      refine ⟨⟨by omega, by omega, Ghost.add_tab'⟩, ?_, ?_⟩
      · rw [Ghost.add_lev', Ghost.add_lev hin, ← h7, hx0.2.1, hlv, h5]
      · rw [Ghost.add_tab hin, ← h7, hx0.1, hal.2.2]
        exact h8.symm
  · intro i hi
    have hin : i ≠ nn.id := by omega
    rw [Ghost.add_tab hin, Ghost.add_lev hin, Ghost.add_ch hin]
    exact hm.ext i hi
  · intro k n hn h3 h4
    rw [hsl] at hn
    rw [hfresh]
    have hold : n ∈ st.levels k → Alloc (st.heap.fresh + 1) (g.add nn j c) n ∧ (g.add nn j c).lev n.id = k := by
      intro hn
      obtain ⟨hal, hlv⟩ := hm.live k n hn h3 h4
      exact ⟨hal.add hnid j c, by rw [Ghost.add_lev (by have := hal.2.1; omega)]; exact hlv⟩
    by_cases hk : k = j
    · subst hk
      rcases (hA.mem n).mp hn with rfl | h5
      · exact ⟨⟨by omega, by omega, Ghost.add_tab'⟩, Ghost.add_lev'⟩
      · exact hold h5.1
    · rw [(hA.other k hk).1] at hn
      exact hold hn
  · intro k mm hmm hnew n hn hnx' hnx'' hEq
    rw [hsl] at hmm
    obtain ⟨hal, hlv⟩ := hlive0 k n hn hnx' hnx''
    have hin : n.id ≠ nn.id := by have := hal.2.1; omega
    -- the case of a node that was already there
    have hold : mm ∈ st.levels (k + 1) → st'.heap.eql n.id = some mm := by
      intro hmm'
      have h3 := hm.eqNew k mm hmm' hnew n hn hnx' hnx'' hEq
      rcases hseq n.id with h4 | ⟨h4, k', n', h5, h6, h7, h8, h9⟩
      · rw [h4, upd_ne _ _ hin]
        exact h3
      · exfalso
        have hb := hmx k' n' h7 (h9.1.le.trans hnx.le) (h9.2.1.le.trans hny.le)
        obtain ⟨hal', hlv'⟩ := hlive0 k' n' h7 hb.1 hb.2.1
        have hnn' : n' = n := by rw [← hal'.2.2, ← hal.2.2, h8]
        have hkk : k' = k := by rw [← hlv', ← hlv, h8]
        subst hnn' hkk
        rw [← h6] at hmm'
        exact hreg ⟨mm, hmm', by rw [← hEq.1, h9.1, hnx], by rw [← hEq.2.1, h9.2.1, hny]⟩
    by_cases hk : k + 1 = j
    · rw [hk] at hmm
      rcases (hA.mem mm).mp hmm with rfl | h5
      · rcases hpr with ⟨-, h4⟩ | ⟨k', m', h3, h4, h5, h6, h7⟩
        · omega
        · have hkk : k' = k := by omega
          subst hkk
          have hmn : m' = n := lvl_eq_of_le (ok.lvl k').sorted h5 hn (by rw [hEq.1, hnx]; exact h6) (by rw [hEq.2.1, hny]; exact h7)
          subst hmn
          rcases he with ⟨m2, h8, -, rfl⟩ | ⟨-, h8⟩
          · rw [h3, Option.some.injEq] at h8
            subst h8
            show upd st1.heap.eql m'.id (some mm) m'.id = _
            rw [upd_same]
          · exact absurd ⟨by rw [hEq.2.2, hnz], by rw [hEq.1, hnx], by rw [hEq.2.1, hny]⟩ (h8 m' h3)
      · rw [← hk] at h5
        exact hold h5.1
    · rw [(hA.other (k + 1) hk).1] at hmm
      exact hold hmm
  · intro k n hn hR
    rw [← hm.eqOld k n hn hR]
    obtain ⟨hal, hlv⟩ := hg0.live k n hn
    have hin : n.id ≠ nn.id := by have := hal.2.1; omega
    rcases hseq n.id with h4 | ⟨h4, k', n', h5, h6, h7, h8, h9⟩
    · rw [h4, upd_ne _ _ hin]
    · exfalso
      have hb := hmx k' n' h7 (h9.1.le.trans hnx.le) (h9.2.1.le.trans hny.le)
      obtain ⟨hal', hlv'⟩ := hlive0 k' n' h7 hb.1 hb.2.1
      have hnn' : n' = n := by rw [← hal'.2.2, ← hal.2.2, h8]
      have hkk : k' = k := by rw [← hlv', ← hlv, h8]
      subst hnn' hkk
      have := m.mono (k' + 1) _ _ hR
      rw [← h6, h9.1, h9.2.1, hnx, hny] at this
      exact hreg this

theorem HMid.steps (ok : C.Ok) (hsreg : ∀ a b, a < C.mx → b < C.mx → (SReg C.S a b ↔ At2 P C.p.set a b)) (hset : C.p.set < C.nset)
    (hg0 : HG C.mn C.mx C.nset P C.st g0) (m : Mid C st) (hm : HMid C P g0 st g) (h : Steps C st st') : ∃ g', HMid C P g0 st' g' := by
  induction h with
  | refl => exact ⟨g, hm⟩
  | tail h1 h2 ih =>
    obtain ⟨g', hg'⟩ := ih
    exact hg'.promo ok hsreg hset hg0 (Steps.mid ok m h1) h2

theorem HInv.cons (h : HInv C.nset P st.heap g) (p : Pt3 α) : HInv C.nset (p :: P) st.heap g :=
  ⟨h.lev, h.card, fun i hi hi' s hs => ⟨(h.att i hi hi' s hs).1, at3_cons.mpr (Or.inr (h.att i hi hi' s hs).2)⟩, h.prom, h.rem, h.eql⟩

theorem HMid.start (hg0 : HG C.mn C.mx C.nset P C.st g0) (h2 : 2 ≤ C.st.heap.fresh) : HMid C P g0 C.st g0 where
  heap := hg0.heap.cons C.p
  ext := fun i _ => ⟨rfl, rfl, rfl⟩
  live := fun k n hn h1 h2 => hg0.live k n (Or.inr ⟨hn, h1, h2⟩)
  two := h2
  eqNew := by
    intro k m hm hnew
    exact absurd ⟨m, hm, le_refl _, le_refl _⟩ hnew.nreg
  eqOld := fun _ _ _ _ => rfl

end

end Moo
