import Verif.Lemmas.Eaf3dHeap

/-!
# The main loop of `eaf3df`
-/

set_option autoImplicit false
set_option linter.unusedSectionVars false

namespace Moo

variable {α : Type*} [LinearOrder α]

section
variable {mn mx junk : α} {nset : ℕ} {xs : α → Prop} {P : List (Pt3 α)} {zb : α} {st : St3 α} {p : Pt3 α}

theorem Inv3.live_bounds (h : Inv3 mn mx junk nset xs P zb st) {k : ℕ} {n : LNode α} (hn : Live mn mx st k n) :
    Reg (st.levels k) n.x n.y ∧ mn < n.x ∧ n.x < mx ∧ mn < n.y ∧ n.y < mx := by
  rcases hn with h1 | ⟨h1, h2, h3⟩
  · exact h.oreg k n h1
  · exact ⟨⟨n, h1, le_refl _, le_refl _⟩, h2, h3, (h.lvl k).inner' h1 h2 h3⟩

theorem Inv3.live_z (h : Inv3 mn mx junk nset xs P zb st) {k : ℕ} {n : LNode α} (hn : Live mn mx st k n) : n.z ≤ zb := by
  rcases hn with h1 | ⟨h1, h2, h3⟩
  · exact (h.zo k n h1).le
  · exact h.zs k n h1 h2 h3

theorem Inv3.live_count (h : Inv3 mn mx junk nset xs P zb st) {k : ℕ} {n : LNode α} (hn : Live mn mx st k n) : k + 1 ≤ cnt3 P nset n.x n.y n.z :=
  (h.cov k n.x n.y n.z (h.live_bounds hn).2.2.1 (h.live_bounds hn).2.2.2.2).mpr ⟨n, hn, le_refl _, le_refl _, le_refl _⟩

/-- A live node is live, with other nodes, in all the higher levels that its number of runs allows. -/
theorem Inv3.live_equal (h : Inv3 mn mx junk nset xs P zb st) {k j : ℕ} {n : LNode α} (hn : Live mn mx st k n) (hkj : k ≤ j)
    (hj : j + 1 ≤ cnt3 P nset n.x n.y n.z) : ∃ m, Live mn mx st j m ∧ NEq n m := by
  have hb := h.live_bounds hn
  obtain ⟨m, hm, h1, h2, h3⟩ := (h.cov j _ _ _ hb.2.2.1 hb.2.2.2.2).mp hj
  have hbm := h.live_bounds hm
  have hc := h.live_count hm
  obtain ⟨n', hn', h4, h5, h6⟩ := (h.cov k _ _ _ hbm.2.2.1 hbm.2.2.2.2).mp (by omega : k + 1 ≤ cnt3 P nset m.x m.y m.z)
  have he := h.anti k n' n hn' hn (h4.trans h1) (h5.trans h2) (h6.trans h3)
  rw [he] at h4 h5 h6
  exact ⟨m, hm, le_antisymm h4 h1, le_antisymm h5 h2, le_antisymm h6 h3⟩

theorem cnt3_cons_le {n : ℕ} {a b c : α} : cnt3 P n a b c ≤ cnt3 (p :: P) n a b c := by
  classical
  apply Finset.card_le_card
  intro s hs
  rw [Finset.mem_filter] at *
  exact ⟨hs.1, at3_cons.mpr (Or.inr hs.2)⟩

theorem HG.skip (h : Inv3 mn mx junk nset xs P zb st) (hp : PtOk mn mx nset xs zb p) (hS : SReg (st.sets p.set) p.x p.y) {g : Ghost α} (hg : HG mn mx nset P st g) :
    HG mn mx nset (p :: P) st g := by
  have hA : At2 P p.set p.x p.y := (h.sreg _ _ _ hp.px.2 hp.py.2).mp hS
  refine ⟨⟨hg.heap.lev, hg.heap.card, fun i hi hi' s hs => ⟨(hg.heap.att i hi hi' s hs).1, at3_cons.mpr (Or.inr (hg.heap.att i hi hi' s hs).2)⟩, hg.heap.prom,
    hg.heap.rem, hg.heap.eql⟩, hg.live, hg.eq, ?_⟩
  intro k n hn s hs hat
  apply hg.full k n hn s hs
  rcases at3_cons.mp hat with ⟨rfl, h1, h2, h3⟩ | h'
  · exact (hA.mono h1 h2).at3 (fun q hq => (h.pz q hq).trans (hp.z.trans h3))
  · exact h'

theorem HG.new (h : Inv3 mn mx junk nset xs P zb st) (hp : PtOk mn mx nset xs zb p) {g0 g : Ghost α} (hg : HG mn mx nset P st g0)
    {stA st' : St3 α} (hmid : Mid (ctx3 mn mx junk nset xs st p) stA) (hm : HMid (ctx3 mn mx junk nset xs st p) P g0 stA g)
    (hl : st'.levels = stA.levels) (ho : st'.outs = stA.outs) (hh : st'.heap = stA.heap) (h' : Inv3 mn mx junk nset xs (p :: P) p.z st') :
    HG mn mx nset (p :: P) st' g := by
  have hLive : ∀ k n, Live mn mx st' k n ↔ Live mn mx stA k n := by
    intro k n
    unfold Live
    rw [hl, ho]
  have hlive : ∀ k n, Live mn mx st' k n ↔ _ := fun k n => (hLive k n).trans (hmid.live (h.lvl k) hp (n := n))
  have hF : st.heap.fresh ≤ stA.heap.fresh := hmid.fresh
  have hzold : ∀ k n, Live mn mx st' k n → Live mn mx st k n → n.z = p.z → n ∈ st.levels k ∧ n ∈ stA.levels k := by
    intro k n hn ho' hz
    constructor
    · rcases ho' with h1 | h1
      · exact absurd hz ((h.zo k n h1).trans_le hp.z).ne
      · exact h1.1
    · rcases hn with h1 | h1
      · exact absurd hz (h'.zo k n h1).ne
      · rw [hl] at h1
        exact h1.1
  refine ⟨by rw [hh]; exact hm.heap, ?_, ?_, ?_⟩
  · intro k n hn
    rw [hh]
    rcases (hlive k n).mp hn with ⟨h1, -⟩ | ⟨h1, h2⟩
    · obtain ⟨hal, hlv⟩ := hg.live k n h1
      exact ⟨hal.ext (C := ctx3 mn mx junk nset xs st p) hF hm.ext, by rw [(hm.ext n.id hal.2.1).2.1]; exact hlv⟩
    · exact hm.live k n h1 (hp.px.1.trans_le h2.px) h2.bx
  · intro k n m hn hm' hEq
    rw [hh]
    rcases (hlive k n).mp hn with ⟨hn1, hn2⟩ | ⟨hn1, hn2⟩
    · rcases (hlive (k + 1) m).mp hm' with ⟨hm1, hm2⟩ | ⟨hm1, hm2⟩
      · have hR : Reg (st.levels (k + 1)) n.x n.y := by
          rw [hEq.1, hEq.2.1]
          exact (h.live_bounds hm1).1
        have := hm.eqOld k n hn1 hR
        rw [this]
        exact hg.eq k n m hn1 hm1 hEq
      · have hz : n.z = p.z := hEq.2.2.trans hm2.z
        have hb := h.live_bounds hn1
        exact hm.eqNew k m hm1 hm2 n (hzold k n hn hn1 hz).1 hb.2.1 hb.2.2.1 hEq
    · exfalso
      have hR : Reg (st.levels k) n.x n.y := by
        rcases (hlive (k + 1) m).mp hm' with ⟨hm1, hm2⟩ | ⟨hm1, hm2⟩
        · have hb := h.live_bounds hm1
          have h1 := (h.reg (k + 1) _ _ hb.2.2.1 hb.2.2.2.2).mp hb.1
          rw [hEq.1, hEq.2.1]
          exact (h.reg k _ _ hb.2.2.1 hb.2.2.2.2).mpr (by omega)
        · rcases hm2.prev with h1 | h1
          · omega
          · rw [hEq.1, hEq.2.1]
            exact h1
      exact hn2.nreg hR
  · intro k n hn s hs hat
    have hb := h'.live_bounds hn
    rcases (hlive k n).mp hn with ⟨hn1, hn2⟩ | ⟨hn1, hn2⟩
    · obtain ⟨hal, hlv⟩ := hg.live k n hn1
      by_cases hP : At3 P s n.x n.y n.z
      · rcases hg.full k n hn1 s hs hP with h1 | ⟨j, m, h1, h2, h3, h4⟩
        · left
          rw [(hm.ext n.id hal.2.1).2.2]
          exact h1
        · refine Or.inr ⟨j, m, h1, ?_, h3, h4⟩
          have hcj := (h.live_count h2).trans (cnt3_cons_le (p := p))
          rw [← h3.1, ← h3.2.1, ← h3.2.2] at hcj
          obtain ⟨m', hm', hEq⟩ := h'.live_equal hn h1.le hcj
          rcases (hlive j m').mp hm' with ⟨h5, -⟩ | ⟨-, h5⟩
          · have h6 := h3.symm.trans hEq
            have : m = m' := h.anti j m m' h2 h5 h6.1.le h6.2.1.le h6.2.2.le
            rw [this]
            exact hm'
          · exfalso
            have h6 := (h3.symm.trans hEq)
            have h7 := (h.live_bounds h2).1
            rw [h6.1, h6.2.1] at h7
            exact h5.nreg h7
      · rcases at3_cons.mp hat with ⟨h1, h2, h3, h4⟩ | h1
        · right
          have hz : n.z = p.z := le_antisymm (h'.live_z hn) h4
          have hzP : ∀ q ∈ P, q.z ≤ n.z := fun q hq => (h.pz q hq).trans (hp.z.trans h4)
          have hA : ¬ At2 P p.set n.x n.y := fun h5 => hP (by rw [← h1]; exact h5.at3 hzP)
          have hc : cnt3 (p :: P) nset n.x n.y n.z = cnt3 P nset n.x n.y n.z + 1 := by
            rw [cnt3_eq_cnt2 hzP, cnt3_eq_cnt2 (fun q hq => by
              rcases List.mem_cons.mp hq with rfl | hq
              · exact h4
              · exact hzP q hq), cnt2_cons_new hp.set h2 h3 hA]
          have hk := h.live_count hn1
          obtain ⟨m, hm', hEq⟩ := h'.live_equal (j := cnt3 P nset n.x n.y n.z) hn (by omega) (by omega)
          refine ⟨_, m, by omega, hm', hEq, ?_⟩
          rcases (hlive _ m).mp hm' with ⟨h5, -⟩ | ⟨-, h5⟩
          · exfalso
            have := h.live_count h5
            rw [← hEq.1, ← hEq.2.1, ← hEq.2.2] at this
            omega
          · rw [h5.set, ← h1]
            rfl
        · exact absurd h1 hP
    · left
      have hz : n.z = p.z := hn2.z
      have hpz : ∀ q ∈ p :: P, q.z ≤ n.z := fun q hq => by rw [hz]; exact h'.pz q hq
      have hc : cnt2 P nset n.x n.y ≤ k := by
        by_contra hcon
        exact hn2.nreg ((h.reg k _ _ hb.2.2.1 hb.2.2.2.2).mpr (by omega))
      have hA : ¬ At2 P p.set n.x n.y := fun h5 => hn2.nset ((h.sreg _ _ _ hb.2.2.1 hb.2.2.2.2).mpr h5)
      have hc' : cnt3 (p :: P) nset n.x n.y n.z ≤ k + 1 := by
        rw [cnt3_eq_cnt2 hpz, cnt2_cons_new hp.set hn2.px hn2.py hA]
        omega
      obtain ⟨hal, hlv⟩ := hm.live k n hn1 (hp.px.1.trans_le hn2.px) hn2.bx
      classical
      have hsub : g.ch n.id ⊆ (Finset.range nset).filter (fun s => At3 (p :: P) s n.x n.y n.z) := by
        intro t ht
        have := hm.heap.att n.id hal.1 hal.2.1 t ht
        rw [hal.2.2] at this
        rw [Finset.mem_filter, Finset.mem_range]
        exact this
      have hcard := hm.heap.card n.id hal.1 hal.2.1
      have heq := Finset.eq_of_subset_of_card_le hsub (by
        rw [hcard, hlv]
        unfold cnt3 at hc'
        convert hc')
      rw [heq, Finset.mem_filter, Finset.mem_range]
      exact ⟨hs, hat⟩

/-- A level has at most two nodes more than there are first coordinates. -/
theorem IsLvl.length_le {L : List (LNode α)} (h : IsLvl mn mx junk L) {X : List α} (hX : ∀ n ∈ L, mn < n.x → n.x < mx → n.x ∈ X) : L.length ≤ X.length + 2 := by
  have hnd : (L.map (fun n => n.x)).Nodup := by
    rw [List.Nodup, List.pairwise_map]
    exact h.sorted.imp (fun h' => h'.1.ne)
  have hsub : L.map (fun n => n.x) ⊆ mn :: mx :: X := by
    intro a ha
    obtain ⟨n, hn, rfl⟩ := List.mem_map.mp ha
    rcases h.bnd n hn with e | e | e
    · rw [e]; simp [headNode]
    · rw [e]; simp [tailNode]
    · simp [hX n hn e.1 e.2.1]
  have := (List.subperm_of_subset hnd hsub).length_le
  simpa using this

/-- The main loop. -/
theorem eaf3dLoop_spec {X : List α} {fuel : ℕ} (hfuel : X.length + 3 ≤ fuel) : ∀ (ps : List (Pt3 α)) (P : List (Pt3 α)) (zb : α) (start : ℕ) (mask : ℕ → Bool) (st : St3 α) (g : Ghost α),
    Inv3 mn mx junk nset (· ∈ X) P zb st → InvM nset P start mask → HG mn mx nset P st g → 2 ≤ st.heap.fresh →
    (∀ p ∈ ps, mn < p.x ∧ p.x < mx ∧ mn < p.y ∧ p.y < mx ∧ p.x ∈ X ∧ p.set < nset ∧ zb ≤ p.z) → ps.Pairwise (fun p q => p.z ≤ q.z) →
    ∃ st' zb' g', eaf3dLoop nset fuel ps start mask st = some st' ∧ Inv3 mn mx junk nset (· ∈ X) (ps.reverse ++ P) zb' st' ∧
      HG mn mx nset (ps.reverse ++ P) st' g' := by
  intro ps
  induction ps with
  | nil =>
    intro P zb start mask st g h1 _ h2 _ _ _
    exact ⟨st, zb, g, rfl, by simpa using h1, by simpa using h2⟩
  | cons p ps ih =>
    intro P zb start mask st g h hM hg h2 hps hsort
    rw [List.pairwise_cons] at hsort
    have hp' := hps p (by simp)
    have hp : PtOk mn mx nset (· ∈ X) zb p := ⟨⟨hp'.1, hp'.2.1⟩, ⟨hp'.2.2.1, hp'.2.2.2.1⟩, hp'.2.2.2.2.1, hp'.2.2.2.2.2.1, hp'.2.2.2.2.2.2⟩
    have hok := h.ok hp
    have hps' : ∀ q ∈ ps, mn < q.x ∧ q.x < mx ∧ mn < q.y ∧ q.y < mx ∧ q.x ∈ X ∧ q.set < nset ∧ p.z ≤ q.z := by
      intro q hq
      have := hps q (by simp [hq])
      exact ⟨this.1, this.2.1, this.2.2.1, this.2.2.2.1, this.2.2.2.2.1, this.2.2.2.2.2.1, hsort.1 q hq⟩
    have hrev : (p :: ps).reverse ++ P = ps.reverse ++ (p :: P) := by simp
    rw [hrev]
    unfold eaf3dLoop
    by_cases hS : SReg (st.sets p.set) p.x p.y
    · have e := eaf3dStep_skip hok hp.set (fuel := fuel) (start := start) (mask := mask) hS
      have e' : eaf3dStep nset fuel p start mask st = some (start, mask, st) := e
      rw [e']
      obtain ⟨q, hq, hqs, -⟩ := (h.sreg _ _ _ hp.px.2 hp.py.2).mp hS
      exact ih (p :: P) p.z start mask st g (h.skip hp hS) (hM.skip ⟨q, hq, hqs⟩) (HG.skip h hp hS hg) h2 hps' hsort.2
    · obtain ⟨st', e, hres⟩ := eaf3dStep_new hok hp.set (fuel := fuel) (start := start) (mask := mask) hS
        (by
          intro k _ a b ha hb hR hn
          have h3 := (h.reg k a b ha hb).mp hR
          have h4 : cnt2 P nset a b < nset := cnt2_lt hp.set (fun hA => hn ((h.sreg _ _ _ ha hb).mpr hA))
          show k + 1 < nset
          omega)
        (by
          intro k _
          have := (h.lvl k).length_le (h.xn k)
          show (st.levels k).length < fuel
          omega)
      have e' : eaf3dStep nset fuel p start mask st = _ := e
      rw [e']
      obtain ⟨stA, S', hsteps, rfl, hS', hSreg, stop, hstop, hpstop, hlow, hfull⟩ := hres.exists_steps
      have hmid := hsteps.mid hok (Mid.start hok)
      have hI := h.new hp (fun a b hA => hM.bound hp.set a b hA) hmid hstop hpstop hlow hfull hS' hSreg
      obtain ⟨g', hg'⟩ := (HMid.start (C := ctx3 mn mx junk nset (· ∈ X) st p) hg h2).steps hok
        (fun a b ha hb => h.sreg p.set a b ha hb) hp.set hg (Mid.start hok) hsteps
      have hG := HG.new h hp hg hmid hg' (st' := { stA with sets := upd st.sets p.set S' }) rfl rfl rfl hI
      exact ih (p :: P) p.z _ _ _ g' hI (hM.new hp.set) hG (h2.trans hmid.fresh) hps' hsort.2

/-- The state before the first point. -/
theorem Inv3.init (hmm : mn < mx) (zb : α) : Inv3 mn mx junk nset xs [] zb (eaf3dInit mn mx junk) := by
  have hlvl : IsLvl mn mx junk [headNode mn mx junk, tailNode mn mx junk] := by
    refine ⟨?_, by simp, by simp, ?_⟩
    · simp [LLt, headNode, tailNode, hmm]
    · intro n hn
      simp only [List.mem_cons, List.not_mem_nil, or_false] at hn
      rcases hn with h | h
      · exact Or.inl h
      · exact Or.inr (Or.inl h)
  have hno : ∀ a b, a < mx → b < mx → ¬ Reg [headNode mn mx junk, tailNode mn mx junk] a b := by
    rintro a b ha hb ⟨n, hn, h1, h2⟩
    simp only [List.mem_cons, List.not_mem_nil, or_false] at hn
    rcases hn with rfl | rfl
    · exact absurd (lt_of_le_of_lt h2 hb) (lt_irrefl _)
    · exact absurd (lt_of_le_of_lt h1 ha) (lt_irrefl _)
  have hin : ∀ n ∈ [headNode mn mx junk, tailNode mn mx junk], mn < n.x → n.x < mx → False := by
    intro n hn h1 h2
    simp only [List.mem_cons, List.not_mem_nil, or_false] at hn
    rcases hn with rfl | rfl
    · exact lt_irrefl _ h1
    · exact lt_irrefl _ h2
  have hlive : ∀ k n, ¬ Live mn mx (eaf3dInit mn mx junk) k n := by
    rintro k n (h | ⟨h1, h2, h3⟩)
    · exact absurd h (by simp [eaf3dInit])
    · exact hin n h1 h2 h3
  have hc3 : ∀ a b c, cnt3 ([] : List (Pt3 α)) nset a b c = 0 := by
    intro a b c
    classical
    unfold cnt3
    rw [Finset.card_eq_zero, Finset.filter_eq_empty_iff]
    rintro s - ⟨q, hq, -⟩
    simp at hq
  have hc2 : ∀ a b, cnt2 ([] : List (Pt3 α)) nset a b = 0 := by
    intro a b
    classical
    unfold cnt2
    rw [Finset.card_eq_zero, Finset.filter_eq_empty_iff]
    rintro s - ⟨q, hq, -⟩
    simp at hq
  refine ⟨fun _ => hlvl, ?_, ?_, ?_, by simp, ?_, ?_, ?_, ?_, ?_, ?_, ?_, ?_⟩
  · intro s
    refine ⟨?_, by simp [eaf3dInit], by simp [eaf3dInit], ?_⟩
    · simp [eaf3dInit, hmm]
    · intro q hq
      simp only [eaf3dInit, List.mem_cons, List.not_mem_nil, or_false] at hq
      rcases hq with h | h
      · exact Or.inl h
      · exact Or.inr (Or.inl h)
  · intro s a b ha hb
    constructor
    · rintro ⟨q, hq, h1, h2⟩
      simp only [eaf3dInit, List.mem_cons, List.not_mem_nil, or_false] at hq
      rcases hq with rfl | rfl
      · exact absurd (lt_of_le_of_lt h2 hb) (lt_irrefl _)
      · exact absurd (lt_of_le_of_lt h1 ha) (lt_irrefl _)
    · rintro ⟨q, hq, -⟩
      simp at hq
  · intro k a b ha hb
    rw [hc2]
    exact ⟨fun h => absurd h (hno a b ha hb), fun h => absurd h (by omega)⟩
  · exact fun k n hn h1 h2 => (hin n hn h1 h2).elim
  · exact fun k n hn h1 h2 => (hin n hn h1 h2).elim
  · exact fun k n hn => absurd hn (by simp [eaf3dInit])
  · exact fun k n hn => absurd hn (by simp [eaf3dInit])
  · intro k a b c ha hb
    rw [hc3]
    exact ⟨fun h => absurd h (by omega), fun ⟨n, h, _⟩ => absurd h (hlive k n)⟩
  · exact fun k n m hn => absurd hn (hlive k n)
  · exact fun k => by simp [eaf3dInit]
  · exact fun k n hn => absurd hn (by simp [eaf3dInit])

/-- The whole of `eaf3df`. -/
theorem eaf3df_spec {fuel : ℕ} {ps : List (Pt3 α)} (hfuel : ps.length + 3 ≤ fuel) (hne : ps ≠ [])
    (hps : ∀ p ∈ ps, mn < p.x ∧ p.x < mx ∧ mn < p.y ∧ p.y < mx ∧ p.set < nset) (hsort : ps.Pairwise (fun p q => p.z ≤ q.z)) :
    ∃ st P zb xs g, eaf3df nset fuel ps (eaf3dInit mn mx junk) = some st ∧ (∀ q, q ∈ P ↔ q ∈ ps) ∧ Inv3 mn mx junk nset xs P zb st ∧ HG mn mx nset P st g := by
  cases ps with
  | nil => exact absurd rfl hne
  | cons p ps =>
    rw [List.pairwise_cons] at hsort
    obtain ⟨X, hX⟩ : ∃ X : List α, X = (p :: ps).map (fun q => q.x) := ⟨_, rfl⟩
    have hXlen : X.length = (p :: ps).length := by rw [hX, List.length_map]
    have hXmem : ∀ q ∈ p :: ps, q.x ∈ X := fun q hq => by rw [hX]; exact List.mem_map.mpr ⟨q, hq, rfl⟩
    have hp' := hps p (by simp)
    have hmm : mn < mx := hp'.1.trans hp'.2.1
    obtain ⟨st0, hst0⟩ : ∃ st0, st0 = eaf3dInit mn mx junk := ⟨_, rfl⟩
    have h0 : Inv3 mn mx junk nset (· ∈ X) [] p.z st0 := by rw [hst0]; exact Inv3.init hmm _
    have hp : PtOk mn mx nset (· ∈ X) p.z p := ⟨⟨hp'.1, hp'.2.1⟩, ⟨hp'.2.2.1, hp'.2.2.2.1⟩, hXmem p (by simp), hp'.2.2.2.2, le_refl _⟩
    have hok := h0.ok hp
    have hn0 : 0 < nset := Nat.lt_of_le_of_lt (Nat.zero_le _) hp.set
    have hlive0 : ∀ k n, ¬ Live mn mx st0 k n := by
      intro k n hn
      have := h0.live_count hn
      have hc3 : cnt3 ([] : List (Pt3 α)) nset n.x n.y n.z = 0 := by
        classical
        unfold cnt3
        rw [Finset.card_eq_zero, Finset.filter_eq_empty_iff]
        rintro s - ⟨q, hq, -⟩
        simp at hq
      omega
    have hg0 : HG mn mx nset [] st0 ⟨fun _ => headNode mn mx junk, fun _ => 0, fun _ => ∅⟩ := by
      have hf : st0.heap.fresh = 2 := by rw [hst0]; rfl
      refine ⟨⟨?_, ?_, ?_, ?_, ?_, ?_⟩, fun k n h => absurd h (hlive0 k n), fun k n m h => absurd h (hlive0 k n), fun k n h => absurd h (hlive0 k n)⟩ <;>
      · intro i hi hi'
        omega
    obtain ⟨st1, hst1⟩ : ∃ st1 : St3 α, st1 = ⟨st0.sets, upd st0.levels 0 [headNode mn mx junk, ⟨st0.heap.fresh, p.x, p.y, p.z, p.set⟩, tailNode mn mx junk], st0.outs,
      ⟨st0.heap.fresh + 1, upd st0.heap.prom st0.heap.fresh none, upd st0.heap.rem st0.heap.fresh none, upd st0.heap.eql st0.heap.fresh none⟩⟩ := ⟨_, rfl⟩
    have hadd : add2level nset st0 0 p.x p.y p.z p.set none = some (st1, some ⟨st0.heap.fresh, p.x, p.y, p.z, p.set⟩) := by
      have hsp : levelSplit [headNode mn mx junk, tailNode mn mx junk] p.x p.y = ([headNode mn mx junk], [tailNode mn mx junk]) := by
        unfold levelSplit
        have h1 : decide (p.y < (headNode mn mx junk).y) = true := decide_eq_true hp.py.2
        have h2 : ¬ decide (p.y < (tailNode mn mx junk).y) = true := by
          rw [decide_eq_true_eq]
          exact not_lt.mpr hp.py.1.le
        rw [List.takeWhile_cons_of_pos (p := fun n : LNode α => decide (p.y < n.y)) h1, List.dropWhile_cons_of_pos (p := fun n : LNode α => decide (p.y < n.y)) h1,
          List.takeWhile_cons_of_neg (p := fun n : LNode α => decide (p.y < n.y)) h2, List.dropWhile_cons_of_neg (p := fun n : LNode α => decide (p.y < n.y)) h2]
        simp only
        rw [if_neg]
        rintro ⟨h3, -⟩
        exact absurd h3 hp.py.1.ne
      have hlv : st0.levels 0 = [headNode mn mx junk, tailNode mn mx junk] := by rw [hst0]; rfl
      unfold add2level
      rw [if_neg (not_not.mpr hn0), hlv, hsp]
      simp only
      have h3 : (tailNode mn mx junk).x > p.x := hp.px.2
      rw [if_pos h3]
      have h4 : ¬ (headNode mn mx junk).x ≥ p.x := not_le.mpr hp.px.1
      simp only [List.reverse_singleton]
      unfold levelRemove
      rw [if_neg h4]
      simp only
      rw [hst1]
      simp only [List.reverse_singleton]
      have ho' : upd st0.outs 0 (st0.outs 0) = st0.outs := by
        funext i
        unfold upd
        split
        · rename_i h; rw [h]
        · rfl
      rw [ho']
      rfl
    have hpromo : Promo (ctx3 mn mx junk nset (· ∈ X) st0 p) st0 st1 := by
      refine ⟨0, p.x, p.y, none, _, st1, hn0, hp.px.2, hp.py.2, le_refl _, le_refl _, ?_, hXmem p (by simp), Or.inl ⟨rfl, rfl⟩, hadd, Or.inr ⟨rfl, fun m t hm => by simp at hm⟩⟩
      intro hS
      obtain ⟨q, hq, -⟩ := (h0.sreg p.set p.x p.y hp.px.2 hp.py.2).mp hS
      simp at hq
    have hsteps : Steps (ctx3 mn mx junk nset (· ∈ X) st0 p) st0 st1 := Relation.ReflTransGen.single hpromo
    have hmid := hsteps.mid hok (Mid.start hok)
    have hset0 : st0.sets p.set = [(mn, mx), (mx, mn)] := by rw [hst0]; rfl
    have hc2 : ∀ a b, cnt2 ([] : List (Pt3 α)) nset a b = 0 := by
      intro a b
      classical
      unfold cnt2
      rw [Finset.card_eq_zero, Finset.filter_eq_empty_iff]
      rintro s - ⟨q, hq, -⟩
      simp at hq
    have hI : Inv3 mn mx junk nset (· ∈ X) [p] p.z { st1 with sets := upd st0.sets p.set [(mn, mx), (p.x, p.y), (mx, mn)] } := by
      refine h0.new hp (start := 0) (stop := 0) (fun a b _ => by rw [hc2]; omega) hmid (by omega) ?_ (Or.inl rfl) ?_ ?_ ?_
      · refine ⟨⟨st0.heap.fresh, p.x, p.y, p.z, p.set⟩, ?_, le_refl _, le_refl _⟩
        rw [hst1]
        show _ ∈ upd st0.levels 0 _ 0
        rw [upd_same]
        simp
      · intro k _ _ a b _ _ ha hb _ hR
        have := (h0.reg k a b ha hb).mp hR
        rw [hc2] at this
        omega
      · refine ⟨?_, by simp, by simp, ?_⟩
        · simp [hp.px.1, hp.px.2, hp.py.1, hp.py.2, hmm]
        · intro q hq
          simp only [List.mem_cons, List.not_mem_nil, or_false] at hq
          rcases hq with h | h | h
          · exact Or.inl h
          · exact Or.inr (Or.inr (by rw [h]; exact ⟨hp.px.1, hp.px.2, hp.py.1, hp.py.2⟩))
          · exact Or.inr (Or.inl h)
      · intro a b
        rw [hset0]
        unfold SReg
        simp only [List.mem_cons, List.not_mem_nil, or_false, exists_eq_or_imp, exists_eq_left]
        tauto
    obtain ⟨g', hg'⟩ := (HMid.start (C := ctx3 mn mx junk nset (· ∈ X) st0 p) hg0 (by rw [hst0]; exact le_refl 2)).steps hok
      (fun a b ha hb => h0.sreg p.set a b ha hb) hp.set hg0 (Mid.start hok) hsteps
    have hG := HG.new h0 hp hg0 hmid hg' (st' := { st1 with sets := upd st0.sets p.set [(mn, mx), (p.x, p.y), (mx, mn)] }) rfl rfl rfl hI
    have hM : InvM nset [p] 0 (upd (fun _ => false) p.set true) := by
      have hns : nsets (upd (fun _ => false) p.set true) nset = 1 := by
        unfold nsets
        rw [Finset.card_eq_one]
        refine ⟨p.set, ?_⟩
        ext s
        rw [Finset.mem_filter, Finset.mem_singleton, Finset.mem_range]
        by_cases hs : s = p.set
        · rw [hs, upd_same]
          simp [hp.set]
        · rw [upd_ne _ _ hs]
          simp [hs]
      refine ⟨?_, by rw [hns]; simp, by omega⟩
      intro s
      by_cases hs : s = p.set
      · rw [hs, upd_same]
        simp
      · rw [upd_ne _ _ hs]
        simp [Ne.symm hs]
    obtain ⟨st', zb', g2, e, hI', hG'⟩ := eaf3dLoop_spec (fuel := fuel) (X := X) (by omega) ps [p] p.z 0 _ _ g' hI hM hG
      (by rw [hst1, hst0]; show 2 ≤ 3; omega)
      (by
        intro q hq
        have := hps q (by simp [hq])
        exact ⟨this.1, this.2.1, this.2.2.1, this.2.2.2.1, hXmem q (by simp [hq]), this.2.2.2.2, hsort.1 q hq⟩)
      hsort.2
    refine ⟨st', ps.reverse ++ [p], zb', _, g2, ?_, ?_, hI', hG'⟩
    · unfold eaf3df
      dsimp only
      rw [if_neg (not_not.mpr ⟨hp.set, hn0⟩)]
      rw [hst1, hst0] at e
      exact e
    · intro q
      simp [or_comm]

end

end Moo
