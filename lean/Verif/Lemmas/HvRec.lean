import Verif.Lemmas.HvRecBase

/-!
# `hv_recursive_ref` computes the volume of the dominated region
-/

set_option autoImplicit false
set_option linter.unusedSectionVars false

namespace Moo

variable {x : ℕ → ℕ → ℝ} {ref : ℕ → ℝ} {pos : ℕ → ℕ → ℕ} {d : ℕ} {N : List ℕ}

theorem LinkedSet.split {nx pv ps : ℕ → ℕ} {r : List ℕ} {p : ℕ} (h : LinkedSet nx pv ps (r ++ [p])) (h0 : 0 ∉ r ++ [p]) :
    ∃ m1 m2, (∀ q, q ∈ m1 ++ p :: m2 ↔ q ∈ r ++ [p]) ∧ (m1 ++ p :: m2).Pairwise (fun a b => ps a < ps b) ∧
      Linked nx pv (m1 ++ p :: m2) ∧ (m1 ++ p :: m2).Nodup ∧ 0 ∉ m1 ++ p :: m2 := by
  obtain ⟨m, hm, hs, hl⟩ := h
  obtain ⟨m1, m2, rfl⟩ := List.append_of_mem ((hm p).2 (by simp))
  exact ⟨m1, m2, hm, hs, hl, pairwise_pos_nodup hs, fun hz => h0 ((hm 0).1 hz)⟩

theorem LinkedSet.unlink {nx pv ps : ℕ → ℕ} {r : List ℕ} {p : ℕ} (h : LinkedSet nx pv ps (r ++ [p])) (h0 : 0 ∉ r ++ [p])
    (hp : p ∉ r) : LinkedSet (upd nx (pv p) (nx p)) (upd pv (nx p) (pv p)) ps r := by
  obtain ⟨m1, m2, hm, hs, hl, hnd, hz⟩ := h.split h0
  refine ⟨m1 ++ m2, fun q => ?_, ?_, hl.unlink hnd hz⟩
  · have hq := hm q
    simp only [List.mem_append, List.mem_cons, List.not_mem_nil, or_false] at hq ⊢
    have hpm : p ∉ m1 ++ m2 := by
      have := List.nodup_middle.1 hnd
      exact (List.nodup_cons.1 this).1
    by_cases hqp : q = p
    · subst hqp
      exact ⟨fun h => absurd (List.mem_append.2 h) hpm, fun h => absurd h hp⟩
    · simp only [hqp, or_false, false_or] at hq
      exact hq
  · have h1 := List.pairwise_append.1 hs
    exact List.pairwise_append.2 ⟨h1.1, (List.pairwise_cons.1 h1.2.1).2, fun a ha b hb => h1.2.2 a ha b (List.mem_cons_of_mem _ hb)⟩

theorem delLinks_lists (dim : ℕ) (L : (ℕ → ℕ → ℕ) × (ℕ → ℕ → ℕ)) (i : ℕ) (h2 : 2 ≤ i) (hi : i < dim) :
    ∀ (s r : List ℕ), (r ++ s).Nodup → 0 ∉ r ++ s → LinkedSet (L.1 i) (L.2 i) (pos i) (r ++ s) →
      LinkedSet ((delLinks dim L s).1 i) ((delLinks dim L s).2 i) (pos i) r
  | [], r, _, _, h => by rw [List.append_nil] at h; exact h
  | p :: s, r, hnd, h0, h => by
    have e : r ++ p :: s = (r ++ [p]) ++ s := by simp
    rw [e] at hnd h0 h
    have ih := delLinks_lists dim L i h2 hi s (r ++ [p]) hnd h0 h
    have hnd' := (List.nodup_append.1 hnd).1
    have := ih.unlink (fun hz => h0 (List.mem_append_left _ hz)) (fun hp =>
      (List.nodup_append.1 hnd').2.2 p hp p (by simp) rfl)
    unfold delLinks unlinkDims
    simp only [if_pos (And.intro h2 hi)]
    exact this

theorem relink_delLinks (dim : ℕ) (L : (ℕ → ℕ → ℕ) × (ℕ → ℕ → ℕ)) (p : ℕ) (s r : List ℕ) (hnd : (r ++ p :: s).Nodup)
    (h0 : 0 ∉ r ++ p :: s) (h : ∀ i, 2 ≤ i → i < dim → LinkedSet (L.1 i) (L.2 i) (pos i) (r ++ p :: s)) :
    relinkDims dim p (delLinks dim L (p :: s)) = delLinks dim L s := by
  apply relink_unlink
  intro i h2 hi
  have e : r ++ p :: s = (r ++ [p]) ++ s := by simp
  have := delLinks_lists dim L i h2 hi s (r ++ [p]) (e ▸ hnd) (e ▸ h0) (e ▸ h i h2 hi)
  obtain ⟨m1, m2, _, _, hl, hn, hz⟩ := this.split (fun hz => h0 (by rw [e]; exact List.mem_append_left _ hz))
  exact hl.nbr hn hz

theorem hvPre_congr {i q p : ℕ} {r : List ℕ} (h : ¬ pos i p < pos i q) :
    ∀ a, a ∈ hvPre pos i q (r ++ [p]) ↔ a ∈ hvPre pos i q r := by
  intro a
  rw [mem_hvPre, mem_hvPre, List.mem_append, List.mem_singleton]
  constructor
  · rintro ⟨h1 | rfl, h2⟩
    · exact ⟨h1, h2⟩
    · exact absurd h2 h
  · rintro ⟨h1, h2⟩; exact ⟨Or.inl h1, h2⟩

theorem mem_cons_congr {p : ℕ} {A B : List ℕ} (h : ∀ a, a ∈ A ↔ a ∈ B) : ∀ a, a ∈ p :: A ↔ a ∈ p :: B := by
  intro a; rw [List.mem_cons, List.mem_cons, h a]

theorem cache_del {i p : ℕ} {r : List ℕ} {S S' : HvState ℝ} (hs : ∀ q ∈ r, pos i p < pos i q → x p i ≤ x q i)
    (hb : S'.bound i = min (S.bound i) (x p i)) (ha : S'.area i = S.area i) (hv : S'.vol i = S.vol i)
    (h : CacheOk x ref pos i (r ++ [p]) S) : CacheOk x ref pos i r S' := by
  intro q hq hlt
  rw [hb, lt_min_iff] at hlt
  have hnp : ¬ pos i p < pos i q := fun hp => absurd (hs q hq hp) (not_le.2 hlt.2)
  have := h q (List.mem_append_left _ hq) hlt.1
  rw [ha, hv, this.1, this.2]
  exact ⟨HV_congr_mem (mem_cons_congr (hvPre_congr hnp)), HV_congr_mem (hvPre_congr hnp)⟩

theorem cache_ins {i p : ℕ} {r : List ℕ} {S S' : HvState ℝ} (hs : ∀ q ∈ r, pos i p < pos i q → x p i ≤ x q i)
    (hb : S'.bound i = min (S.bound i) (x p i)) (ha : S'.area i = S.area i) (hv : S'.vol i = S.vol i)
    (h : CacheOk x ref pos i r S) : CacheOk x ref pos i (r ++ [p]) S' := by
  intro q hq hlt
  rw [hb, lt_min_iff] at hlt
  rcases List.mem_append.1 hq with hq | hq
  · have hnp : ¬ pos i p < pos i q := fun hp => absurd (hs q hq hp) (not_le.2 hlt.2)
    have := h q hq hlt.1
    rw [ha, hv, this.1, this.2]
    exact ⟨(HV_congr_mem (mem_cons_congr (hvPre_congr hnp))).symm, (HV_congr_mem (hvPre_congr hnp)).symm⟩
  · simp at hq; subst hq
    exact absurd hlt.2 (lt_irrefl _)

theorem hvReset_spec (dim : ℕ) {nx pv : ℕ → ℕ} : ∀ (r s : List ℕ) (fuel : ℕ) (S : HvState ℝ), Linked nx pv (r ++ s) →
    0 ∉ r → r.Nodup → r.length ≤ fuel → S.prev dim = pv →
    hvReset dim fuel (lastD 0 r) S =
      { S with ignore := fun p => if p ∈ r ∧ S.ignore p < dim then 0 else S.ignore p } := by
  intro r
  induction r using List.reverseRecOn with
  | nil =>
    intro s fuel S _ _ _ _ _
    have : (fun p => if p ∈ ([] : List ℕ) ∧ S.ignore p < dim then 0 else S.ignore p) = S.ignore := by
      funext p; simp
    rw [this]
    cases fuel with
    | zero => rfl
    | succ f => unfold hvReset; exact if_pos rfl
  | append_singleton r p ih =>
    intro s fuel S hl h0 hnd hfuel hpv
    obtain ⟨f, rfl⟩ : ∃ f, fuel = f + 1 := ⟨fuel - 1, by simp at hfuel; omega⟩
    have hp0 : p ≠ 0 := fun h => h0 (by rw [h]; simp)
    have hl' : Linked nx pv (r ++ p :: s) := by rw [List.append_assoc] at hl; exact hl
    have hat := LinkedFrom.at hl'
    have hpr : p ∉ r := fun hp => (List.nodup_append.1 hnd).2.2 p hp p (by simp) rfl
    unfold hvReset
    rw [lastD_append_singleton, if_neg hp0]
    have hfl : r.length ≤ f := by simp at hfuel; omega
    by_cases hlt : S.ignore p < dim
    · simp only [if_pos hlt]
      rw [hpv, hat.1, ih (p :: s) f { S with ignore := upd S.ignore p 0 } hl' (fun h => h0 (List.mem_append_left _ h))
        (List.nodup_append.1 hnd).1 hfl hpv]
      simp only [HvState.mk.injEq, true_and, and_true]
      funext q
      by_cases hq : q = p
      · subst hq
        rw [if_neg (fun h => hpr h.1), upd_same, if_pos ⟨by simp, hlt⟩]
      · rw [upd_ne _ _ hq]
        by_cases hqr : q ∈ r ∧ S.ignore q < dim
        · rw [if_pos hqr, if_pos ⟨List.mem_append_left _ hqr.1, hqr.2⟩]
        · rw [if_neg hqr, if_neg]
          rintro ⟨h1, h2⟩
          rcases List.mem_append.1 h1 with h | h
          · exact hqr ⟨h, h2⟩
          · simp at h; exact hq h
    · simp only [if_neg hlt]
      rw [hpv, hat.1, ih (p :: s) f S hl' (fun h => h0 (List.mem_append_left _ h))
        (List.nodup_append.1 hnd).1 hfl hpv]
      simp only [HvState.mk.injEq, true_and, and_true]
      funext q
      by_cases hq : q = p
      · subst hq
        rw [if_neg (fun h => hpr h.1), if_neg (fun h => hlt h.2)]
      · by_cases hqr : q ∈ r ∧ S.ignore q < dim
        · rw [if_pos hqr, if_pos ⟨List.mem_append_left _ hqr.1, hqr.2⟩]
        · rw [if_neg hqr, if_neg]
          rintro ⟨h1, h2⟩
          rcases List.mem_append.1 h1 with h | h
          · exact hqr ⟨h, h2⟩
          · simp at h; exact hq h

theorem hvAreaInit_rest (p1 m : ℕ) (S : HvState ℝ) :
    (∃ ar, hvAreaInit x ref p1 m S = { S with area := ar }) ∧
    ∀ i q, (hvAreaInit x ref p1 m S).area i q = if q = p1 ∧ i ≤ m then boxProduct x ref p1 i else S.area i q := by
  induction m with
  | zero =>
    refine ⟨⟨_, rfl⟩, fun i q => ?_⟩
    show upd2 S.area 0 p1 1 i q = _
    by_cases hi : i = 0
    · subst hi
      rw [upd2_same]
      by_cases hq : q = p1
      · rw [hq, upd_same, if_pos ⟨rfl, le_refl _⟩]; rfl
      · rw [upd_ne _ _ hq, if_neg (fun h => hq h.1)]
    · rw [upd2_ne _ _ _ hi, if_neg (fun h => hi (Nat.le_zero.1 h.2))]
  | succ m ih =>
    obtain ⟨⟨ar, har⟩, ihv⟩ := ih
    constructor
    · exact ⟨_, by unfold hvAreaInit; dsimp only; rw [har]⟩
    · intro i q
      show upd2 (hvAreaInit x ref p1 m S).area (m + 1) p1 _ i q = _
      by_cases hi : i = m + 1
      · subst hi
        rw [upd2_same]
        by_cases hq : q = p1
        · rw [hq, upd_same, if_pos ⟨rfl, le_refl _⟩, ihv, if_pos ⟨rfl, le_refl _⟩]; rfl
        · rw [upd_ne _ _ hq, ihv, if_neg (fun h => hq h.1), if_neg (fun h => hq h.1)]
      · rw [upd2_ne _ _ _ hi, ihv]
        by_cases hc : q = p1 ∧ i ≤ m
        · rw [if_pos hc, if_pos ⟨hc.1, by omega⟩]
        · rw [if_neg hc, if_neg (fun h => hc ⟨h.1, by omega⟩)]

theorem boxProduct_eq (p : ℕ) : ∀ m : ℕ, (∀ k < m, x p k ≤ ref k) → boxProduct x ref p m = HV m x [p] ref := by
  intro m hm
  rw [HV_singleton p (fun k => hm k k.2)]
  clear hm
  induction m with
  | zero => simp [boxProduct]
  | succ m ih => rw [Fin.prod_univ_castSucc]; simp only [boxProduct, ih, Fin.val_castSucc, Fin.val_last]

/-! ### One level of the recursion -/

section Level

variable {j : ℕ} {l : List ℕ} {S0 : HvState ℝ}

/-- Invariant while the nodes `r` are in the lists of the lower dimensions and the nodes `s` are not. -/
structure LvlInv (x : ℕ → ℕ → ℝ) (ref : ℕ → ℝ) (pos : ℕ → ℕ → ℕ) (j : ℕ) (l : List ℕ) (S0 : HvState ℝ) (r s : List ℕ)
    (S : HvState ℝ) : Prop where
  lnk : links S = delLinks (j + 1) (links S0) s
  cacheLow : ∀ i, 3 ≤ i → i ≤ j → CacheOk x ref pos i r S
  flagsLow : ∀ p ∈ r, j ≤ S.ignore p → ∃ q ∈ r, HvDom x pos j q p
  flagsTop : ∀ p ∈ l, j + 1 ≤ S.ignore p → ∃ q ∈ l, HvDom x pos (j + 1) q p
  flagsRest : ∀ p ∈ s, j ≤ S.ignore p → j + 1 ≤ S.ignore p
  fout : ∀ p, p ∉ l → S.ignore p = S0.ignore p
  fhi : ∀ p, j + 1 < S0.ignore p → S.ignore p = S0.ignore p
  flo : ∀ p, S0.ignore p ≤ j + 1 → S.ignore p ≤ j + 1
  area : ∀ i, j + 1 < i → S.area i = S0.area i
  vol : ∀ i, j + 1 < i → S.vol i = S0.vol i
  bound : ∀ i, j + 1 < i → S.bound i = S0.bound i
  head : ∀ i, S.area i 0 = S0.area i 0

/-- The values of dimension `j + 1` stored in node `q` are right. -/
def TopOk (x : ℕ → ℕ → ℝ) (ref : ℕ → ℝ) (pos : ℕ → ℕ → ℕ) (j : ℕ) (l : List ℕ) (S : HvState ℝ) (q : ℕ) : Prop :=
  S.area (j + 1) q = HV (j + 1) x (q :: hvPre pos (j + 1) q l) ref ∧
    S.vol (j + 1) q = HV (j + 2) x (hvPre pos (j + 1) q l) (upd ref (j + 1) (x q (j + 1)))

/-- Standing assumptions of a level. -/
structure LvlCtx (x : ℕ → ℕ → ℝ) (ref : ℕ → ℝ) (pos : ℕ → ℕ → ℕ) (d : ℕ) (N : List ℕ) (j : ℕ) (l : List ℕ)
    (S0 : HvState ℝ) : Prop where
  ctx : HvCtx x ref pos d N
  cons : HvCons x pos d N
  j2 : 2 ≤ j
  jd : j + 1 < d
  sorted : l.Pairwise (fun a b => pos (j + 1) a < pos (j + 1) b)
  sub : ∀ p ∈ l, p ∈ N
  link : Linked (S0.next (j + 1)) (S0.prev (j + 1)) l
  lists : ∀ i, 2 ≤ i → i < j + 1 → LinkedSet (S0.next i) (S0.prev i) (pos i) l
  head : ∀ i, i ≤ j + 1 → S0.area i 0 = 0

theorem LvlCtx.nodup (h : LvlCtx x ref pos d N j l S0) : l.Nodup := pairwise_pos_nodup h.sorted

theorem LvlCtx.zero (h : LvlCtx x ref pos d N j l S0) : 0 ∉ l := fun hz => h.ctx.zero (h.sub 0 hz)

theorem LvlCtx.pre_mem (h : LvlCtx x ref pos d N j l S0) {r' s : List ℕ} {p : ℕ} (hl : l = r' ++ p :: s) :
    ∀ a, a ∈ hvPre pos (j + 1) p l ↔ a ∈ r' := by
  intro a
  rw [mem_hvPre]
  have hs := List.pairwise_append.1 (hl ▸ h.sorted)
  constructor
  · rintro ⟨ha, hlt⟩
    rw [hl] at ha
    rcases List.mem_append.1 ha with h' | h'
    · exact h'
    · rcases List.mem_cons.1 h' with rfl | h'
      · omega
      · have := (List.pairwise_cons.1 hs.2.1).1 a h'; omega
  · intro ha
    exact ⟨by rw [hl]; exact List.mem_append_left _ ha, hs.2.2 a ha p (by simp)⟩

theorem HvDom.lower (h : LvlCtx x ref pos d N j l S0) {q p : ℕ} (hq : q ∈ l) (hp : p ∈ l)
    (hd : HvDom x pos (j + 1) q p) : HvDom x pos j q p :=
  ⟨h.cons j h.j2 h.jd q (h.sub q hq) p (h.sub p hp) hd.1 (hd.2 j (by omega)), fun k hk => hd.2 k (by omega)⟩

theorem LvlInv.lk {r s : List ℕ} {S : HvState ℝ} (inv : LvlInv x ref pos j l S0 r s S) :
    S.next (j + 1) = S0.next (j + 1) ∧ S.prev (j + 1) = S0.prev (j + 1) := by
  have h := delLinks_of_not (j + 1) (links S0) s (j + 1) (by omega)
  have h1 : S.next = (delLinks (j + 1) (links S0) s).1 := congrArg Prod.fst inv.lnk
  have h2 : S.prev = (delLinks (j + 1) (links S0) s).2 := congrArg Prod.snd inv.lnk
  rw [h1, h2]
  exact h

theorem LvlInv.prevLast (hc : LvlCtx x ref pos d N j l S0) {r' s : List ℕ} {p1 : ℕ} {S : HvState ℝ}
    (inv : LvlInv x ref pos j l S0 (r' ++ [p1]) s S) (hl : l = r' ++ p1 :: s) :
    S.prev (j + 1) p1 = lastD 0 r' ∧ S.next (j + 1) p1 = s.headD 0 := by
  have h := LvlInv.lk inv
  have hat := LinkedFrom.at (hl ▸ hc.link : Linked _ _ (r' ++ p1 :: s))
  rw [h.1, h.2]
  exact ⟨hat.1, hat.2.2.1⟩

/-- The area stored in the node before `p1`. -/
theorem prevArea (hc : LvlCtx x ref pos d N j l S0) {r' s : List ℕ} {p1 : ℕ} {S : HvState ℝ} (hl : l = r' ++ p1 :: s)
    (htop : ∀ q ∈ r', TopOk x ref pos j l S q) (hhead : S.area (j + 1) 0 = 0) :
    S.area (j + 1) (lastD 0 r') = HV (j + 1) x r' ref := by
  rcases List.eq_nil_or_concat r' with rfl | ⟨r'', q, rfl⟩
  · rw [HV_nil]; exact hhead
  · rw [List.concat_eq_append] at *
    rw [lastD_append_singleton, (htop q (by simp)).1]
    apply HV_congr_mem
    intro a
    rw [List.mem_cons, hc.pre_mem (r' := r'') (p := q) (s := p1 :: s) (by rw [hl]; simp)]
    simp only [List.mem_append, List.mem_singleton]
    tauto

/-- `skip_or_recurse_ref` at the last node of `r`. -/
theorem skip_spec (rec : ℕ → HvState ℝ → ℝ × HvState ℝ)
    (hrec : ∀ A c S, HvPreC x ref pos N j A c S → HvPostC x ref pos j A S (rec c S).1 (rec c S).2)
    (hc : LvlCtx x ref pos d N j l S0) {r' s : List ℕ} {p1 : ℕ} {S : HvState ℝ} (hl : l = r' ++ p1 :: s)
    (inv : LvlInv x ref pos j l S0 (r' ++ [p1]) s S) (htop : ∀ q ∈ r', TopOk x ref pos j l S q)
    (hvol : S.vol (j + 1) p1 = HV (j + 2) x r' (upd ref (j + 1) (x p1 (j + 1)))) :
    LvlInv x ref pos j l S0 (r' ++ [p1]) s (skipOrRecurse rec (j + 1) (r'.length + 1) p1 S) ∧
    (∀ q ∈ r' ++ [p1], TopOk x ref pos j l (skipOrRecurse rec (j + 1) (r'.length + 1) p1 S) q) := by
  have hpl : p1 ∈ l := by rw [hl]; simp
  have hr'l : ∀ q ∈ r', q ∈ l := fun q hq => by rw [hl]; exact List.mem_append_left _ hq
  have hp0 : p1 ≠ 0 := fun h => hc.zero (h ▸ hpl)
  have hnd : (r' ++ p1 :: s).Nodup := hl ▸ hc.nodup
  have hp1r : p1 ∉ r' := fun hp => (List.nodup_append.1 hnd).2.2 p1 hp p1 (by simp) rfl
  have hpre := hc.pre_mem hl
  have hprev := (inv.prevLast hc hl).1
  have hheadS : S.area (j + 1) 0 = 0 := by rw [inv.head]; exact hc.head _ (le_refl _)
  have hpa := prevArea hc hl htop hheadS
  have hHVp : HV (j + 1) x (p1 :: hvPre pos (j + 1) p1 l) ref = HV (j + 1) x (p1 :: r') ref :=
    HV_congr_mem (mem_cons_congr hpre)
  have hHVvol : HV (j + 2) x (hvPre pos (j + 1) p1 l) (upd ref (j + 1) (x p1 (j + 1))) =
      HV (j + 2) x r' (upd ref (j + 1) (x p1 (j + 1))) := HV_congr_mem hpre
  unfold skipOrRecurse
  by_cases hig : S.ignore p1 ≥ j + 1
  · rw [if_pos hig]
    obtain ⟨q, hq, hdom⟩ := inv.flagsTop p1 hpl hig
    have hqr : q ∈ r' := (hpre q).1 (mem_hvPre.2 ⟨hq, hdom.1⟩)
    constructor
    · refine { inv with cacheLow := ?_, area := ?_, head := ?_ }
      · intro i h3 hi q hq hlt
        have := inv.cacheLow i h3 hi q hq hlt
        dsimp only
        rw [upd2_ne _ _ _ (by omega)]
        exact this
      · intro i hi
        dsimp only
        rw [upd2_ne _ _ _ (by omega)]
        exact inv.area i hi
      · intro i
        dsimp only
        by_cases hi : i = j + 1
        · subst hi; rw [upd2_same, upd_ne _ _ (Ne.symm hp0)]; exact inv.head _
        · rw [upd2_ne _ _ _ hi]; exact inv.head _
    · intro a ha
      rcases List.mem_append.1 ha with ha | ha
      · have hne : a ≠ p1 := fun h => hp1r (h ▸ ha)
        refine ⟨?_, (htop a ha).2⟩
        dsimp only
        rw [upd2_same, upd_ne _ _ hne]
        exact (htop a ha).1
      · simp at ha; subst ha
        refine ⟨?_, ?_⟩
        · dsimp only
          rw [upd2_same, upd_same, hprev, hpa, hHVp]
          apply le_antisymm
          · exact HV_le_of_subset (fun b hb => List.mem_cons_of_mem _ hb)
          · apply HV_le_of_dom
            intro b hb
            rcases List.mem_cons.1 hb with rfl | hb
            · exact ⟨q, hqr, hdom.2⟩
            · exact ⟨b, hb, fun _ _ => le_rfl⟩
        · dsimp only
          rw [hvol, hHVvol]
  · rw [if_neg hig]
    have hpre' : HvPreC x ref pos N j (r' ++ [p1]) (r'.length + 1) S := by
      have e : r' ++ p1 :: s = (r' ++ [p1]) ++ s := by simp
      have h1 : S.next = (delLinks (j + 1) (links S0) s).1 := congrArg Prod.fst inv.lnk
      have h2 : S.prev = (delLinks (j + 1) (links S0) s).2 := congrArg Prod.snd inv.lnk
      refine { nodup := ?_, ne := by simp, len := by simp, sub := ?_, lists := ?_, flags := inv.flagsLow, cache := inv.cacheLow,
               head := ?_ }
      · rw [e] at hnd; exact (List.nodup_append.1 hnd).1
      · intro p hp
        apply hc.sub
        rw [hl, e]
        exact List.mem_append_left _ hp
      · intro i hi2 hij
        rw [h1, h2]
        apply delLinks_lists (j + 1) (links S0) i hi2 (by omega) s (r' ++ [p1])
        · rw [← e]; exact hnd
        · rw [← e, ← hl]; exact hc.zero
        · rw [← e, ← hl]; exact hc.lists i hi2 (by omega)
      · intro i hi
        rw [inv.head]; exact hc.head _ (by omega)
    have post := hrec _ _ _ hpre'
    set R := rec (r'.length + 1) S with hR
    have hval : R.1 = HV (j + 1) x (p1 :: r') ref := by
      rw [post.val]
      apply HV_congr_mem
      intro a
      simp only [List.mem_append, List.mem_cons, List.not_mem_nil, or_false]
      tauto
    have hRarea : R.2.area (j + 1) = S.area (j + 1) := post.area _ (by omega)
    have hRvol : R.2.vol (j + 1) = S.vol (j + 1) := post.vol _ (by omega)
    -- the state without a new mark
    have hinv1 : LvlInv x ref pos j l S0 (r' ++ [p1]) s { R.2 with area := upd2 R.2.area (j + 1) p1 R.1 } := by
      have hfl : ∀ p, j + 1 ≤ R.2.ignore p → j + 1 ≤ S.ignore p := by
        intro p hp
        by_contra hcon
        have := post.flags_lo p (by omega)
        omega
      refine { lnk := ?_, cacheLow := ?_, flagsLow := post.flags, flagsTop := ?_, flagsRest := ?_, fout := ?_, fhi := ?_,
               flo := ?_, area := ?_, vol := ?_, bound := ?_, head := ?_ }
      · have : links ({ R.2 with area := upd2 R.2.area (j + 1) p1 R.1 } : HvState ℝ) = links S := by
          unfold links; dsimp only; rw [post.next, post.prev]
        rw [this]; exact inv.lnk
      · intro i h3 hi q hq hlt
        have := post.cache i h3 hi q hq hlt
        dsimp only
        rw [upd2_ne _ _ _ (by omega)]
        exact this
      · intro p hp h1
        exact inv.flagsTop p hp (hfl p h1)
      · intro p hp h1
        have hpo : p ∉ r' ++ [p1] := by
          intro hp'
          have e : r' ++ p1 :: s = (r' ++ [p1]) ++ s := by simp
          rw [e] at hnd
          exact (List.nodup_append.1 hnd).2.2 p hp' p hp rfl
        dsimp only at h1 ⊢
        rw [post.flags_out p hpo] at h1 ⊢
        exact inv.flagsRest p hp h1
      · intro p hp
        have hpo : p ∉ r' ++ [p1] := by
          intro hp'
          apply hp
          rw [hl]
          simp only [List.mem_append, List.mem_cons, List.not_mem_nil, or_false] at hp' ⊢
          tauto
        dsimp only
        rw [post.flags_out p hpo]; exact inv.fout p hp
      · intro p hp
        dsimp only
        have := inv.fhi p hp
        rw [post.flags_hi p (by omega)]; exact this
      · intro p hp
        dsimp only
        have := inv.flo p hp
        by_contra hcon
        have h1 := hfl p (by omega)
        have h2 := post.flags_hi p (by omega)
        omega
      · intro i hi
        dsimp only
        rw [upd2_ne _ _ _ (by omega), post.area i (by omega)]; exact inv.area i hi
      · intro i hi
        dsimp only
        rw [post.vol i (by omega)]; exact inv.vol i hi
      · intro i hi
        dsimp only
        rw [post.bound i (by omega)]; exact inv.bound i hi
      · intro i
        dsimp only
        by_cases hi : i = j + 1
        · subst hi; rw [upd2_same, upd_ne _ _ (Ne.symm hp0), post.head]; exact inv.head _
        · rw [upd2_ne _ _ _ hi, post.head]; exact inv.head _
    have htop1 : ∀ q ∈ r' ++ [p1], TopOk x ref pos j l { R.2 with area := upd2 R.2.area (j + 1) p1 R.1 } q := by
      intro a ha
      rcases List.mem_append.1 ha with ha | ha
      · have hne : a ≠ p1 := fun h => hp1r (h ▸ ha)
        refine ⟨?_, ?_⟩
        · dsimp only
          rw [upd2_same, upd_ne _ _ hne, hRarea]
          exact (htop a ha).1
        · dsimp only
          rw [hRvol]; exact (htop a ha).2
      · simp at ha; subst ha
        refine ⟨?_, ?_⟩
        · dsimp only
          rw [upd2_same, upd_same, hHVp, hval]
        · dsimp only
          rw [hRvol, hvol, hHVvol]
    have hprev2 : R.2.prev (j + 1) p1 = lastD 0 r' := by rw [post.prev]; exact hprev
    have hlne : lastD 0 r' ≠ p1 := by
      intro he
      have := lastD_mem 0 r'
      rw [he] at this
      rcases List.mem_cons.1 this with h | h
      · exact hp0 h
      · exact hp1r h
    have hcond : (({ R.2 with area := upd2 R.2.area (j + 1) p1 R.1 } : HvState ℝ).area (j + 1) p1 ≤
        ({ R.2 with area := upd2 R.2.area (j + 1) p1 R.1 } : HvState ℝ).area (j + 1)
          (({ R.2 with area := upd2 R.2.area (j + 1) p1 R.1 } : HvState ℝ).prev (j + 1) p1)) ↔
        HV (j + 1) x (p1 :: r') ref ≤ HV (j + 1) x r' ref := by
      dsimp only
      rw [upd2_same, upd_same, hprev2, upd_ne _ _ hlne, hRarea, hpa, hval]
    dsimp only at hcond ⊢
    by_cases hle : HV (j + 1) x (p1 :: r') ref ≤ HV (j + 1) x r' ref
    · rw [if_pos (hcond.2 hle)]
      obtain ⟨q, hq, hqd⟩ := exists_dom_of_HV_le p1
        (fun k hk => hc.ctx.below p1 (hc.sub p1 hpl) k (by have := hc.jd; omega)) hle
      have hdom : HvDom x pos (j + 1) q p1 := ⟨(mem_hvPre.1 ((hpre q).2 hq)).2, hqd⟩
      have hdomj := HvDom.lower hc (hr'l q hq) hpl hdom
      refine ⟨?_, fun a ha => htop1 a ha⟩
      refine { hinv1 with flagsLow := ?_, flagsTop := ?_, flagsRest := ?_, fout := ?_, fhi := ?_, flo := ?_ }
      · intro p hp h1
        by_cases hpe : p = p1
        · subst hpe; exact ⟨q, List.mem_append_left _ hq, hdomj⟩
        · dsimp only at h1
          rw [upd_ne _ _ hpe] at h1
          exact hinv1.flagsLow p hp h1
      · intro p hp h1
        by_cases hpe : p = p1
        · subst hpe; exact ⟨q, hr'l q hq, hdom⟩
        · dsimp only at h1
          rw [upd_ne _ _ hpe] at h1
          exact hinv1.flagsTop p hp h1
      · intro p hp h1
        have hpe : p ≠ p1 := by
          rintro rfl
          exact (List.nodup_cons.1 (List.nodup_append.1 hnd).2.1).1 hp
        dsimp only at h1 ⊢
        rw [upd_ne _ _ hpe] at h1 ⊢
        exact hinv1.flagsRest p hp h1
      · intro p hp
        have hpe : p ≠ p1 := fun h => hp (h ▸ hpl)
        dsimp only
        rw [upd_ne _ _ hpe]
        exact hinv1.fout p hp
      · intro p hp
        by_cases hpe : p = p1
        · subst hpe
          have := inv.fhi p hp
          omega
        · dsimp only
          rw [upd_ne _ _ hpe]
          exact hinv1.fhi p hp
      · intro p hp
        by_cases hpe : p = p1
        · subst hpe
          dsimp only
          rw [upd_same]
        · dsimp only
          rw [upd_ne _ _ hpe]
          exact hinv1.flo p hp
    · rw [if_neg (fun h => hle (hcond.1 h))]
      exact ⟨hinv1, htop1⟩

/-- The volume below the next node, from the values stored in `p1`. -/
theorem sweepStep (hc : LvlCtx x ref pos d N j l S0) {r' s : List ℕ} {p1 : ℕ} (hl : l = r' ++ p1 :: s) (z : ℝ)
    (hz : x p1 (j + 1) ≤ z) :
    HV (j + 2) x (r' ++ [p1]) (upd ref (j + 1) z) = HV (j + 2) x r' (upd ref (j + 1) (x p1 (j + 1))) +
      HV (j + 1) x (p1 :: hvPre pos (j + 1) p1 l) ref * (z - x p1 (j + 1)) := by
  have hpl : p1 ∈ l := by rw [hl]; simp
  have h1 : HV (j + 2) x (r' ++ [p1]) (upd ref (j + 1) z) = HV (j + 2) x (p1 :: r') (upd ref (j + 1) z) := by
    apply HV_congr_mem
    intro a
    simp only [List.mem_append, List.mem_cons, List.not_mem_nil, or_false]
    tauto
  have h2 : HV (j + 1) x (p1 :: hvPre pos (j + 1) p1 l) ref = HV (j + 1) x (p1 :: r') ref :=
    HV_congr_mem (mem_cons_congr (hc.pre_mem hl))
  rw [h1, h2]
  apply HV_sweep_step _ _ _ _ hz
  intro a ha
  have hal : a ∈ l := by rw [hl]; exact List.mem_append_left _ ha
  exact hc.ctx.sorted (j + 1) (by have := hc.j2; omega) hc.jd a (hc.sub a hal) p1 (hc.sub p1 hpl)
    (mem_hvPre.1 ((hc.pre_mem hl a).2 ha)).2

theorem mainLoop_spec (rec : ℕ → HvState ℝ → ℝ × HvState ℝ)
    (hrec : ∀ A c S, HvPreC x ref pos N j A c S → HvPostC x ref pos j A S (rec c S).1 (rec c S).2)
    (hc : LvlCtx x ref pos d N j l S0) : ∀ (s r' : List ℕ) (p1 fuel c : ℕ) (hyperv : ℝ) (S : HvState ℝ), l = r' ++ p1 :: s →
      s.length ≤ fuel → c = r'.length + 1 → LvlInv x ref pos j l S0 (r' ++ [p1]) s S →
      (∀ q ∈ r' ++ [p1], TopOk x ref pos j l S q) → hyperv = HV (j + 2) x r' (upd ref (j + 1) (x p1 (j + 1))) →
      ∃ (v : ℝ) (q : ℕ) (S' : HvState ℝ), hvMainLoop rec x (j + 1) fuel c (s.headD 0) p1 hyperv S = (v, q, S') ∧
        LvlInv x ref pos j l S0 l [] S' ∧ (∀ a ∈ l, TopOk x ref pos j l S' a) ∧
        v + S'.area (j + 1) q * (ref (j + 1) - x q (j + 1)) = HV (j + 2) x l ref := by
  intro s
  induction s with
  | nil =>
    intro r' p1 fuel c hyperv S hl _ _ inv htop hv
    refine ⟨hyperv, p1, S, ?_, ?_, ?_, ?_⟩
    · cases fuel with
      | zero => rfl
      | succ f => unfold hvMainLoop; exact if_pos rfl
    · rw [hl]; rw [hl] at inv; exact inv
    · intro a ha; exact htop a (by rw [hl] at ha; exact ha)
    · have hpl : p1 ∈ l := by rw [hl]; simp
      have hle : x p1 (j + 1) ≤ ref (j + 1) := (hc.ctx.below p1 (hc.sub p1 hpl) (j + 1) hc.jd).le
      have := sweepStep hc hl (ref (j + 1)) hle (ref := ref)
      rw [HV_upd_self, ← hl] at this
      rw [this, hv, (htop p1 (by simp)).1]
  | cons p0 s ih =>
    intro r' p1 fuel c hyperv S hl hfuel hcl inv htop hv
    obtain ⟨f, rfl⟩ : ∃ f, fuel = f + 1 := ⟨fuel - 1, by simp at hfuel; omega⟩
    have hl' : l = (r' ++ [p1]) ++ p0 :: s := by rw [hl]; simp
    have hp0l : p0 ∈ l := by rw [hl]; simp
    have hp1l : p1 ∈ l := by rw [hl]; simp
    have hp00 : p0 ≠ 0 := fun h => hc.zero (h ▸ hp0l)
    have hsr := List.pairwise_append.1 (hl' ▸ hc.sorted)
    have hpp : pos (j + 1) p1 < pos (j + 1) p0 := hsr.2.2 p1 (by simp) p0 (by simp)
    have hxle : x p1 (j + 1) ≤ x p0 (j + 1) :=
      hc.ctx.sorted (j + 1) (by have := hc.j2; omega) hc.jd p1 (hc.sub p1 hp1l) p0 (hc.sub p0 hp0l) hpp
    have hrl : ∀ q ∈ r' ++ [p1], q ∈ l := fun q hq => by rw [hl']; exact List.mem_append_left _ hq
    have hp0r : p0 ∉ r' ++ [p1] := fun h => lt_irrefl _ (hsr.2.2 p0 h p0 (by simp))
    have hhyp : hyperv + S.area (j + 1) p1 * (x p0 (j + 1) - x p1 (j + 1)) =
        HV (j + 2) x (r' ++ [p1]) (upd ref (j + 1) (x p0 (j + 1))) := by
      rw [sweepStep hc hl (x p0 (j + 1)) hxle, hv, (htop p1 (by simp)).1]
    unfold hvMainLoop
    rw [List.headD_cons, if_neg hp00]
    dsimp only
    rw [hhyp]
    set V := HV (j + 2) x (r' ++ [p1]) (upd ref (j + 1) (x p0 (j + 1))) with hV
    set S1 : HvState ℝ := { S with bound := upd S.bound (j + 1) (x p0 (j + 1)) } with hS1
    set S2 := hvReinsert x p0 (j + 1) S1 with hS2
    have hrest := hvReinsert_rest (x := x) p0 (j + 1) (by have := hc.j2; omega) S1
    rw [← hS2] at hrest
    have hlnk2 : links S2 = delLinks (j + 1) (links S0) s := by
      rw [hS2, links_hvReinsert p0 (j + 1) (by have := hc.j2; omega)]
      have : links S1 = links S := rfl
      rw [this, inv.lnk]
      apply relink_delLinks (pos := pos) (j + 1) (links S0) p0 s (r' ++ [p1])
      · rw [← hl']; exact hc.nodup
      · rw [← hl']; exact hc.zero
      · intro i h2 hi; rw [← hl']; exact hc.lists i h2 hi
    have hb : ∀ i, 2 ≤ i → i ≤ j → S2.bound i = min (S.bound i) (x p0 i) := by
      intro i h2 hi
      rw [hrest.2.2.2 i, if_pos ⟨h2, by omega⟩]
      have : S1.bound i = S.bound i := upd_ne _ _ (by omega)
      rw [this]
    have hinv3 : LvlInv x ref pos j l S0 (r' ++ [p1] ++ [p0]) s { S2 with vol := upd2 S2.vol (j + 1) p0 V } := by
      refine { lnk := hlnk2, cacheLow := ?_, flagsLow := ?_, flagsTop := ?_, flagsRest := ?_, fout := ?_, fhi := ?_,
               flo := ?_, area := ?_, vol := ?_, bound := ?_, head := ?_ }
      · intro i h3 hi
        refine cache_ins (S := S) ?_ (hb i (by omega) hi) ?_ ?_ (inv.cacheLow i h3 hi)
        · intro q hq hlt
          exact hc.ctx.sorted i (by omega) (by have := hc.jd; omega) p0 (hc.sub p0 hp0l) q (hc.sub q (hrl q hq)) hlt
        · dsimp only; rw [hrest.2.1]
        · dsimp only; rw [upd2_ne _ _ _ (by omega), hrest.2.2.1]
      · intro p hp h1
        dsimp only at h1
        rw [hrest.1] at h1
        rcases List.mem_append.1 hp with hp | hp
        · obtain ⟨q, hq, hd⟩ := inv.flagsLow p hp h1
          exact ⟨q, List.mem_append_left _ hq, hd⟩
        · simp at hp; subst hp
          have h2 := inv.flagsRest p (by simp) h1
          obtain ⟨q, hq, hd⟩ := inv.flagsTop p hp0l h2
          have hqr := (hc.pre_mem hl' q).1 (mem_hvPre.2 ⟨hq, hd.1⟩)
          exact ⟨q, List.mem_append_left _ hqr, HvDom.lower hc hq hp0l hd⟩
      · intro p hp h1
        dsimp only at h1
        rw [hrest.1] at h1
        exact inv.flagsTop p hp h1
      · intro p hp h1
        dsimp only at h1 ⊢
        rw [hrest.1] at h1 ⊢
        exact inv.flagsRest p (List.mem_cons_of_mem _ hp) h1
      · intro p hp; dsimp only; rw [hrest.1]; exact inv.fout p hp
      · intro p hp; dsimp only; rw [hrest.1]; exact inv.fhi p hp
      · intro p hp; dsimp only; rw [hrest.1]; exact inv.flo p hp
      · intro i hi; dsimp only; rw [hrest.2.1]; exact inv.area i hi
      · intro i hi; dsimp only; rw [upd2_ne _ _ _ (by omega), hrest.2.2.1]; exact inv.vol i hi
      · intro i hi
        dsimp only
        rw [hrest.2.2.2 i, if_neg (by omega)]
        have : S1.bound i = S.bound i := upd_ne _ _ (by omega)
        rw [this]; exact inv.bound i hi
      · intro i; dsimp only; rw [hrest.2.1]; exact inv.head i
    have htop3 : ∀ q ∈ r' ++ [p1], TopOk x ref pos j l { S2 with vol := upd2 S2.vol (j + 1) p0 V } q := by
      intro q hq
      have hne : q ≠ p0 := fun h => hp0r (h ▸ hq)
      refine ⟨?_, ?_⟩
      · dsimp only; rw [hrest.2.1]; exact (htop q hq).1
      · dsimp only; rw [upd2_same, upd_ne _ _ hne, hrest.2.2.1]; exact (htop q hq).2
    have hvol3 : ({ S2 with vol := upd2 S2.vol (j + 1) p0 V } : HvState ℝ).vol (j + 1) p0 =
        HV (j + 2) x (r' ++ [p1]) (upd ref (j + 1) (x p0 (j + 1))) := by
      dsimp only; rw [upd2_same, upd_same]
    have hnext : S2.next (j + 1) p0 = s.headD 0 := (hinv3.prevLast hc hl').2
    have hskip := skip_spec rec hrec hc hl' hinv3 htop3 hvol3
    have hlen : c + 1 = (r' ++ [p1]).length + 1 := by rw [hcl]; simp
    rw [hnext]
    rw [← hlen] at hskip
    exact ih (r' ++ [p1]) p0 f (c + 1) V _ hl' (by simp at hfuel; omega) hlen hskip.1 hskip.2 hV

theorem delLoop_spec (hc : LvlCtx x ref pos d N j l S0) : ∀ (n : ℕ) (r s : List ℕ) (S : HvState ℝ), r.length = n → r ≠ [] →
    l = r ++ s → links S = delLinks (j + 1) (links S0) s → (∀ i, 3 ≤ i → i ≤ j → CacheOk x ref pos i r S) →
    ∃ (r' : List ℕ) (p1 : ℕ) (s' : List ℕ) (S' : HvState ℝ),
      hvDelLoop x (j + 1) n (s.headD 0) (lastD 0 r) S = (r'.length + 1, s'.headD 0, p1, S') ∧
      l = r' ++ p1 :: s' ∧ links S' = delLinks (j + 1) (links S0) s' ∧
      (∀ i, 3 ≤ i → i ≤ j → CacheOk x ref pos i (r' ++ [p1]) S') ∧ S'.ignore = S.ignore ∧ S'.area = S.area ∧ S'.vol = S.vol ∧
      (∀ i, j + 1 ≤ i → S'.bound i = S.bound i) ∧
      (r' = [] ∨ x (lastD 0 r') (j + 1) < S.bound (j + 1)) := by
  intro n
  induction n with
  | zero =>
    intro r s S hlen hne
    exact absurd (List.length_eq_zero_iff.1 hlen) hne
  | succ n ih =>
    intro r s S hlen hne hl hlnk hcache
    rcases List.eq_nil_or_concat r with rfl | ⟨r', p1, rfl⟩
    · exact absurd rfl hne
    rw [List.concat_eq_append] at *
    have hl' : l = r' ++ p1 :: s := by rw [hl]; simp
    have hlen' : r'.length = n := by simp at hlen; exact hlen
    have hpl : p1 ∈ l := by rw [hl']; simp
    have hprev : S.prev (j + 1) p1 = lastD 0 r' := by
      have h := delLinks_of_not (j + 1) (links S0) s (j + 1) (by omega)
      have h2 : S.prev = (delLinks (j + 1) (links S0) s).2 := congrArg Prod.snd hlnk
      have hat := LinkedFrom.at (hl' ▸ hc.link : Linked _ _ (r' ++ p1 :: s))
      rw [h2, h.2]; exact hat.1
    rw [lastD_append_singleton]
    unfold hvDelLoop
    by_cases hcond : n + 1 > 1 ∧ (x p1 (j + 1) > S.bound (j + 1) ∨ x (S.prev (j + 1) p1) (j + 1) ≥ S.bound (j + 1))
    · rw [if_pos hcond]
      dsimp only
      set S1 := hvDelete x p1 (j + 1) S with hS1
      have hrest := hvDelete_rest (x := x) p1 (j + 1) (by have := hc.j2; omega) S
      rw [← hS1] at hrest
      have hlnk1 : links S1 = delLinks (j + 1) (links S0) (p1 :: s) := by
        rw [hS1, links_hvDelete p1 (j + 1) (by have := hc.j2; omega), hlnk]; rfl
      have hprev1 : S1.prev (j + 1) p1 = lastD 0 r' := by
        have h := delLinks_of_not (j + 1) (links S0) (p1 :: s) (j + 1) (by omega)
        have h2 : S1.prev = (delLinks (j + 1) (links S0) (p1 :: s)).2 := congrArg Prod.snd hlnk1
        have hat := LinkedFrom.at (hl' ▸ hc.link : Linked _ _ (r' ++ p1 :: s))
        rw [h2, h.2]; exact hat.1
      rw [hprev1]
      have hne' : r' ≠ [] := by
        intro he
        rw [he] at hlen'
        simp at hlen'
        omega
      obtain ⟨r2, q, s2, S2, g1, g2, g3, g4, g5, g6, g7, g8, g9⟩ := ih r' (p1 :: s) S1 hlen' hne' hl' hlnk1 (by
        intro i h3 hi
        refine cache_del (p := p1) (S := S) ?_ ?_ ?_ ?_ (hcache i h3 hi)
        · intro a ha hlt
          have hal : a ∈ l := by rw [hl']; exact List.mem_append_left _ ha
          exact hc.ctx.sorted i (by omega) (by have := hc.jd; omega) p1 (hc.sub p1 hpl) a (hc.sub a hal) hlt
        · rw [hrest.2.2.2 i, if_pos ⟨by omega, by omega⟩]
        · rw [hrest.2.1]
        · rw [hrest.2.2.1])
      have hbd : ∀ i, j + 1 ≤ i → S1.bound i = S.bound i := by
        intro i hi
        rw [hrest.2.2.2 i, if_neg (by omega)]
      refine ⟨r2, q, s2, S2, g1, g2, g3, g4, g5.trans hrest.1, g6.trans hrest.2.1, g7.trans hrest.2.2.1, ?_, ?_⟩
      · intro i hi; rw [g8 i hi, hbd i hi]
      · rw [← hbd (j + 1) (le_refl _)]; exact g9
    · rw [if_neg hcond]
      refine ⟨r', p1, s, S, by rw [hlen'], hl', hlnk, hcache, rfl, rfl, rfl, fun _ _ => rfl, ?_⟩
      rcases List.eq_nil_or_concat r' with rfl | ⟨r'', q, rfl⟩
      · left; rfl
      · right
        rw [List.concat_eq_append] at *
        have hn : n + 1 > 1 := by rw [← hlen']; simp
        have : ¬ x (S.prev (j + 1) p1) (j + 1) ≥ S.bound (j + 1) := fun h => hcond ⟨hn, Or.inr h⟩
        rw [hprev] at this
        exact not_le.1 this

/-- One level of `hv_recursive_ref` meets its contract if the next lower one does. -/
theorem hvLevel_spec (rec : ℕ → HvState ℝ → ℝ × HvState ℝ)
    (hrec : ∀ A c S, HvPreC x ref pos N j A c S → HvPostC x ref pos j A S (rec c S).1 (rec c S).2)
    (ctx : HvCtx x ref pos d N) (cons : HvCons x pos d N) (hj2 : 2 ≤ j) (hjd : j + 1 < d)
    (A : List ℕ) (c : ℕ) (S : HvState ℝ) (h : HvPreC x ref pos N (j + 1) A c S) :
    HvPostC x ref pos (j + 1) A S (hvLevel rec x ref (j + 1) c S).1 (hvLevel rec x ref (j + 1) c S).2 := by
  obtain ⟨l, hmem, hsorted, hlink⟩ := h.lists (j + 1) (by omega) (le_refl _)
  have hlset : ∀ i, 2 ≤ i → i < j + 1 → LinkedSet (S.next i) (S.prev i) (pos i) l := by
    intro i h2 hi
    obtain ⟨m, hm1, hm2, hm3⟩ := h.lists i h2 (by omega)
    exact ⟨m, fun p => (hm1 p).trans (hmem p).symm, hm2, hm3⟩
  have hc : LvlCtx x ref pos d N j l S :=
    { ctx := ctx, cons := cons, j2 := hj2, jd := hjd, sorted := hsorted, sub := fun p hp => h.sub p ((hmem p).1 hp),
      link := hlink, lists := hlset, head := h.head }
  have hlen : l.length = c := by rw [h.len]; exact length_eq_of_mem_iff hc.nodup h.nodup hmem
  have hlne : l ≠ [] := by
    intro he
    apply h.ne
    exact List.eq_nil_iff_forall_not_mem.2 (fun p hp => by have := (hmem p).2 hp; rw [he] at this; simp at this)
  have hpreA : ∀ i q, ∀ a, a ∈ hvPre pos i q A ↔ a ∈ hvPre pos i q l := by
    intro i q a; rw [mem_hvPre, mem_hvPre, hmem]
  have hcacheL : ∀ i, 3 ≤ i → i ≤ j + 1 → ∀ S' : HvState ℝ, CacheOk x ref pos i A S' ↔ CacheOk x ref pos i l S' := by
    intro i _ _ S'
    unfold CacheOk
    refine forall_congr' fun q => ?_
    rw [hmem, HV_congr_mem (mem_cons_congr (hpreA i q)), HV_congr_mem (hpreA i q)]
  -- reset of the marks
  have hp0 : S.prev (j + 1) 0 = lastD 0 l := LinkedFrom.last hlink
  have hreset := hvReset_spec (j + 1) l [] c S (by rw [List.append_nil]; exact hlink) hc.zero hc.nodup (by omega) rfl
  set S1 : HvState ℝ := { S with ignore := fun p => if p ∈ l ∧ S.ignore p < j + 1 then 0 else S.ignore p } with hS1
  -- deletions
  obtain ⟨r', p1, s', S2, g1, g2, g3, g4, g5, g6, g7, g8, g9⟩ := delLoop_spec hc c l [] S1 hlen hlne
    (by rw [List.append_nil]) rfl (by
      intro i h3 hi q hq hlt
      exact (hcacheL i h3 (by omega) S).1 (h.cache i h3 (by omega)) q hq hlt)
  have hp1l : p1 ∈ l := by rw [g2]; simp
  have hr'l : ∀ q ∈ r', q ∈ l := fun q hq => by rw [g2]; exact List.mem_append_left _ hq
  have hprev2 : S2.prev (j + 1) p1 = lastD 0 r' := by
    have hh := delLinks_of_not (j + 1) (links S) s' (j + 1) (by omega)
    have h2 : S2.prev = (delLinks (j + 1) (links S) s').2 := congrArg Prod.snd g3
    have hat := LinkedFrom.at (g2 ▸ hlink : Linked _ _ (r' ++ p1 :: s'))
    rw [h2, hh.2]; exact hat.1
  -- invariant after the deletions
  have hinv2 : LvlInv x ref pos j l S (r' ++ [p1]) s' S2 := by
    have hflag : ∀ p ∈ l, j ≤ S2.ignore p → j + 1 ≤ S.ignore p := by
      intro p hp h1
      rw [g5] at h1
      by_contra hcon
      have : S1.ignore p = 0 := by rw [hS1]; dsimp only; rw [if_pos ⟨hp, by omega⟩]
      omega
    have hflag2 : ∀ p, j + 1 ≤ S.ignore p → S2.ignore p = S.ignore p := by
      intro p h1
      rw [g5, hS1]
      dsimp only
      rw [if_neg (by omega)]
    have htopS : ∀ p ∈ l, j + 1 ≤ S.ignore p → ∃ q ∈ l, HvDom x pos (j + 1) q p := by
      intro p hp h1
      obtain ⟨q, hq, hd⟩ := h.flags p ((hmem p).1 hp) h1
      exact ⟨q, (hmem q).2 hq, hd⟩
    refine { lnk := g3, cacheLow := g4, flagsLow := ?_, flagsTop := ?_, flagsRest := ?_, fout := ?_, fhi := ?_,
             flo := ?_, area := ?_, vol := ?_, bound := ?_, head := ?_ }
    · intro p hp h1
      have hpl : p ∈ l := by
        rw [g2]; simp only [List.mem_append, List.mem_cons, List.not_mem_nil, or_false] at hp ⊢; tauto
      obtain ⟨q, hq, hd⟩ := htopS p hpl (hflag p hpl h1)
      refine ⟨q, ?_, HvDom.lower hc hq hpl hd⟩
      have hqp : q ∈ r' := by
        have hpp : pos (j + 1) p ≤ pos (j + 1) p1 := by
          rcases List.mem_append.1 hp with h' | h'
          · exact (mem_hvPre.1 ((hc.pre_mem g2 p).2 h')).2.le
          · simp at h'; rw [h']
        exact (hc.pre_mem g2 q).1 (mem_hvPre.2 ⟨hq, by have := hd.1; omega⟩)
      exact List.mem_append_left _ hqp
    · intro p hp h1
      exact htopS p hp (hflag p hp (by omega))
    · intro p hp h1
      have hpl : p ∈ l := by rw [g2]; simp [hp]
      have := hflag p hpl h1
      rw [hflag2 p this]; exact this
    · intro p hp
      rw [g5, hS1]
      dsimp only
      rw [if_neg (fun h => hp h.1)]
    · intro p hp; exact hflag2 p (by omega)
    · intro p hp
      rw [g5, hS1]
      dsimp only
      split <;> omega
    · intro i hi; rw [g6]
    · intro i hi; rw [g7]
    · intro i hi; exact g8 i (by omega)
    · intro i; rw [g6]
  have htop2 : ∀ q ∈ r', TopOk x ref pos j l S2 q := by
    intro q hq
    rcases g9 with he | hlt
    · rw [he] at hq; simp at hq
    · have hxle : x q (j + 1) ≤ x (lastD 0 r') (j + 1) := by
        rcases List.eq_nil_or_concat r' with rfl | ⟨r'', b, rfl⟩
        · simp at hq
        · rw [List.concat_eq_append] at *
          rw [lastD_append_singleton]
          rcases List.mem_append.1 hq with h' | h'
          · have hsr := List.pairwise_append.1 (List.pairwise_append.1 (g2 ▸ hsorted)).1
            exact ctx.sorted (j + 1) (by omega) hjd q (hc.sub q (hr'l q hq)) b (hc.sub b (hr'l b (by simp)))
              (hsr.2.2 q h' b (by simp))
          · simp at h'; rw [h']
      have := (hcacheL (j + 1) (by omega) (le_refl _) S).1 (h.cache (j + 1) (by omega) (le_refl _)) q (hr'l q hq)
        (lt_of_le_of_lt hxle hlt)
      exact ⟨by rw [g6]; exact this.1, by rw [g7]; exact this.2⟩
  -- the first node
  set hs : ℝ × HvState ℝ :=
    (if r'.length + 1 > 1 then
      let q := S2.prev (j + 1) p1
      let hyperv := S2.vol (j + 1) q + S2.area (j + 1) q * (x p1 (j + 1) - x q (j + 1))
      (hyperv, { S2 with vol := upd2 S2.vol (j + 1) p1 hyperv })
    else
      let S := hvAreaInit x ref p1 (j + 1) S2
      (0, { S with vol := upd2 S.vol (j + 1) p1 0 })) with hhs
  have hp1r : p1 ∉ r' := by
    intro hp
    have := (mem_hvPre.1 ((hc.pre_mem g2 p1).2 hp)).2
    omega
  have hinit : hs.1 = HV (j + 2) x r' (upd ref (j + 1) (x p1 (j + 1))) ∧ LvlInv x ref pos j l S (r' ++ [p1]) s' hs.2 ∧
      (∀ q ∈ r', TopOk x ref pos j l hs.2 q) ∧
      hs.2.vol (j + 1) p1 = HV (j + 2) x r' (upd ref (j + 1) (x p1 (j + 1))) := by
    rcases List.eq_nil_or_concat r' with hr | ⟨r'', b, hr⟩
    · have hnot : ¬ r'.length + 1 > 1 := by rw [hr]; simp
      rw [if_neg hnot] at hhs
      dsimp only at hhs
      obtain ⟨⟨ar, har⟩, hav⟩ := hvAreaInit_rest (x := x) (ref := ref) p1 (j + 1) S2
      rw [hhs]
      dsimp only
      refine ⟨by rw [hr, HV_nil], ?_, by rw [hr]; simp, by rw [upd2_same, upd_same, hr, HV_nil]⟩
      have hp10 : p1 ≠ 0 := fun h => hc.zero (h ▸ hp1l)
      have hig : (hvAreaInit x ref p1 (j + 1) S2).ignore = S2.ignore := by rw [har]
      have hvo : (hvAreaInit x ref p1 (j + 1) S2).vol = S2.vol := by rw [har]
      have hbo : (hvAreaInit x ref p1 (j + 1) S2).bound = S2.bound := by rw [har]
      have hlk : links (hvAreaInit x ref p1 (j + 1) S2) = links S2 := by rw [har]; rfl
      refine { lnk := ?_, cacheLow := ?_, flagsLow := ?_, flagsTop := ?_, flagsRest := ?_, fout := ?_, fhi := ?_,
               flo := ?_, area := ?_, vol := ?_, bound := ?_, head := ?_ }
      · exact hlk.trans hinv2.lnk
      · intro i h3 hi q hq hlt
        dsimp only at hlt ⊢
        rw [hbo] at hlt
        have hq' : q = p1 := by rw [hr] at hq; simpa using hq
        subst hq'
        have hpe : ∀ a, a ∈ hvPre pos i q (r' ++ [q]) ↔ a ∈ ([] : List ℕ) := by
          intro a
          rw [mem_hvPre, hr]
          simp only [List.nil_append, List.mem_singleton, List.not_mem_nil, iff_false]
          rintro ⟨rfl, h⟩; omega
        refine ⟨?_, ?_⟩
        · rw [hav, if_pos ⟨rfl, by omega⟩, HV_congr_mem (mem_cons_congr hpe)]
          exact boxProduct_eq q i (fun k hk => (ctx.below q (hc.sub q hp1l) k (by omega)).le)
        · rw [upd2_ne _ _ _ (by omega), hvo]
          exact (hinv2.cacheLow i h3 hi q hq hlt).2
      · intro p hp h1; dsimp only at h1; rw [hig] at h1; exact hinv2.flagsLow p hp h1
      · intro p hp h1; dsimp only at h1; rw [hig] at h1; exact hinv2.flagsTop p hp h1
      · intro p hp h1; dsimp only at h1 ⊢; rw [hig] at h1 ⊢; exact hinv2.flagsRest p hp h1
      · intro p hp; dsimp only; rw [hig]; exact hinv2.fout p hp
      · intro p hp; dsimp only; rw [hig]; exact hinv2.fhi p hp
      · intro p hp; dsimp only; rw [hig]; exact hinv2.flo p hp
      · intro i hi
        dsimp only
        funext q
        rw [hav, if_neg (by omega)]
        exact congrFun (hinv2.area i hi) q
      · intro i hi; dsimp only; rw [upd2_ne _ _ _ (by omega), hvo]; exact hinv2.vol i hi
      · intro i hi; dsimp only; rw [hbo]; exact hinv2.bound i hi
      · intro i
        dsimp only
        rw [hav, if_neg (fun h => hp10 h.1.symm)]
        exact hinv2.head i
    · rw [List.concat_eq_append] at hr
      have hyes : r'.length + 1 > 1 := by rw [hr]; simp
      rw [if_pos hyes] at hhs
      dsimp only at hhs
      have hlb : S2.prev (j + 1) p1 = b := by rw [hprev2, hr, lastD_append_singleton]
      have hbr : b ∈ r' := by rw [hr]; simp
      have hlb2 : l = r'' ++ b :: (p1 :: s') := by rw [g2, hr]; simp
      have hble : x b (j + 1) ≤ x p1 (j + 1) :=
        ctx.sorted (j + 1) (by omega) hjd b (hc.sub b (hr'l b hbr)) p1 (hc.sub p1 hp1l)
          (mem_hvPre.1 ((hc.pre_mem g2 b).2 hbr)).2
      have hval : S2.vol (j + 1) b + S2.area (j + 1) b * (x p1 (j + 1) - x b (j + 1)) =
          HV (j + 2) x r' (upd ref (j + 1) (x p1 (j + 1))) := by
        have := sweepStep hc hlb2 (x p1 (j + 1)) hble (ref := ref)
        rw [← hr] at this
        rw [this, (htop2 b hbr).1, (htop2 b hbr).2, HV_congr_mem (hc.pre_mem hlb2)]
      rw [hlb, hval] at hhs
      rw [hhs]
      dsimp only
      refine ⟨rfl, ?_, ?_, by rw [upd2_same, upd_same]⟩
      · refine { hinv2 with cacheLow := ?_, vol := ?_ }
        · intro i h3 hi q hq hlt
          dsimp only
          rw [upd2_ne _ _ _ (by omega)]
          exact hinv2.cacheLow i h3 hi q hq hlt
        · intro i hi
          dsimp only
          rw [upd2_ne _ _ _ (by omega)]
          exact hinv2.vol i hi
      · intro q hq
        have hne : q ≠ p1 := fun h => hp1r (h ▸ hq)
        refine ⟨(htop2 q hq).1, ?_⟩
        dsimp only
        rw [upd2_same, upd_ne _ _ hne]
        exact (htop2 q hq).2
  obtain ⟨hi1, hi2, hi3, hi4⟩ := hinit
  obtain ⟨hk1, hk2⟩ := skip_spec rec hrec hc g2 hi2 hi3 hi4
  obtain ⟨v, q, S', hm1, hm2, hm3, hm4⟩ := mainLoop_spec rec hrec hc s' r' p1 c (r'.length + 1) hs.1 _ g2
    (by rw [← hlen, g2]; simp; omega) rfl hk1 hk2 hi1
  have hres : hvLevel rec x ref (j + 1) c S = (v + S'.area (j + 1) q * (ref (j + 1) - x q (j + 1)), S') := by
    unfold hvLevel
    simp only
    rw [hp0, hreset]
    have e1 : S1.prev (j + 1) 0 = lastD 0 l := hp0
    rw [e1]
    rw [List.headD_nil] at g1
    rw [g1]
    simp only
    rw [← hhs, hm1]
  rw [hres]
  dsimp only
  have hlk : links S' = links S := hm2.lnk
  refine { val := by rw [hm4]; exact HV_congr_mem hmem, next := congrArg Prod.fst hlk, prev := congrArg Prod.snd hlk, flags := ?_,
           flags_out := ?_, flags_hi := hm2.fhi, flags_lo := hm2.flo, cache := ?_, area := hm2.area, vol := hm2.vol,
           bound := hm2.bound, head := hm2.head }
  · intro p hp h1
    obtain ⟨a, ha, hd⟩ := hm2.flagsTop p ((hmem p).2 hp) h1
    exact ⟨a, (hmem a).1 ha, hd⟩
  · intro p hp; exact hm2.fout p (fun h => hp ((hmem p).1 h))
  · intro i h3 hi
    rw [hcacheL i h3 hi]
    by_cases hij : i = j + 1
    · subst hij
      intro a ha _
      exact hm3 a ha
    · exact hm2.cacheLow i h3 (by omega)

end Level

/-- **Contract of `hv_recursive_ref`.** -/
theorem hvRec_spec (ctx : HvCtx x ref pos d N) (cons : HvCons x pos d N) : ∀ (k : ℕ), k + 2 < d →
    ∀ (A : List ℕ) (c : ℕ) (S : HvState ℝ), HvPreC x ref pos N (k + 2) A c S →
      HvPostC x ref pos (k + 2) A S (hvRec x ref k c S).1 (hvRec x ref k c S).2
  | 0, hk, A, c, S, h => hv3dRef_spec ctx hk A c S h
  | k + 1, hk, A, c, S, h => hvLevel_spec (hvRec x ref k) (hvRec_spec ctx cons k (by omega)) ctx cons (by omega) hk A c S h

end Moo
