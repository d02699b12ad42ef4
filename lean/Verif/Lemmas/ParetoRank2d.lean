import Verif.Lemmas.ParetoRank

set_option autoImplicit false
set_option linter.unusedSectionVars false

namespace Moo

section
variable {α : Type*} [LinearOrder α]

/-- A rank function that grows along dominance and has a predecessor of rank one less is the one of nondominated
sorting. -/
theorem inFront_of_rank {dim n : ℕ} {mx : ℕ → Bool} {pts : ℕ → ℕ → α} {ρ : ℕ → ℕ}
    (h1 : ∀ i < n, 1 ≤ ρ i) (h2 : ∀ i < n, ∀ j < n, Dom dim mx (pts j) (pts i) → ρ j < ρ i)
    (h3 : ∀ i < n, 1 < ρ i → ∃ j < n, Dom dim mx (pts j) (pts i) ∧ ρ j + 1 = ρ i) :
    ∀ i < n, InFront dim n mx pts (ρ i) i := by
  have key : ∀ r i, Remaining dim n mx pts r i ↔ i < n ∧ r + 1 ≤ ρ i := by
    intro r
    induction r with
    | zero => intro i; exact ⟨fun h => ⟨h, h1 i h⟩, fun h => h.1⟩
    | succ r ih =>
      intro i
      constructor
      · rintro ⟨hi, j, hj, hd⟩
        rw [ih] at hi hj
        have := h2 i hi.1 j hj.1 hd
        exact ⟨hi.1, by omega⟩
      · rintro ⟨hi, hr⟩
        obtain ⟨j, hj, hd, hr'⟩ := h3 i hi (by omega)
        exact ⟨(ih i).2 ⟨hi, by omega⟩, j, (ih j).2 ⟨hj, by omega⟩, hd⟩
  intro i hi
  have := h1 i hi
  obtain ⟨r, hr⟩ := Nat.exists_eq_add_of_le' this
  rw [hr, inFront_iff, key, key]
  omega

theorem dom2_iff (p q : ℕ → α) : Dom 2 allMin p q ↔
    p 0 ≤ q 0 ∧ p 1 ≤ q 1 ∧ ¬ (p 0 = q 0 ∧ p 1 = q 1) := by
  have hw : ∀ p q : ℕ → α, WeakDom 2 allMin p q ↔ p 0 ≤ q 0 ∧ p 1 ≤ q 1 := by
    intro p q
    unfold WeakDom AtLeastAsGood
    constructor
    · intro h; exact ⟨by simpa using h 0 (by omega), by simpa using h 1 (by omega)⟩
    · rintro ⟨h0, h1⟩ d hd
      rcases d with _ | _ | d
      · simpa using h0
      · simpa using h1
      · omega
  rw [dom_iff, hw, hw]
  constructor
  · rintro ⟨⟨a, b⟩, c⟩
    exact ⟨a, b, fun h => c ⟨h.1.ge, h.2.ge⟩⟩
  · rintro ⟨a, b, c⟩
    exact ⟨⟨a, b⟩, fun h => c ⟨le_antisymm a h.1, le_antisymm b h.2⟩⟩

/-- Invariant of `pareto_rank_2D` after the positions below `k` have been processed. -/
structure Rk2dInv (pos : ℕ → ℕ → α) (k : ℕ) (s : Rk2d) : Prop where
  anti : ∀ a < k, ∀ b < k, Dom 2 allMin (pos a) (pos b) → s.f a < s.f b
  pred : ∀ a < k, ∀ g, s.f a = g + 1 → ∃ b < k, s.f b = g ∧ Dom 2 allMin (pos b) (pos a)
  fle : ∀ a < k, s.f a ≤ s.nFront
  lastlt : ∀ g ≤ s.nFront, s.last g < k
  lastf : ∀ g ≤ s.nFront, s.f (s.last g) = g
  lastmax : ∀ g ≤ s.nFront, ∀ a < k, s.f a = g → a ≤ s.last g

/-- lexicographic order of the positions -/
def LexPos (pos : ℕ → ℕ → α) (n : ℕ) : Prop :=
  ∀ a b, a ≤ b → b < n → pos a 0 < pos b 0 ∨ (pos a 0 = pos b 0 ∧ pos a 1 ≤ pos b 1)

variable {pos : ℕ → ℕ → α} {k n : ℕ} {s : Rk2d}

theorem LexPos.x (h : LexPos pos n) {a b : ℕ} (hab : a ≤ b) (hb : b < n) : pos a 0 ≤ pos b 0 := by
  rcases h a b hab hb with h | h
  · exact h.le
  · exact h.1.le

theorem Rk2dInv.lemA (h : Rk2dInv pos k s) (hlex : LexPos pos n) (hk : k < n) {c g : ℕ}
    (hc : c < k) (hg : g ≤ s.nFront) (hfc : s.f c = g) (hd : Dom 2 allMin (pos c) (pos k)) :
    Dom 2 allMin (pos (s.last g)) (pos k) := by
  have hl := h.lastlt g hg
  have hnd : ¬ Dom 2 allMin (pos c) (pos (s.last g)) := by
    intro hdd
    have := h.anti c hc _ hl hdd
    rw [h.lastf g hg] at this; omega
  have hcl := h.lastmax g hg c hc hfc
  have hx := hlex.x hcl (by omega)
  rw [dom2_iff] at hd hnd ⊢
  have hy : pos (s.last g) 1 ≤ pos c 1 := by
    by_contra hy
    exact hnd ⟨hx, (not_le.1 hy).le, fun h => hy h.2.ge⟩
  refine ⟨hlex.x hl.le hk, hy.trans hd.2.1, fun hs => ?_⟩
  apply hnd
  rw [hs.1, hs.2]; exact hd

theorem Rk2dInv.mono (h : Rk2dInv pos k s) (hlex : LexPos pos n) (hk : k < n) {g g' : ℕ}
    (hgg : g' ≤ g) (hg : g ≤ s.nFront) (hd : Dom 2 allMin (pos (s.last g)) (pos k)) :
    Dom 2 allMin (pos (s.last g')) (pos k) := by
  induction g with
  | zero => have : g' = 0 := by omega
            subst this; exact hd
  | succ g ih =>
    rcases Nat.lt_or_ge g' (g + 1) with h' | h'
    · apply ih (by omega) (by omega)
      obtain ⟨b, hb, hbf, hbd⟩ := h.pred _ (h.lastlt _ hg) g (h.lastf _ hg)
      exact h.lemA hlex hk hb (by omega) hbf (hbd.trans hd)
    · have : g' = g + 1 := by omega
      subst this; exact hd

theorem Rk2dInv.same (h : Rk2dInv pos k s) (hlex : LexPos pos n) (hk : k < n) {g g' : ℕ}
    (hgg : g' < g) (hg : g ≤ s.nFront) (h0 : pos k 0 = pos (s.last g) 0)
    (h1 : pos k 1 = pos (s.last g) 1) :
    Dom 2 allMin (pos (s.last g')) (pos k) := by
  obtain ⟨m, rfl⟩ : ∃ m, g = m + 1 := ⟨g - 1, by omega⟩
  obtain ⟨b, hb, hbf, hbd⟩ := h.pred _ (h.lastlt _ hg) m (h.lastf _ hg)
  have hbd' : Dom 2 allMin (pos b) (pos k) := by
    rw [dom2_iff] at *; rw [h0, h1]; exact hbd
  exact h.mono hlex hk (by omega) (by omega) (h.lemA hlex hk hb (by omega) hbf hbd')

theorem rkSearch_spec (h : Rk2dInv pos k s) (hlex : LexPos pos n) (hk : k < n) (fuel : ℕ) :
    ∀ low high, low < high → high ≤ s.nFront + 1 → high - low < fuel →
      (∀ g < low, Dom 2 allMin (pos (s.last g)) (pos k)) →
      (∀ g, high ≤ g → g ≤ s.nFront → ¬ Dom 2 allMin (pos (s.last g)) (pos k)) →
      ∃ r, rkSearch pos s.last s.nFront (pos k) fuel low high = some r ∧
        (∀ g < r, g ≤ s.nFront → Dom 2 allMin (pos (s.last g)) (pos k)) ∧
        (r ≤ s.nFront → ¬ Dom 2 allMin (pos (s.last r)) (pos k)) ∧ r ≤ s.nFront + 1 := by
  induction fuel with
  | zero => intro low high _ _ hf; omega
  | succ fuel ih =>
    intro low high hlh hh hf hlo hhi
    have hmid1 : low + (high - low) / 2 < high := by omega
    generalize hm : low + (high - low) / 2 = mid at hmid1
    have hmid0 : low ≤ mid := by omega
    have hmn : mid ≤ s.nFront := by omega
    have hx := hlex.x (h.lastlt mid hmn).le hk
    unfold rkSearch
    simp only [hm, not_true_eq_false, if_false, hmn]
    by_cases c1 : pos k 1 < pos (s.last mid) 1
    · rw [if_pos c1]
      have hnd : ¬ Dom 2 allMin (pos (s.last mid)) (pos k) := by
        rw [dom2_iff]; exact fun hh => absurd hh.2.1 (not_le.2 c1)
      have hhi' : ∀ g, mid ≤ g → g ≤ s.nFront → ¬ Dom 2 allMin (pos (s.last g)) (pos k) :=
        fun g hg hgn hd => hnd (h.mono hlex hk hg hgn hd)
      by_cases c2 : low < mid
      · rw [if_pos c2]
        exact ih low mid c2 (by omega) (by omega) hlo hhi'
      · rw [if_neg c2]
        have : low = mid := by omega
        subst this
        exact ⟨low, rfl, fun g hg _ => hlo g hg, fun hr => hhi' low le_rfl hr, by omega⟩
    · rw [if_neg c1]
      rw [not_lt] at c1
      by_cases c3 : pos k 1 > pos (s.last mid) 1 ∨ pos k 1 = pos (s.last mid) 1 ∧ pos k 0 > pos (s.last mid) 0
      · rw [if_pos c3]
        have hd : Dom 2 allMin (pos (s.last mid)) (pos k) := by
          rw [dom2_iff]
          refine ⟨hx, c1, fun hh => ?_⟩
          rcases c3 with c | c
          · exact absurd hh.2 c.ne
          · exact absurd hh.1 c.2.ne
        have hlo' : ∀ g < mid + 1, Dom 2 allMin (pos (s.last g)) (pos k) :=
          fun g hg => h.mono hlex hk (by omega) hmn hd
        by_cases c2 : mid + 1 < high
        · rw [if_pos c2]
          exact ih (mid + 1) high c2 hh (by omega) hlo' hhi
        · rw [if_neg c2]
          exact ⟨mid + 1, rfl, fun g hg _ => hlo' g hg, fun hr => hhi _ (by omega) hr, by omega⟩
      · rw [if_neg c3]
        push Not at c3
        have hy : pos k 1 = pos (s.last mid) 1 := le_antisymm c3.1 c1
        have hx' : pos k 0 = pos (s.last mid) 0 := le_antisymm (c3.2 hy) hx
        refine ⟨mid, rfl, fun g hg _ => h.same hlex hk hg hmn hx' hy, fun _ => ?_, by omega⟩
        rw [dom2_iff]; exact fun hh => hh.2.2 ⟨hx'.symm, hy.symm⟩

/-- assigning position `k` to the first front that does not dominate it keeps the invariant -/
theorem Rk2dInv.assign (h : Rk2dInv pos k s) (hlex : LexPos pos n) (hk : k < n) (r N : ℕ)
    (hr : r ≤ s.nFront + 1) (hN : N = max s.nFront r)
    (hlo : ∀ g < r, g ≤ s.nFront → Dom 2 allMin (pos (s.last g)) (pos k))
    (hhi : r ≤ s.nFront → ¬ Dom 2 allMin (pos (s.last r)) (pos k)) :
    Rk2dInv pos (k + 1) ⟨N, upd s.last r k, upd s.f k r⟩ := by
  have hfk : ∀ a < k, upd s.f k r a = s.f a := fun a ha => upd_ne _ _ (by omega)
  constructor
  · intro a ha b hb hd
    simp only
    rcases Nat.lt_or_ge a k with ha' | ha'
    · rcases Nat.lt_or_ge b k with hb' | hb'
      · rw [hfk a ha', hfk b hb']; exact h.anti a ha' b hb' hd
      · have : b = k := by omega
        subst this
        rw [upd_same, hfk a ha']
        by_contra hlt
        have hfa := h.fle a ha'
        have hd2 := h.lemA hlex hk ha' hfa rfl hd
        exact hhi (by omega) (h.mono hlex hk (by omega) hfa hd2)
    · have : a = k := by omega
      subst this
      rcases Nat.lt_or_ge b a with hb' | hb'
      · exfalso
        rw [dom2_iff] at hd
        rcases hlex b a hb'.le hk with hl | hl
        · exact absurd hd.1 (not_le.2 hl)
        · exact hd.2.2 ⟨hl.1.symm, le_antisymm hd.2.1 hl.2⟩
      · have : b = a := by omega
        subst this; exact absurd hd Dom.irrefl
  · intro a ha g hg
    simp only at hg ⊢
    rcases Nat.lt_or_ge a k with ha' | ha'
    · rw [hfk a ha'] at hg
      obtain ⟨b, hb, hbf, hbd⟩ := h.pred a ha' g hg
      exact ⟨b, by omega, by rw [hfk b hb]; exact hbf, hbd⟩
    · have : a = k := by omega
      subst this
      rw [upd_same] at hg
      have hgn : g ≤ s.nFront := by omega
      exact ⟨s.last g, by have := h.lastlt g hgn; omega, by rw [hfk _ (h.lastlt g hgn)]; exact h.lastf g hgn,
        hlo g (by omega) hgn⟩
  · intro a ha
    simp only
    rcases Nat.lt_or_ge a k with ha' | ha'
    · rw [hfk a ha']; have := h.fle a ha'; omega
    · have : a = k := by omega
      subst this
      rw [upd_same]; omega
  · intro g hg
    simp only at hg ⊢
    by_cases hgr : g = r
    · subst hgr; rw [upd_same]; omega
    · rw [upd_ne _ _ hgr]; have := h.lastlt g (by omega); omega
  · intro g hg
    simp only at hg ⊢
    by_cases hgr : g = r
    · subst hgr; rw [upd_same, upd_same]
    · rw [upd_ne _ _ hgr, hfk _ (h.lastlt g (by omega))]; exact h.lastf g (by omega)
  · intro g hg a ha hfa
    simp only at hg hfa ⊢
    by_cases hgr : g = r
    · subst hgr; rw [upd_same]; omega
    · rw [upd_ne _ _ hgr]
      have hak : a ≠ k := by rintro rfl; rw [upd_same] at hfa; exact hgr hfa.symm
      rw [upd_ne _ _ hak] at hfa
      exact h.lastmax g (by omega) a (by omega) hfa

theorem rk2dStep_spec (h : Rk2dInv pos k s) (hlex : LexPos pos n) (hk : k < n) :
    ∃ s', rk2dStep pos k s = some s' ∧ Rk2dInv pos (k + 1) s' := by
  have hl := h.lastlt s.nFront le_rfl
  have hx := hlex.x hl.le hk
  unfold rk2dStep
  simp only
  by_cases c1 : pos k 1 < pos (s.last s.nFront) 1
  · rw [if_pos c1]
    obtain ⟨r, e, h1, h2, h3⟩ := rkSearch_spec h hlex hk (s.nFront + 2) 0 (s.nFront + 1) (by omega) le_rfl
      (by omega) (by intro g hg; omega) (by intro g hg hg'; omega)
    have hr : r ≤ s.nFront := by
      by_contra hr
      have := h1 s.nFront (by omega) le_rfl
      rw [dom2_iff] at this
      exact absurd this.2.1 (not_le.2 c1)
    have hassert : pos k 1 < pos (s.last r) 1 ∨ pos k 1 = pos (s.last r) 1 ∧ pos k 0 = pos (s.last r) 0 := by
      have hnd := h2 hr
      have hxr := hlex.x (h.lastlt r hr).le hk
      rw [dom2_iff] at hnd
      by_contra hc
      push Not at hc
      exact hnd ⟨hxr, hc.1, fun he => hc.2 he.2.symm he.1.symm⟩
    rw [e]
    simp only [hr, not_true_eq_false, if_false, hassert]
    exact ⟨_, rfl, h.assign hlex hk r s.nFront h3 (by omega) h1 h2⟩
  · rw [if_neg c1]
    rw [not_lt] at c1
    by_cases c2 : pos k 1 = pos (s.last s.nFront) 1 ∧ pos k 0 = pos (s.last s.nFront) 0
    · rw [if_pos c2]
      refine ⟨_, rfl, h.assign hlex hk s.nFront s.nFront (by omega) (by omega)
        (fun g hg _ => h.same hlex hk hg le_rfl c2.2 c2.1) (fun _ => ?_)⟩
      rw [dom2_iff]; exact fun hh => hh.2.2 ⟨c2.2.symm, c2.1.symm⟩
    · rw [if_neg c2]
      have hd : Dom 2 allMin (pos (s.last s.nFront)) (pos k) := by
        rw [dom2_iff]; exact ⟨hx, c1, fun hh => c2 ⟨hh.2.symm, hh.1.symm⟩⟩
      exact ⟨_, rfl, h.assign hlex hk (s.nFront + 1) (s.nFront + 1) le_rfl (by omega)
        (fun g hg hg' => h.mono hlex hk hg' le_rfl hd) (fun hh => by omega)⟩

theorem rk2dLoop_spec (hlex : LexPos pos n) (m : ℕ) :
    ∀ k s, Rk2dInv pos k s → k + m = n →
      ∃ s', rk2dLoop pos (List.range' k m) s = some s' ∧ Rk2dInv pos n s' := by
  induction m with
  | zero => intro k s h hk; have : k = n := by omega
            subst this; exact ⟨s, rfl, h⟩
  | succ m ih =>
    intro k s h hk
    obtain ⟨s', e, h'⟩ := rk2dStep_spec h hlex (by omega)
    rw [List.range'_succ]
    unfold rk2dLoop
    rw [e]
    exact ih (k + 1) s' h' (by omega)

theorem rk2dStore_get (f : ℕ → ℕ) (l : List ℕ) (hl : l.Nodup) :
    ∀ (k : ℕ) (rank : ℕ → ℕ) (t : ℕ) (ht : t < l.length),
      rk2dStore f k l rank l[t] = f (k + t) + 1 := by
  have hout : ∀ (l : List ℕ) (k : ℕ) (rank : ℕ → ℕ) (i : ℕ), i ∉ l → rk2dStore f k l rank i = rank i := by
    intro l
    induction l with
    | nil => intro k rank i _; rfl
    | cons a l ih =>
      intro k rank i hi
      rw [List.mem_cons, not_or] at hi
      unfold rk2dStore
      rw [ih _ _ _ hi.2, upd_ne _ _ hi.1]
  induction l with
  | nil => intro k rank t ht; simp at ht
  | cons a l ih =>
    intro k rank t ht
    rw [List.nodup_cons] at hl
    unfold rk2dStore
    cases t with
    | zero => simp only [List.getElem_cons_zero, Nat.add_zero]; rw [hout _ _ _ _ hl.1, upd_same]
    | succ t =>
      simp only [List.getElem_cons_succ]
      rw [ih hl.2]
      congr 2; omega

theorem point2dFrontCmp_eq (p q : ℕ → α) : point2dFrontCmp p q = compareXascYasc p q := rfl

theorem paretoRank2d_spec (garbage : ℕ → ℕ) (pts : ℕ → ℕ → α) (size : ℕ) (p : List ℕ)
    (hp : SortedFront pts size p) (hs : 0 < size) :
    ∃ rank, paretoRank2d garbage pts size p = .done rank ∧
      ∀ i < size, InFront 2 size allMin pts (rank i) i := by
  obtain ⟨hperm, hpw⟩ := hp
  have hlen : p.length = size := by have := hperm.length_eq; simpa using this
  have hnodup : p.Nodup := hperm.nodup_iff.2 List.nodup_range
  have hget : ∀ k (hk : k < size), p.getD k 0 = p[k]'(by omega) := by
    intro k hk
    rw [List.getD_eq_getElem?_getD, List.getElem?_eq_getElem (by omega), Option.getD_some]
  have hlex : LexPos (fun k => pts (p.getD k 0)) size := by
    intro a b hab hb
    rcases Nat.lt_or_ge a b with h | h
    · simp only
      rw [hget a (by omega), hget b hb]
      have := List.pairwise_iff_getElem.1 hpw a b (by omega) (by omega) h
      beta_reduce at this
      rw [point2dFrontCmp_eq, compareXascYasc_le] at this
      exact this
    · have : a = b := by omega
      subst this; exact Or.inr ⟨rfl, le_rfl⟩
  have hinit : Rk2dInv (fun k => pts (p.getD k 0)) 1 ⟨0, fun _ => 0, fun _ => 0⟩ := by
    constructor
    · intro a ha b hb hd
      have h1 : a = 0 := by omega
      have h2 : b = 0 := by omega
      subst h1; subst h2; exact absurd hd Dom.irrefl
    · intro a ha g hg; simp at hg
    · intro a ha; exact le_rfl
    · intro g hg; exact Nat.one_pos
    · intro g hg; simp only at hg ⊢; omega
    · intro g hg a ha _; simp only; omega
  obtain ⟨s, e, hinv⟩ := rk2dLoop_spec hlex (size - 1) 1 _ hinit (by omega)
  unfold paretoRank2d
  rw [if_neg (by omega)]
  simp only [e]
  refine ⟨_, rfl, ?_⟩
  have hpos : ∀ i < size, ∃ t, ∃ ht : t < size, p[t]'(by omega) = i := by
    intro i hi
    have : i ∈ p := hperm.mem_iff.2 (List.mem_range.2 hi)
    obtain ⟨t, ht, e⟩ := List.getElem_of_mem this
    exact ⟨t, by omega, e⟩
  have hst : ∀ t (ht : t < size), rk2dStore s.f 0 p garbage (p[t]'(by omega)) = s.f t + 1 := by
    intro t ht
    rw [rk2dStore_get _ _ hnodup]
    simp
  apply inFront_of_rank
  · intro i hi
    obtain ⟨t, ht, rfl⟩ := hpos i hi
    rw [hst t ht]; omega
  · intro i hi j hj hd
    obtain ⟨t, ht, rfl⟩ := hpos i hi
    obtain ⟨u, hu, rfl⟩ := hpos j hj
    rw [hst t ht, hst u hu]
    have := hinv.anti u hu t ht (by rw [hget u hu, hget t ht]; exact hd)
    omega
  · intro i hi h1
    obtain ⟨t, ht, rfl⟩ := hpos i hi
    rw [hst t ht] at h1 ⊢
    obtain ⟨u, hu, huf, hud⟩ := hinv.pred t ht (s.f t - 1) (by omega)
    simp only [hget u hu, hget t ht] at hud
    refine ⟨p[u]'(by omega), ?_, hud, ?_⟩
    · exact List.mem_range.1 (hperm.mem_iff.1 (List.getElem_mem _))
    · rw [hst u hu]; omega

end

end Moo
