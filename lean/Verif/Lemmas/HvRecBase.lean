import Verif.Lemmas.Hv3d

/-!
# Contract of `hv_recursive_ref` and its base case
-/

set_option autoImplicit false
set_option linter.unusedSectionVars false

namespace Moo

variable {x : ℕ → ℕ → ℝ} {ref : ℕ → ℝ} {pos : ℕ → ℕ → ℕ} {d : ℕ} {N : List ℕ}

/-- Facts about the nodes `N` and their positions `pos i` in the lists: every node strictly dominates the reference point, and the list
of dimension `i` is sorted by coordinate `i`. -/
structure HvCtx (x : ℕ → ℕ → ℝ) (ref : ℕ → ℝ) (pos : ℕ → ℕ → ℕ) (d : ℕ) (N : List ℕ) : Prop where
  zero : 0 ∉ N
  below : ∀ p ∈ N, ∀ k < d, x p k < ref k
  sorted : ∀ i, 2 ≤ i → i < d → ∀ p ∈ N, ∀ q ∈ N, pos i p < pos i q → x p i ≤ x q i

/-- Ties are ordered alike in successive lists. -/
def HvCons (x : ℕ → ℕ → ℝ) (pos : ℕ → ℕ → ℕ) (d : ℕ) (N : List ℕ) : Prop :=
  ∀ i, 2 ≤ i → i + 1 < d → ∀ q ∈ N, ∀ p ∈ N, pos (i + 1) q < pos (i + 1) p → x q i ≤ x p i → pos i q < pos i p

/-- `q` comes before `p` in list `j` and is not worse in the first `j` coordinates. -/
def HvDom (x : ℕ → ℕ → ℝ) (pos : ℕ → ℕ → ℕ) (j q p : ℕ) : Prop := pos j q < pos j p ∧ ∀ k < j, x q k ≤ x p k

/-- The nodes of `A` before `q` in list `i`. -/
def hvPre (pos : ℕ → ℕ → ℕ) (i q : ℕ) (A : List ℕ) : List ℕ := A.filter (fun r => decide (pos i r < pos i q))

theorem mem_hvPre {i q r : ℕ} {A : List ℕ} : r ∈ hvPre pos i q A ↔ r ∈ A ∧ pos i r < pos i q := by
  unfold hvPre; rw [List.mem_filter, decide_eq_true_iff]

/-- Values of dimension `i` stored in nodes below `bound[i]` are up to date. -/
def CacheOk (x : ℕ → ℕ → ℝ) (ref : ℕ → ℝ) (pos : ℕ → ℕ → ℕ) (i : ℕ) (A : List ℕ) (S : HvState ℝ) : Prop :=
  ∀ q ∈ A, x q i < S.bound i → S.area i q = HV i x (q :: hvPre pos i q A) ref ∧
    S.vol i q = HV (i + 1) x (hvPre pos i q A) (upd ref i (x q i))

/-- The circular list runs through the nodes of `A` in the order `ps`. -/
def LinkedSet (nx pv : ℕ → ℕ) (ps : ℕ → ℕ) (A : List ℕ) : Prop :=
  ∃ l : List ℕ, (∀ p, p ∈ l ↔ p ∈ A) ∧ l.Pairwise (fun a b => ps a < ps b) ∧ Linked nx pv l

/-- What `hv_recursive_ref` needs when it is called for dimension `j` with the nodes `A` in the lists. -/
structure HvPreC (x : ℕ → ℕ → ℝ) (ref : ℕ → ℝ) (pos : ℕ → ℕ → ℕ) (N : List ℕ) (j : ℕ) (A : List ℕ) (c : ℕ)
    (S : HvState ℝ) : Prop where
  nodup : A.Nodup
  ne : A ≠ []
  len : c = A.length
  sub : ∀ p ∈ A, p ∈ N
  lists : ∀ i, 2 ≤ i → i ≤ j → LinkedSet (S.next i) (S.prev i) (pos i) A
  flags : ∀ p ∈ A, j ≤ S.ignore p → ∃ q ∈ A, HvDom x pos j q p
  cache : ∀ i, 3 ≤ i → i ≤ j → CacheOk x ref pos i A S
  head : ∀ i, i ≤ j → S.area i 0 = 0

/-- What it achieves. -/
structure HvPostC (x : ℕ → ℕ → ℝ) (ref : ℕ → ℝ) (pos : ℕ → ℕ → ℕ) (j : ℕ) (A : List ℕ) (S : HvState ℝ) (v : ℝ)
    (S' : HvState ℝ) : Prop where
  val : v = HV (j + 1) x A ref
  next : S'.next = S.next
  prev : S'.prev = S.prev
  flags : ∀ p ∈ A, j ≤ S'.ignore p → ∃ q ∈ A, HvDom x pos j q p
  flags_out : ∀ p, p ∉ A → S'.ignore p = S.ignore p
  flags_hi : ∀ p, j < S.ignore p → S'.ignore p = S.ignore p
  flags_lo : ∀ p, S.ignore p ≤ j → S'.ignore p ≤ j
  cache : ∀ i, 3 ≤ i → i ≤ j → CacheOk x ref pos i A S'
  area : ∀ i, j < i → S'.area i = S.area i
  vol : ∀ i, j < i → S'.vol i = S.vol i
  bound : ∀ i, j < i → S'.bound i = S.bound i
  head : ∀ i, S'.area i 0 = S.area i 0

theorem LinkedFrom.last {nx pv : ℕ → ℕ} : ∀ {l : List ℕ} {a : ℕ}, LinkedFrom nx pv a l → pv 0 = lastD a l
  | [], _, h => h.2
  | q :: qs, _, h => LinkedFrom.last (l := qs) (a := q) h.2.2

theorem lastD_append_cons (a p : ℕ) (l1 l2 : List ℕ) : lastD a (l1 ++ p :: l2) = lastD p l2 := by
  induction l1 generalizing a with
  | nil => rfl
  | cons q qs ih => exact ih q

theorem hv3dLoop_spec {l : List ℕ} {nx pv : ℕ → ℕ} (hl : l.Pairwise (fun a b => pos 2 a < pos 2 b)) (h0 : 0 ∉ l)
    (hlink : Linked nx pv l) (href : ∀ p ∈ l, ∀ k < 3, x p k < ref k)
    (hsort : ∀ p ∈ l, ∀ q ∈ l, pos 2 p < pos 2 q → x p 2 ≤ x q 2) :
    ∀ (s P : List ℕ) (pp fuel : ℕ) (T : List ℕ) (hypera hyperv : ℝ) (S : HvState ℝ), l = P ++ pp :: s →
      s.length + 1 ≤ fuel → S.next 2 = nx → S.prev 2 = pv →
      Stair x T → (∀ q ∈ T, q ∈ P) → (∀ p ∈ P, ∃ q ∈ T, ∀ k < 2, x q k ≤ x p k) → hypera = HV 2 x T ref →
      hyperv = HV 3 x P (upd ref 2 (x pp 2)) →
      (∀ p ∈ l, 2 ≤ S.ignore p → ∃ q ∈ l, HvDom x pos 2 q p) →
      (hv3dLoop x ref fuel pp T hypera hyperv S).1 = HV 3 x l ref ∧
      ∃ ig, (hv3dLoop x ref fuel pp T hypera hyperv S).2 = { S with ignore := ig } ∧
        ∀ p, ig p = S.ignore p ∨ (ig p = 2 ∧ S.ignore p < 2 ∧ p ∈ l ∧ ∃ q ∈ l, HvDom x pos 2 q p) := by
  intro s
  induction s with
  | nil =>
    intro P pp fuel T hypera hyperv S hlP hfuel hnx hpv hst hTP hPT hh hv hfl
    obtain ⟨fuel, rfl⟩ : ∃ f, fuel = f + 1 := ⟨fuel - 1, by simp at hfuel; omega⟩
    have hppl : pp ∈ l := by rw [hlP]; simp
    have hPl : ∀ p ∈ P, p ∈ l := fun p hp => by rw [hlP]; simp [hp]
    have hPpos : ∀ p ∈ P, pos 2 p < pos 2 pp := fun p hp =>
      (List.pairwise_append.1 (hlP ▸ hl)).2.2 p hp pp (by simp)
    have hat := LinkedFrom.at (hlP ▸ hlink : Linked nx pv (P ++ pp :: []))
    have hlast : pv 0 = pp := by
      have := LinkedFrom.last (hlP ▸ hlink : Linked nx pv (P ++ pp :: []))
      rw [this, lastD_append_singleton]
    have hnxt : nx pp = 0 := hat.2.2.1
    have hrp := href pp hppl
    have hheight : (if pp = S.prev 2 0 then ref 2 - x pp 2 else x (S.next 2 pp) 2 - x pp 2) = ref 2 - x pp 2 := by
      rw [hpv, hlast, if_pos rfl]
    have hhpos : ref 2 - x pp 2 > 0 := sub_pos.2 (hrp 2 (by omega))
    have hfin : HV 3 x l ref = HV 3 x P (upd ref 2 (x pp 2)) + HV 2 x (pp :: P) ref * (ref 2 - x pp 2) := by
      have h1 : HV 3 x l ref = HV 3 x (pp :: P) (upd ref 2 (ref 2)) := by
        rw [HV_upd_self]
        apply HV_congr_mem
        intro p; rw [hlP]; simp only [List.mem_append, List.mem_cons]; tauto
      rw [h1, HV_sweep_step P pp (ref 2) (fun a ha => hsort a (hPl a ha) pp hppl (hPpos a ha)) (hrp 2 (by omega)).le]
    have hTref : ∀ p ∈ T, x p 0 < ref 0 ∧ x p 1 < ref 1 := fun p hp =>
      ⟨href p (hPl p (hTP p hp)) 0 (by omega), href p (hPl p (hTP p hp)) 1 (by omega)⟩
    have hdomeq : (∃ q ∈ P, ∀ k < 2, x q k ≤ x pp k) → HV 2 x T ref = HV 2 x (pp :: P) ref := by
      rintro ⟨q, hq, hqp⟩
      apply le_antisymm
      · exact HV_le_of_subset (fun a ha => List.mem_cons_of_mem _ (hTP a ha))
      · apply HV_le_of_dom
        intro p hp
        rcases List.mem_cons.1 hp with rfl | hp
        · obtain ⟨t, ht, htq⟩ := hPT q hq
          exact ⟨t, ht, fun k hk => (htq k hk).trans (hqp k hk)⟩
        · exact hPT p hp
    unfold hv3dLoop
    simp only [hheight]
    rw [hnx, hnxt, if_pos rfl]
    by_cases hig : S.ignore pp ≥ 2
    · simp only [if_pos hig]
      refine ⟨?_, S.ignore, rfl, fun p => Or.inl rfl⟩
      obtain ⟨q, hq, hdom⟩ := hfl pp hppl hig
      have hqP : q ∈ P := by
        rw [hlP] at hq
        rcases List.mem_append.1 hq with h | h
        · exact h
        · simp at h; subst h; exact absurd hdom.1 (lt_irrefl _)
      rw [hfin, ← hv, hh, hdomeq ⟨q, hqP, hdom.2⟩]
    · simp only [if_neg hig]
      have hup := hv3dUpdate_spec T pp hypera hst hTref ⟨hrp 0 (by omega), hrp 1 (by omega)⟩ hh
      cases hu : hv3dUpdate x ref T pp hypera with
      | none =>
        rw [hu] at hup
        dsimp only at hup ⊢
        obtain ⟨q, hq, hqp⟩ := hup
        rw [if_pos hhpos]
        refine ⟨?_, _, rfl, fun p => ?_⟩
        · rw [hfin, ← hv, hh, hdomeq ⟨q, hTP q hq, hqp⟩]
        · by_cases hp : p = pp
          · subst hp
            right
            exact ⟨upd_same .., by omega, hppl, q, hPl q (hTP q hq), hPpos q (hTP q hq), hqp⟩
          · left; exact upd_ne _ _ hp
      | some TH =>
        obtain ⟨T', h'⟩ := TH
        rw [hu] at hup
        dsimp only at hup ⊢
        obtain ⟨g1, g2, g3, g4⟩ := hup
        rw [if_pos hhpos]
        refine ⟨?_, S.ignore, rfl, fun p => Or.inl rfl⟩
        rw [hfin, ← hv, g4]
        congr 2
        apply le_antisymm
        · apply HV_le_of_subset
          intro a ha
          rcases g2 a ha with rfl | h
          · exact List.mem_cons_self ..
          · exact List.mem_cons_of_mem _ (hTP a h)
        · apply HV_le_of_dom
          intro p hp
          rcases List.mem_cons.1 hp with rfl | hp
          · exact g3 p (Or.inl rfl)
          · obtain ⟨q, hq, hqp⟩ := hPT p hp
            obtain ⟨t, ht, htq⟩ := g3 q (Or.inr hq)
            exact ⟨t, ht, fun k hk => (htq k hk).trans (hqp k hk)⟩
  | cons nxt s ih =>
    intro P pp fuel T hypera hyperv S hlP hfuel hnx hpv hst hTP hPT hh hv hfl
    obtain ⟨fuel, rfl⟩ : ∃ f, fuel = f + 1 := ⟨fuel - 1, by simp at hfuel; omega⟩
    have hppl : pp ∈ l := by rw [hlP]; simp
    have hnl : nxt ∈ l := by rw [hlP]; simp
    have hPl : ∀ p ∈ P, p ∈ l := fun p hp => by rw [hlP]; simp [hp]
    have hPpos : ∀ p ∈ P, pos 2 p < pos 2 pp := fun p hp =>
      (List.pairwise_append.1 (hlP ▸ hl)).2.2 p hp pp (by simp)
    have hpn : pos 2 pp < pos 2 nxt :=
      (List.pairwise_cons.1 (List.pairwise_append.1 (hlP ▸ hl)).2.1).1 nxt (by simp)
    have hat := LinkedFrom.at (hlP ▸ hlink : Linked nx pv (P ++ pp :: nxt :: s))
    have hlast : pp ≠ pv 0 := by
      have := LinkedFrom.last (hlP ▸ hlink : Linked nx pv (P ++ pp :: nxt :: s))
      rw [this, lastD_append_cons]
      intro he
      have hm : lastD pp (nxt :: s) ∈ nxt :: s := lastD_mem nxt s
      rw [← he] at hm
      have hl' := hlP ▸ hl
      exact lt_irrefl _ ((List.pairwise_cons.1 (List.pairwise_append.1 hl').2.1).1 pp hm)
    have hnxt : nx pp = nxt := hat.2.2.1
    have hrp := href pp hppl
    have hle : x pp 2 ≤ x nxt 2 := hsort pp hppl nxt hnl hpn
    have hheight : (if pp = S.prev 2 0 then ref 2 - x pp 2 else x (S.next 2 pp) 2 - x pp 2) = x nxt 2 - x pp 2 := by
      rw [hpv, if_neg hlast, hnx, hnxt]
    have hfin : HV 3 x (P ++ [pp]) (upd ref 2 (x nxt 2)) =
        HV 3 x P (upd ref 2 (x pp 2)) + HV 2 x (pp :: P) ref * (x nxt 2 - x pp 2) := by
      have h1 : HV 3 x (P ++ [pp]) (upd ref 2 (x nxt 2)) = HV 3 x (pp :: P) (upd ref 2 (x nxt 2)) := by
        apply HV_congr_mem
        intro p; simp only [List.mem_append, List.mem_cons, List.not_mem_nil, or_false]; tauto
      rw [h1, HV_sweep_step P pp (x nxt 2) (fun a ha => hsort a (hPl a ha) pp hppl (hPpos a ha)) hle]
    have hTref : ∀ p ∈ T, x p 0 < ref 0 ∧ x p 1 < ref 1 := fun p hp =>
      ⟨href p (hPl p (hTP p hp)) 0 (by omega), href p (hPl p (hTP p hp)) 1 (by omega)⟩
    have hdomeq : (∃ q ∈ P, ∀ k < 2, x q k ≤ x pp k) → HV 2 x T ref = HV 2 x (pp :: P) ref := by
      rintro ⟨q, hq, hqp⟩
      apply le_antisymm
      · exact HV_le_of_subset (fun a ha => List.mem_cons_of_mem _ (hTP a ha))
      · apply HV_le_of_dom
        intro p hp
        rcases List.mem_cons.1 hp with rfl | hp
        · obtain ⟨t, ht, htq⟩ := hPT q hq
          exact ⟨t, ht, fun k hk => (htq k hk).trans (hqp k hk)⟩
        · exact hPT p hp
    have hlP' : l = (P ++ [pp]) ++ nxt :: s := by rw [hlP]; simp
    have hn0 : nxt ≠ 0 := fun h => h0 (h ▸ hnl)
    have hfuel' : s.length + 1 ≤ fuel := by simp at hfuel; omega
    unfold hv3dLoop
    simp only [hheight]
    rw [hnx, hnxt, if_neg hn0]
    have hPT' : (∃ q ∈ P, ∀ k < 2, x q k ≤ x pp k) → ∀ p ∈ P ++ [pp], ∃ q ∈ T, ∀ k < 2, x q k ≤ x p k := by
      rintro ⟨q, hq, hqp⟩ p hp
      rcases List.mem_append.1 hp with h | h
      · exact hPT p h
      · simp at h; subst h
        obtain ⟨t, ht, htq⟩ := hPT q hq
        exact ⟨t, ht, fun k hk => (htq k hk).trans (hqp k hk)⟩
    have hTP' : ∀ q ∈ T, q ∈ P ++ [pp] := fun q hq => List.mem_append_left _ (hTP q hq)
    by_cases hig : S.ignore pp ≥ 2
    · simp only [if_pos hig]
      obtain ⟨q, hq, hdom⟩ := hfl pp hppl hig
      have hqP : q ∈ P := by
        rw [hlP] at hq
        rcases List.mem_append.1 hq with h | h
        · exact h
        · rcases List.mem_cons.1 h with rfl | h
          · exact absurd hdom.1 (lt_irrefl _)
          · exact absurd ((List.pairwise_cons.1 (List.pairwise_append.1 (hlP ▸ hl)).2.1).1 q h) (by have := hdom.1; omega)
      exact ih (P ++ [pp]) nxt fuel T hypera _ S hlP' hfuel' hnx hpv hst hTP' (hPT' ⟨q, hqP, hdom.2⟩) hh
        (by rw [hfin, ← hv, hh, hdomeq ⟨q, hqP, hdom.2⟩]) hfl
    · simp only [if_neg hig]
      have hup := hv3dUpdate_spec T pp hypera hst hTref ⟨hrp 0 (by omega), hrp 1 (by omega)⟩ hh
      have hadd : ∀ h : ℝ, (if x nxt 2 - x pp 2 > 0 then hyperv + h * (x nxt 2 - x pp 2) else hyperv) =
          hyperv + h * (x nxt 2 - x pp 2) := by
        intro h
        by_cases hp : x nxt 2 - x pp 2 > 0
        · rw [if_pos hp]
        · rw [if_neg hp]
          have : x nxt 2 - x pp 2 = 0 := le_antisymm (not_lt.1 hp) (sub_nonneg.2 hle)
          rw [this]; ring
      cases hu : hv3dUpdate x ref T pp hypera with
      | none =>
        rw [hu] at hup
        dsimp only at hup ⊢
        obtain ⟨q, hq, hqp⟩ := hup
        have hqP := hTP q hq
        have hnew : HvDom x pos 2 q pp := ⟨hPpos q hqP, hqp⟩
        rw [hadd]
        obtain ⟨r1, ig, r2, r3⟩ := ih (P ++ [pp]) nxt fuel T hypera (hyperv + hypera * (x nxt 2 - x pp 2))
          { S with ignore := upd S.ignore pp 2 } hlP' hfuel' hnx hpv hst hTP'
          (hPT' ⟨q, hqP, hqp⟩) hh (by rw [hfin, ← hv, hh, hdomeq ⟨q, hqP, hqp⟩]) (by
            intro p hp hp2
            dsimp only at hp2
            by_cases hpe : p = pp
            · subst hpe; exact ⟨q, hPl q hqP, hnew⟩
            · rw [upd_ne _ _ hpe] at hp2; exact hfl p hp hp2)
        refine ⟨r1, ig, r2, fun p => ?_⟩
        have h3 := r3 p
        dsimp only at h3
        by_cases hpe : p = pp
        · subst hpe
          rw [upd_same] at h3
          rcases h3 with h | h
          · right; exact ⟨h, by omega, hppl, q, hPl q hqP, hnew⟩
          · omega
        · rw [upd_ne _ _ hpe] at h3; exact h3
      | some TH =>
        obtain ⟨T', h'⟩ := TH
        rw [hu] at hup
        dsimp only at hup ⊢
        obtain ⟨g1, g2, g3, g4⟩ := hup
        rw [hadd]
        have gT : ∀ a ∈ T', a ∈ P ++ [pp] := by
          intro a ha
          rcases g2 a ha with rfl | h
          · simp
          · exact List.mem_append_left _ (hTP a h)
        have gP : ∀ p ∈ P ++ [pp], ∃ q ∈ T', ∀ k < 2, x q k ≤ x p k := by
          intro p hp
          rcases List.mem_append.1 hp with hp | hp
          · obtain ⟨q, hq, hqp⟩ := hPT p hp
            obtain ⟨t, ht, htq⟩ := g3 q (Or.inr hq)
            exact ⟨t, ht, fun k hk => (htq k hk).trans (hqp k hk)⟩
          · simp at hp; subst hp; exact g3 p (Or.inl rfl)
        refine ih (P ++ [pp]) nxt fuel T' h' _ S hlP' hfuel' hnx hpv g1 gT gP g4 ?_ hfl
        rw [hfin, ← hv, g4]
        congr 2
        apply le_antisymm
        · apply HV_le_of_subset
          intro a ha
          have := gT a ha
          simp only [List.mem_append, List.mem_cons, List.not_mem_nil, or_false] at this ⊢
          tauto
        · apply HV_le_of_dom
          intro p hp
          exact gP p (by simp only [List.mem_append, List.mem_cons, List.not_mem_nil, or_false] at hp ⊢; tauto)

theorem pairwise_pos_nodup {ps : ℕ → ℕ} {l : List ℕ} (h : l.Pairwise (fun a b => ps a < ps b)) : l.Nodup :=
  h.imp (fun hab => by rintro rfl; exact lt_irrefl _ hab)

theorem length_eq_of_mem_iff {l A : List ℕ} (hl : l.Nodup) (hA : A.Nodup) (h : ∀ p, p ∈ l ↔ p ∈ A) : l.length = A.length :=
  ((List.perm_ext_iff_of_nodup hl hA).2 h).length_eq

/-- The base case: `fpli_hv3d_ref`. -/
theorem hv3dRef_spec (ctx : HvCtx x ref pos d N) (hd : 2 < d) (A : List ℕ) (c : ℕ) (S : HvState ℝ)
    (h : HvPreC x ref pos N 2 A c S) :
    HvPostC x ref pos 2 A S (hv3dRef x ref c S).1 (hv3dRef x ref c S).2 := by
  obtain ⟨l, hmem, hl, hlink⟩ := h.lists 2 (le_refl _) (le_refl _)
  have h0 : 0 ∉ l := fun hz => ctx.zero (h.sub 0 ((hmem 0).1 hz))
  have hlN : ∀ p ∈ l, p ∈ N := fun p hp => h.sub p ((hmem p).1 hp)
  have href : ∀ p ∈ l, ∀ k < 3, x p k < ref k := fun p hp k hk => ctx.below p (hlN p hp) k (by omega)
  have hsort : ∀ p ∈ l, ∀ q ∈ l, pos 2 p < pos 2 q → x p 2 ≤ x q 2 := fun p hp q hq =>
    ctx.sorted 2 (le_refl _) hd p (hlN p hp) q (hlN q hq)
  have hHV : HV 3 x l ref = HV 3 x A ref := HV_congr_mem hmem
  have hlen : l.length = c := by rw [h.len]; exact length_eq_of_mem_iff (pairwise_pos_nodup hl) h.nodup hmem
  have hfl : ∀ p ∈ l, 2 ≤ S.ignore p → ∃ q ∈ l, HvDom x pos 2 q p := by
    intro p hp h2
    obtain ⟨q, hq, hd⟩ := h.flags p ((hmem p).1 hp) h2
    exact ⟨q, (hmem q).2 hq, hd⟩
  -- it suffices to give the value and the marks
  have key : (hv3dRef x ref c S).1 = HV 3 x l ref ∧ ∃ ig, (hv3dRef x ref c S).2 = { S with ignore := ig } ∧
        ∀ p, ig p = S.ignore p ∨ (ig p = 2 ∧ S.ignore p < 2 ∧ p ∈ l ∧ ∃ q ∈ l, HvDom x pos 2 q p) := by
    cases l with
    | nil => 
      exfalso; apply h.ne
      exact List.eq_nil_iff_forall_not_mem.2 (fun p hp => by simpa using (hmem p).2 hp)
    | cons pp s =>
      have hat := LinkedFrom.at (l1 := []) hlink
      have hpp : S.next 2 0 = pp := hat.2.1
      have hrp := href pp (by simp)
      have hboxT : (ref 0 - x pp 0) * (ref 1 - x pp 1) = HV 2 x [pp] ref := by
        rw [HV_singleton pp (by
          intro k
          exact (hrp k (by have := k.2; omega)).le), Fin.prod_univ_two]
        rfl
      cases s with
      | nil =>
        have hc1 : c = 1 := by rw [← hlen]; rfl
        have hnx : S.next 2 pp = 0 := hat.2.2.1
        unfold hv3dRef
        simp only [hpp, hnx, hc1, if_true]
        refine ⟨?_, S.ignore, rfl, fun p => Or.inl rfl⟩
        rw [HV_singleton pp (by
          intro k
          exact (hrp k (by have := k.2; omega)).le), Fin.prod_univ_three]
        rfl
      | cons nxt s =>
        have hc1 : c ≠ 1 := by rw [← hlen]; simp
        have hnx : S.next 2 pp = nxt := hat.2.2.1
        have hn0 : nxt ≠ 0 := fun he => h0 (by rw [← he]; simp)
        have hpn : pos 2 pp < pos 2 nxt := (List.pairwise_cons.1 hl).1 nxt (by simp)
        unfold hv3dRef
        simp only [hpp, hnx, if_neg hc1, if_neg hn0]
        refine hv3dLoop_spec hl h0 hlink href hsort s [pp] nxt c [pp] _ _ S rfl (by rw [← hlen]; simp) rfl rfl
          (List.pairwise_singleton ..) (fun q hq => hq) (fun p hp => ⟨p, hp, fun _ _ => le_rfl⟩) hboxT ?_ hfl
        rw [HV_sweep_step [] pp (x nxt 2) (by simp) (hsort pp (by simp) nxt (by simp) hpn), HV_nil, zero_add, hboxT]
  obtain ⟨hval, ig, hS, hig⟩ := key
  rw [hval, hS]
  refine { val := hHV, next := rfl, prev := rfl, flags := ?_, flags_out := ?_, flags_hi := ?_, flags_lo := ?_,
           cache := ?_, area := fun _ _ => rfl, vol := fun _ _ => rfl, bound := fun _ _ => rfl, head := fun _ => rfl }
  · intro p hp h2
    rcases hig p with h' | h'
    · dsimp only at h2
      rw [h'] at h2
      exact h.flags p hp h2
    · obtain ⟨q, hq, hd⟩ := h'.2.2.2
      exact ⟨q, (hmem q).1 hq, hd⟩
  · intro p hp
    rcases hig p with h' | h'
    · exact h'
    · exact absurd ((hmem p).1 h'.2.2.1) hp
  · intro p hp
    rcases hig p with h' | h'
    · exact h'
    · omega
  · intro p hp
    rcases hig p with h' | h'
    · dsimp only; omega
    · dsimp only; omega
  · intro i h3 h2; omega

end Moo
