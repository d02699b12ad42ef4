import Verif.Lemmas.HvLinks
import Verif.Lemmas.Volume
import Mathlib.Data.List.TakeWhile

/-!
# `fpli_hv3d_ref` computes the volume of the dominated region
-/

set_option autoImplicit false
set_option linter.unusedSectionVars false

namespace Moo

variable {x : ℕ → ℕ → ℝ} {ref : ℕ → ℝ} {pos : ℕ → ℕ → ℕ}

/-- One step of a sweep along coordinate `d`. -/
theorem HV_sweep_step {d : ℕ} (A : List ℕ) (p : ℕ) (z : ℝ) (hA : ∀ a ∈ A, x a d ≤ x p d) (hz : x p d ≤ z) :
    HV (d + 1) x (p :: A) (upd ref d z) = HV (d + 1) x A (upd ref d (x p d)) + HV d x (p :: A) ref * (z - x p d) := by
  rw [HV_slab (x p d) z hz (A := p :: A) _ (p :: A)]
  · congr 1
    apply HV_drop_last
    · intro q hq; exact List.mem_cons_of_mem _ hq
    · intro q hq
      rcases List.mem_cons.1 hq with rfl | hq
      · right; exact le_rfl
      · left; exact hq
  · intro q
    refine ⟨fun hq => ⟨hq, ?_⟩, fun hq => hq.1⟩
    rcases List.mem_cons.1 hq with rfl | hq
    · exact le_rfl
    · exact hA q hq
  · intro q hq
    left
    rcases List.mem_cons.1 hq with rfl | hq
    · exact le_rfl
    · exact hA q hq

/-- `T` is a staircase: from first to last the second coordinate strictly decreases and the first one weakly increases. -/
def Stair (x : ℕ → ℕ → ℝ) (T : List ℕ) : Prop := T.Pairwise (fun a b => x b 1 < x a 1 ∧ x a 0 ≤ x b 0)

/-- second coordinate of the first item of a chain or of the reference point -/
noncomputable def prevY (x : ℕ → ℕ → ℝ) (ref : ℕ → ℝ) : List ℕ → ℝ
  | [] => ref 1
  | t :: _ => x t 1

theorem stair_insert (R Suf : List ℕ) (c : ℕ) (hst : Stair x (R.reverse ++ c :: Suf))
    (hR : ∀ p ∈ R, x p 1 < ref 1) (hS : ∀ p ∈ Suf, x p 0 < ref 0) (hc : x c 0 < ref 0 ∧ x c 1 < ref 1) :
    HV 2 x (R.reverse ++ c :: Suf) ref =
      HV 2 x (R.reverse ++ Suf) ref + (prevY x ref R - x c 1) * (nextX x ref Suf - x c 0) := by
  have hst' := List.pairwise_append.1 hst
  have hcS := List.pairwise_cons.1 hst'.2.1
  have hRc : ∀ a ∈ R, x c 1 < x a 1 ∧ x a 0 ≤ x c 0 := fun a ha => hst'.2.2 a (List.mem_reverse.2 ha) c (by simp)
  apply HV_two_insert
  · cases Suf with
    | nil => exact hc.1.le
    | cons b Suf => exact (hcS.1 b (by simp)).2
  · cases R with
    | nil => exact hc.2.le
    | cons a R => exact (hRc a (by simp)).1.le
  · intro a ha; exact (hRc a (List.mem_reverse.1 ha)).2
  · intro b hb; exact (hcS.1 b hb).1.le
  · intro a ha
    cases R with
    | nil => simp at ha
    | cons r R =>
      rw [List.mem_reverse] at ha
      rcases List.mem_cons.1 ha with rfl | ha
      · exact le_rfl
      · have h1 := hst'.1
        rw [List.reverse_cons] at h1
        exact ((List.pairwise_append.1 h1).2.2 a (List.mem_reverse.2 ha) r (by simp)).1.le
  · intro b hb
    cases Suf with
    | nil => simp at hb
    | cons t Suf =>
      rcases List.mem_cons.1 hb with rfl | hb
      · exact le_rfl
      · exact ((List.pairwise_cons.1 hcS.2).1 b hb).2
  · cases R with
    | nil => left; rfl
    | cons a R => right; exact ⟨a, by simp, rfl⟩
  · cases Suf with
    | nil => left; rfl
    | cons b Suf => right; exact ⟨b, by simp, rfl⟩
  · cases R with
    | nil => exact le_rfl
    | cons a R => exact (hR a (by simp)).le
  · cases Suf with
    | nil => exact le_rfl
    | cons b Suf => exact (hS b (by simp)).le

theorem hv3dPop_spec (pp : ℕ) (Suf : List ℕ) : ∀ (R : List ℕ) (hypera : ℝ), R ≠ [] → Stair x (R.reverse ++ Suf) →
    (∀ p ∈ R, x p 0 < ref 0 ∧ x p 1 < ref 1) → (∀ p ∈ Suf, x p 0 < ref 0) →
    x pp 0 ≤ x (R.headD 0) 0 → hypera = HV 2 x (R.reverse ++ Suf) ref →
    ∃ P R', R = P ++ R' ∧ (∀ a ∈ P, x pp 0 ≤ x a 0) ∧ P ≠ [] ∧ (∀ a ∈ R', x a 0 < x pp 0) ∧
      hv3dPop x ref pp (nextX x ref Suf) R hypera = (R', HV 2 x (R'.reverse ++ Suf) ref, prevY x ref R') := by
  intro R
  induction R with
  | nil => intro hypera h; exact absurd rfl h
  | cons cur rest ih =>
    intro hypera _ hst hR hS hhead hh
    have hst2 : Stair x (rest.reverse ++ cur :: Suf) := by
      rw [List.reverse_cons, List.append_assoc] at hst; exact hst
    have hins := stair_insert rest Suf cur hst2 (fun p hp => (hR p (List.mem_cons_of_mem _ hp)).2) hS
      (hR cur (by simp))
    have hh2 : hypera = HV 2 x (rest.reverse ++ cur :: Suf) ref := by
      rw [hh, List.reverse_cons, List.append_assoc]; rfl
    cases rest with
    | nil =>
      refine ⟨[cur], [], rfl, ?_, by simp, by simp, ?_⟩
      · intro a ha; simp at ha; subst ha; exact hhead
      · unfold hv3dPop
        rw [hh2, hins]
        simp only [prevY]
        congr 2
        ring
    | cons prv rest =>
      have hval : hypera - (x prv 1 - x cur 1) * (nextX x ref Suf - x cur 0) = HV 2 x ((prv :: rest).reverse ++ Suf) ref := by
        rw [hh2, hins]; simp only [prevY]; ring
      have hst3 : Stair x ((prv :: rest).reverse ++ Suf) := by
        have h := List.pairwise_append.1 hst2
        refine List.pairwise_append.2 ⟨h.1, (List.pairwise_cons.1 h.2.1).2, fun a ha b hb => h.2.2 a ha b (List.mem_cons_of_mem _ hb)⟩
      unfold hv3dPop
      dsimp only
      by_cases hlt : x prv 0 < x pp 0
      · rw [if_pos hlt, hval]
        refine ⟨[cur], prv :: rest, rfl, ?_, by simp, ?_, rfl⟩
        · intro a ha; simp at ha; subst ha; exact hhead
        · intro a ha
          rcases List.mem_cons.1 ha with rfl | ha
          · exact hlt
          · have h1 := (List.pairwise_append.1 hst3).1
            rw [List.reverse_cons] at h1
            exact lt_of_le_of_lt ((List.pairwise_append.1 h1).2.2 a (List.mem_reverse.2 ha) prv (by simp)).2 hlt
      · rw [if_neg hlt]
        obtain ⟨P, R', h1, h2, _, h3, h4⟩ := ih _ (by simp) hst3 (fun p hp => hR p (List.mem_cons_of_mem _ hp)) hS
          (not_lt.1 hlt) hval
        refine ⟨cur :: P, R', by rw [h1]; rfl, ?_, by simp, h3, h4⟩
        intro a ha
        rcases List.mem_cons.1 ha with rfl | ha
        · exact hhead
        · exact h2 a ha

theorem cmpTree_pos {a b : ℕ → ℝ} : 0 < compareTreeAsc a b ↔ a 1 < b 1 ∨ (a 1 = b 1 ∧ a 0 < b 0) := by
  unfold compareTreeAsc
  constructor
  · intro h
    split at h
    · omega
    · split at h
      · left; assumption
      · split at h
        · omega
        · right; exact ⟨le_antisymm (not_lt.1 ‹_›) (not_lt.1 ‹_›), not_le.1 ‹_›⟩
  · rintro (h | ⟨h1, h2⟩)
    · rw [if_neg (not_lt.2 h.le), if_pos h]; omega
    · rw [if_neg (by rw [h1]; exact lt_irrefl _), if_neg (by rw [h1]; exact lt_irrefl _), if_neg (not_le.2 h2)]; omega

theorem cmpTree_not_pos {a b : ℕ → ℝ} (h : ¬ 0 < compareTreeAsc a b) : b 1 ≤ a 1 ∧ (b 1 = a 1 → b 0 ≤ a 0) := by
  rw [cmpTree_pos] at h
  push Not at h
  exact ⟨h.1, fun he => h.2 he.symm⟩

/-- `hv3dUpdate` keeps a staircase with the same area as all points seen so far. -/
theorem hv3dUpdate_spec (T : List ℕ) (pp : ℕ) (hypera : ℝ) (hst : Stair x T)
    (hT : ∀ p ∈ T, x p 0 < ref 0 ∧ x p 1 < ref 1) (hpp : x pp 0 < ref 0 ∧ x pp 1 < ref 1)
    (hh : hypera = HV 2 x T ref) :
    match hv3dUpdate x ref T pp hypera with
    | none => ∃ q ∈ T, ∀ k < 2, x q k ≤ x pp k
    | some (T', h') => Stair x T' ∧ (∀ q ∈ T', q = pp ∨ q ∈ T) ∧ (∀ p, p = pp ∨ p ∈ T → ∃ q ∈ T', ∀ k < 2, x q k ≤ x p k) ∧
        h' = HV 2 x T' ref := by
  have two : ∀ {a b : ℕ}, x a 0 ≤ x b 0 → x a 1 ≤ x b 1 → ∀ k < 2, x a k ≤ x b k := by
    intro a b h0 h1 k hk
    rcases (by omega : k = 0 ∨ k = 1) with rfl | rfl
    · exact h0
    · exact h1
  set f : ℕ → Bool := fun t => decide (0 < compareTreeAsc (x pp) (x t)) with hf
  set pre := T.takeWhile f with hpre
  set suf := T.dropWhile f with hsuf
  have hsplit : T = pre ++ suf := (List.takeWhile_append_dropWhile ..).symm
  have hpreP : ∀ a ∈ pre, x pp 1 < x a 1 ∨ (x pp 1 = x a 1 ∧ x pp 0 < x a 0) := by
    intro a ha
    have := List.mem_takeWhile_imp ha
    exact cmpTree_pos.1 (of_decide_eq_true this)
  have hst2 : Stair x (pre ++ suf) := hsplit ▸ hst
  have hst2' := List.pairwise_append.1 hst2
  have hsufhead : ∀ t rest, suf = t :: rest → x t 1 ≤ x pp 1 ∧ (x t 1 = x pp 1 → x t 0 ≤ x pp 0) := by
    intro t rest he
    have h1 : ¬ f t = true := by
      have := List.head_dropWhile_not f (l := T) (by rw [← hsuf, he]; simp)
      simp only [← hsuf, he, List.head_cons] at this
      simp [this]
    exact cmpTree_not_pos (fun h => h1 (decide_eq_true h))
  have hmem : ∀ p, p ∈ T ↔ p ∈ pre ∨ p ∈ suf := by intro p; rw [hsplit, List.mem_append]
  have hval : hv3dUpdate x ref T pp hypera =
      (if nextX x ref suf > x pp 0 then
        match pre.reverse with
        | [] => some (pp :: suf, hypera + (ref 1 - x pp 1) * (nextX x ref suf - x pp 0))
        | t :: rest =>
          if x t 0 > x pp 0 then
            let r := hv3dPop x ref pp (nextX x ref suf) (t :: rest) hypera
            some (r.1.reverse ++ pp :: suf, r.2.1 + (r.2.2 - x pp 1) * (nextX x ref suf - x pp 0))
          else some (pre ++ pp :: suf, hypera + (x t 1 - x pp 1) * (nextX x ref suf - x pp 0))
      else none) := by
    rfl
  rw [hval]
  by_cases hgt : nextX x ref suf > x pp 0
  · rw [if_pos hgt]
    -- all items after `pp` are below it and to the right
    have hsufP : ∀ b ∈ suf, x b 1 < x pp 1 ∧ x pp 0 < x b 0 := by
      cases hs : suf with
      | nil => simp
      | cons t rest =>
        have h1 := hsufhead t rest hs
        have h2 : x pp 0 < x t 0 := by rw [hs] at hgt; exact hgt
        have h3 : x t 1 < x pp 1 := lt_of_le_of_ne h1.1 (fun he => absurd (h1.2 he) (not_le.2 h2))
        intro b hb
        rcases List.mem_cons.1 hb with rfl | hb
        · exact ⟨h3, h2⟩
        · have h4 := (List.pairwise_cons.1 (hs ▸ hst2'.2.1)).1 b hb
          exact ⟨h4.1.trans h3, lt_of_lt_of_le h2 h4.2⟩
    have hTsuf : ∀ p ∈ suf, x p 0 < ref 0 := fun p hp => (hT p ((hmem p).2 (Or.inr hp))).1
    have hTpre : ∀ p ∈ pre, x p 0 < ref 0 ∧ x p 1 < ref 1 := fun p hp => hT p ((hmem p).2 (Or.inl hp))
    -- inserting `pp` between a chain `R` and `suf`
    have hins : ∀ R : List ℕ, (∀ a ∈ R, a ∈ pre) → Stair x R.reverse → (∀ a ∈ R, x pp 1 < x a 1 ∧ x a 0 ≤ x pp 0) →
        Stair x (R.reverse ++ pp :: suf) ∧ HV 2 x (R.reverse ++ pp :: suf) ref =
          HV 2 x (R.reverse ++ suf) ref + (prevY x ref R - x pp 1) * (nextX x ref suf - x pp 0) := by
      intro R hsub hstR hR
      have hs : Stair x (R.reverse ++ pp :: suf) := by
        refine List.pairwise_append.2 ⟨hstR, List.pairwise_cons.2 ⟨fun b hb => ⟨(hsufP b hb).1, (hsufP b hb).2.le⟩, hst2'.2.1⟩, ?_⟩
        intro a ha b hb
        rw [List.mem_reverse] at ha
        rcases List.mem_cons.1 hb with rfl | hb
        · exact hR a ha
        · exact hst2'.2.2 a (hsub a ha) b hb
      exact ⟨hs, stair_insert R suf pp hs (fun p hp => (hTpre p (hsub p hp)).2) hTsuf hpp⟩
    cases hrev : pre.reverse with
    | nil =>
      have hpe : pre = [] := by simpa using hrev
      dsimp only
      obtain ⟨h1, h2⟩ := hins [] (by simp) List.Pairwise.nil (by simp)
      simp only [List.reverse_nil, List.nil_append] at h1 h2
      refine ⟨h1, ?_, ?_, ?_⟩
      · intro q hq
        rcases List.mem_cons.1 hq with rfl | hq
        · exact Or.inl rfl
        · exact Or.inr ((hmem q).2 (Or.inr hq))
      · rintro p (rfl | hp)
        · exact ⟨p, List.mem_cons_self .., fun _ _ => le_rfl⟩
        · rcases (hmem p).1 hp with h | h
          · rw [hpe] at h; simp at h
          · exact ⟨p, List.mem_cons_of_mem _ h, fun _ _ => le_rfl⟩
      · have : T = suf := by rw [hsplit, hpe]; rfl
        rw [h2, hh, ← this]; rfl
    | cons t rest =>
      dsimp only
      have hpe : pre = (t :: rest).reverse := by rw [← hrev, List.reverse_reverse]
      have htpre : t ∈ pre := by rw [hpe]; simp
      by_cases htgt : x t 0 > x pp 0
      · rw [if_pos htgt]
        obtain ⟨P, R', h1, h2, h2', h3, h4⟩ := hv3dPop_spec (ref := ref) pp suf (t :: rest) hypera (by simp)
          (by rw [← hpe]; exact hst2) (fun p hp => hTpre p (by rw [hpe, List.mem_reverse]; exact hp)) hTsuf
          (by exact le_of_lt htgt) (by rw [hh, ← hpe, ← hsplit])
        rw [h4]
        dsimp only
        have hpe' : pre = R'.reverse ++ P.reverse := by rw [hpe, h1, List.reverse_append]
        have hRsub : ∀ a ∈ R', a ∈ pre := fun a ha => by rw [hpe']; simp [ha]
        have hPsub : ∀ a ∈ P, a ∈ pre := fun a ha => by rw [hpe']; simp [ha]
        have hstpre := List.pairwise_append.1 (hpe' ▸ hst2'.1)
        have hRP : ∀ a ∈ R', x pp 1 < x a 1 ∧ x a 0 ≤ x pp 0 := by
          intro a ha
          refine ⟨?_, (h3 a ha).le⟩
          rcases hpreP a (hRsub a ha) with h | h
          · exact h
          · exact absurd h.2 (not_lt.2 (h3 a ha).le)
        obtain ⟨g1, g2⟩ := hins R' hRsub hstpre.1 hRP
        refine ⟨g1, ?_, ?_, g2.symm⟩
        · intro q hq
          rcases List.mem_append.1 hq with hq | hq
          · exact Or.inr ((hmem q).2 (Or.inl (hRsub q (List.mem_reverse.1 hq))))
          · rcases List.mem_cons.1 hq with rfl | hq
            · exact Or.inl rfl
            · exact Or.inr ((hmem q).2 (Or.inr hq))
        · rintro p (rfl | hp)
          · exact ⟨p, by simp, fun _ _ => le_rfl⟩
          · rcases (hmem p).1 hp with h | h
            · rw [hpe'] at h
              rcases List.mem_append.1 h with h | h
              · exact ⟨p, List.mem_append_left _ h, fun _ _ => le_rfl⟩
              · rw [List.mem_reverse] at h
                refine ⟨pp, by simp, two (h2 p h) ?_⟩
                rcases hpreP p (hPsub p h) with h' | h'
                · exact h'.le
                · exact h'.1.le
            · exact ⟨p, by simp [h], fun _ _ => le_rfl⟩
      · rw [if_neg htgt]
        have hstpre := hst2'.1
        have hRP : ∀ a ∈ t :: rest, x pp 1 < x a 1 ∧ x a 0 ≤ x pp 0 := by
          have ht : x pp 1 < x t 1 ∧ x t 0 ≤ x pp 0 := by
            refine ⟨?_, not_lt.1 htgt⟩
            rcases hpreP t htpre with h | h
            · exact h
            · exact absurd h.2 htgt
          intro a ha
          rcases List.mem_cons.1 ha with rfl | ha
          · exact ht
          · have h1 := hstpre
            rw [hpe, List.reverse_cons] at h1
            have h2 := (List.pairwise_append.1 h1).2.2 a (List.mem_reverse.2 ha) t (by simp)
            exact ⟨ht.1.trans h2.1, h2.2.trans ht.2⟩
        obtain ⟨g1, g2⟩ := hins (t :: rest) (fun a ha => by rw [hpe, List.mem_reverse]; exact ha)
          (by rw [← hpe]; exact hstpre) hRP
        rw [← hpe] at g1 g2
        refine ⟨g1, ?_, ?_, ?_⟩
        · intro q hq
          rcases List.mem_append.1 hq with hq | hq
          · exact Or.inr ((hmem q).2 (Or.inl hq))
          · rcases List.mem_cons.1 hq with rfl | hq
            · exact Or.inl rfl
            · exact Or.inr ((hmem q).2 (Or.inr hq))
        · rintro p (rfl | hp)
          · exact ⟨p, by simp, fun _ _ => le_rfl⟩
          · rcases (hmem p).1 hp with h | h
            · exact ⟨p, List.mem_append_left _ h, fun _ _ => le_rfl⟩
            · exact ⟨p, by simp [h], fun _ _ => le_rfl⟩
        · rw [g2, hh, ← hsplit]; rfl
  · rw [if_neg hgt]
    cases hs : suf with
    | nil => rw [hs] at hgt; exact absurd hpp.1 hgt
    | cons t rest =>
      rw [hs] at hgt
      exact ⟨t, (hmem t).2 (Or.inr (by rw [hs]; simp)), two (not_lt.1 hgt) (hsufhead t rest hs).1⟩

end Moo
