import Verif.Model.Whv
import Verif.Props.Hv2d
import Mathlib.Algebra.Order.Ring.Int

/-!
# Property C34: the weighted hypervolume of rectangles
-/

set_option autoImplicit false
set_option linter.unusedSectionVars false

namespace Moo

open MeasureTheory

/-! ## preprocessing -/

section
variable {K : Type*} [Ring K] [LinearOrder K]

theorem rectCopy_eq (rest : List (WRect K)) : ∀ pre : List (WRect K),
    rectCopy (pre ++ rest) pre.length (rectSkip rest pre.length ++ [(pre ++ rest).length]) = rest.filter (fun r => !r.isEmpty) := by
  induction rest with
  | nil => intro pre; simp [rectCopy, rectSkip]
  | cons r rest ih =>
    intro pre
    have ih' := ih (pre ++ [r])
    rw [List.append_assoc, List.singleton_append, List.length_append, List.length_singleton] at ih'
    have hdrop : (pre ++ r :: rest).drop pre.length = r :: rest := by simp
    by_cases he : r.isEmpty
    · have : rectSkip (r :: rest) pre.length = pre.length :: rectSkip rest (pre.length + 1) := by
        simp [rectSkip, he]
      rw [this, List.cons_append, rectCopy, ih', List.filter_cons]
      simp [he]
    · have e : rectSkip (r :: rest) pre.length = rectSkip rest (pre.length + 1) := by
        simp [rectSkip, he]
      rw [e, List.filter_cons]
      simp only [he, Bool.not_false, if_true]
      -- the first entry is larger than `pre.length`
      have hlt : ∀ s ∈ rectSkip rest (pre.length + 1) ++ [(pre ++ r :: rest).length], pre.length + 1 ≤ s := by
        intro s hs
        rcases List.mem_append.1 hs with hs | hs
        · unfold rectSkip at hs
          obtain ⟨q, hq, hq2⟩ := List.mem_filterMap.1 hs
          split_ifs at hq2 with hq3
          have := List.le_snd_of_mem_zipIdx hq
          have h4 := Option.some.inj hq2
          omega
        · simp at hs; omega
      cases hl : rectSkip rest (pre.length + 1) ++ [(pre ++ r :: rest).length] with
      | nil => simp at hl
      | cons s ss =>
        have h1 : pre.length + 1 ≤ s := hlt s (by rw [hl]; simp)
        rw [hl] at ih'
        rw [rectCopy] at ih' ⊢
        have h2 : (pre ++ r :: rest).drop (pre.length + 1) = rest := by
          rw [← List.drop_drop, hdrop]; rfl
        rw [h2] at ih'
        rw [hdrop, show s - pre.length = (s - (pre.length + 1)) + 1 by omega, List.take_succ_cons, List.cons_append, ih']

theorem rectSkip_nil_iff (rs : List (WRect K)) (i : ℕ) : (rectSkip rs i).length + (rs.filter (fun r => !r.isEmpty)).length = rs.length := by
  induction rs generalizing i with
  | nil => rfl
  | cons r rs ih =>
    have := ih (i + 1)
    by_cases he : r.isEmpty
    · have e : rectSkip (r :: rs) i = i :: rectSkip rs (i + 1) := by simp [rectSkip, he]
      rw [e, List.filter_cons]
      simp only [he, Bool.not_true, Bool.false_eq_true, if_false, List.length_cons]
      omega
    · have e : rectSkip (r :: rs) i = rectSkip rs (i + 1) := by simp [rectSkip, he]
      rw [e, List.filter_cons]
      simp only [he, Bool.not_false, if_true, List.length_cons]
      omega

/-- The preprocessing clips the rectangles and removes those that are empty. -/
theorem whvPreprocess_eq (rects : List (WRect K)) (ref : ℕ → K) :
    whvPreprocess rects ref = (rects.map (WRect.clip ref)).filter (fun r => !r.isEmpty) := by
  unfold whvPreprocess
  dsimp only
  have hl := rectSkip_nil_iff (rects.map (WRect.clip ref)) 0
  split_ifs with h1 h2
  · symm
    rw [h1, Nat.zero_add] at hl
    exact List.filter_eq_self.2 (fun a ha => by
      by_contra hc
      have := List.length_filter_lt_length_iff_exists (p := fun r : WRect K => !r.isEmpty) |>.2 ⟨a, ha, hc⟩
      omega)
  · symm
    exact List.eq_nil_of_length_eq_zero (by omega)
  · exact rectCopy_eq _ []

end

/-! ## the sweep -/

/-- What one point adds to one rectangle. -/
noncomputable def whvTerm (pts : ℕ → ℕ → ℝ) (r : WRect ℝ) (top : ℝ) (p : ℕ) : ℝ :=
  if pts p 0 < r.u0 ∧ pts p 1 < r.u1 ∧ r.l1 < top then (r.u0 - max (pts p 0) r.l0) * (min top r.u1 - max (pts p 1) r.l1) else 0

/-- What a list of points adds to one rectangle. -/
noncomputable def whvStair (pts : ℕ → ℕ → ℝ) (r : WRect ℝ) : ℝ → List ℕ → ℝ
  | _, [] => 0
  | top, p :: ps => whvTerm pts r top p + whvStair pts r (pts p 1) ps

variable {pts : ℕ → ℕ → ℝ}

theorem whvInner_eq (p : ℕ) (top : ℝ) (htop : pts p 1 < top) (rs : List (WRect ℝ)) (hok : ∀ r ∈ rs, r.Ok)
    (hs : rs.Pairwise (fun a b => b.u1 ≤ a.u1)) :
    ∀ (first : Bool) (acc : ℝ), (first = true → ∀ r ∈ rs.head?, pts p 1 < r.u1) →
      whvInner (pts p 0) (pts p 1) top first rs acc = some (acc + (rs.map (fun r => r.color * whvTerm pts r top p)).sum) := by
  induction rs with
  | nil => intro first acc _; simp [whvInner]
  | cons r rs ih =>
    intro first acc hf
    have ih' := fun acc => ih (fun q hq => hok q (List.mem_cons_of_mem _ hq)) (List.pairwise_cons.1 hs).2 false acc (by simp)
    rw [whvInner, if_neg (not_not.2 (hok r (List.mem_cons_self ..)))]
    by_cases h1 : pts p 1 < r.u1
    · rw [if_neg (by tauto)]
      by_cases h2 : pts p 0 < r.u0 ∧ r.l1 < top
      · rw [if_pos h2, if_neg (by simp only [gt_iff_lt]; tauto), ih']
        simp only [List.map_cons, List.sum_cons, whvTerm]
        rw [if_pos ⟨h2.1, h1, h2.2⟩]
        congr 1
        ring
      · rw [if_neg h2, ih']
        simp only [List.map_cons, List.sum_cons]
        have : whvTerm pts r top p = 0 := by
          unfold whvTerm
          rw [if_neg (by tauto)]
        rw [this]
        congr 1
        ring
    · have hfirst : first = false := by
        by_contra hc
        exact h1 (hf (by simpa using hc) r (by simp))
      rw [if_pos ⟨hfirst, h1⟩]
      have hz : ∀ q ∈ r :: rs, whvTerm pts q top p = 0 := by
        intro q hq
        have hq1 : q.u1 ≤ r.u1 := by
          rcases List.mem_cons.1 hq with rfl | hq
          · exact le_rfl
          · exact (List.pairwise_cons.1 hs).1 q hq
        unfold whvTerm
        rw [if_neg]
        rintro ⟨_, h, _⟩
        exact h1 (h.trans_le hq1)
      have : ((r :: rs).map (fun q => q.color * whvTerm pts q top p)).sum = 0 := by
        apply List.sum_eq_zero
        intro x hx
        obtain ⟨q, hq, rfl⟩ := List.mem_map.1 hx
        rw [hz q hq, mul_zero]
      rw [this, add_zero]

/-- The points are in the order of a staircase. -/
def Stairs (pts : ℕ → ℕ → ℝ) (ps : List ℕ) : Prop := ps.Pairwise (fun a b => pts a 0 ≤ pts b 0 ∧ pts b 1 < pts a 1)

theorem whvStair_zero (r : WRect ℝ) (ps : List ℕ) : ∀ top, (∀ p ∈ ps, r.u0 ≤ pts p 0) → whvStair pts r top ps = 0 := by
  induction ps with
  | nil => intro _ _; rfl
  | cons p ps ih =>
    intro top h
    rw [whvStair, ih _ (fun q hq => h q (List.mem_cons_of_mem _ hq)), whvTerm, if_neg, add_zero]
    rintro ⟨h1, _⟩
    exact absurd h1 (not_lt.2 (h p (List.mem_cons_self ..)))

/-- The sum over the rectangles. -/
noncomputable def whvSum (pts : ℕ → ℕ → ℝ) (rs : List (WRect ℝ)) (top : ℝ) (ps : List ℕ) : ℝ := (rs.map (fun r => r.color * whvStair pts r top ps)).sum

theorem whvSum_cons (rs : List (WRect ℝ)) (top : ℝ) (p : ℕ) (ps : List ℕ) :
    whvSum pts rs top (p :: ps) = (rs.map (fun r => r.color * whvTerm pts r top p)).sum + whvSum pts rs (pts p 1) ps := by
  unfold whvSum
  induction rs with
  | nil => simp
  | cons r rs ih =>
    simp only [List.map_cons, List.sum_cons] at ih ⊢
    rw [ih, whvStair]
    ring

theorem whvSum_zero (rs : List (WRect ℝ)) (top : ℝ) (ps : List ℕ) (h : ∀ r ∈ rs, whvStair pts r top ps = 0) : whvSum pts rs top ps = 0 := by
  apply List.sum_eq_zero
  intro x hx
  obtain ⟨q, hq, rfl⟩ := List.mem_map.1 hx
  rw [h q hq, mul_zero]

theorem whvStop_zero {rs : List (WRect ℝ)} {lastTop lastRight : ℝ} (hR : ∀ r ∈ rs, r.u0 ≤ lastRight) {p : ℕ} {ps : List ℕ}
    (hst : Stairs pts (p :: ps)) (hlast : ∀ q ∈ p :: ps, pts q 1 = lastTop → ∀ q' ∈ p :: ps, pts q 1 ≤ pts q' 1)
    (hc : pts p 1 = lastTop ∨ pts p 0 ≥ lastRight) (top : ℝ) : whvSum pts rs top ps = 0 := by
  rcases hc with hc | hc
  · have : ps = [] := by
      cases ps with
      | nil => rfl
      | cons q ps =>
        have h1 := hlast p (List.mem_cons_self ..) hc q (by simp)
        have h2 := ((List.pairwise_cons.1 hst).1 q (by simp)).2
        exact absurd h2 (not_lt.2 h1)
    subst this
    exact whvSum_zero _ _ _ (fun _ _ => rfl)
  · apply whvSum_zero
    intro r hr
    apply whvStair_zero
    intro q hq
    exact ((hR r hr).trans hc).trans ((List.pairwise_cons.1 hst).1 q hq).1

theorem whvGo_eq (r0 : WRect ℝ) (rs : List (WRect ℝ)) (hok : ∀ r ∈ r0 :: rs, r.Ok) (hs : (r0 :: rs).Pairwise (fun a b => b.u1 ≤ a.u1)) {lastTop lastRight : ℝ}
    (hR : ∀ r ∈ r0 :: rs, r.u0 ≤ lastRight) (ps : List ℕ) :
    ∀ (again : Bool) (top acc : ℝ), Stairs pts ps → (∀ q ∈ ps, pts q 1 = lastTop → ∀ q' ∈ ps, pts q 1 ≤ pts q' 1) →
      (∀ p ∈ ps, pts p 1 < top) → (∀ p ∈ ps, pts p 1 < r0.u1) →
      whvGo pts (r0 :: rs) r0.u1 lastTop lastRight again top ps acc = some (acc + whvSum pts (r0 :: rs) top ps) := by
  induction ps with
  | nil =>
    intro again top acc _ _ _ _
    rw [whvSum_zero _ _ _ (fun _ _ => rfl), add_zero]
    rfl
  | cons p ps ih =>
    intro again top acc hst hlast htop hu
    have hp := hu p (List.mem_cons_self ..)
    rw [whvGo, if_neg (by rintro ⟨_, _, h⟩; exact absurd hp (not_lt.2 h)), if_neg (not_not.2 hp),
      whvInner_eq p top (htop p (List.mem_cons_self ..)) (r0 :: rs) hok hs true acc (by intro _ r hr; simp at hr; subst hr; exact hp)]
    dsimp only
    rw [whvSum_cons]
    split_ifs with hc
    · rw [whvStop_zero hR hst hlast hc, add_zero]
    · rw [ih true (pts p 1) _ (List.pairwise_cons.1 hst).2
        (fun q hq h q' hq' => hlast q (List.mem_cons_of_mem _ hq) h q' (List.mem_cons_of_mem _ hq'))
        (fun q hq => ((List.pairwise_cons.1 hst).1 q hq).2) (fun q hq => hu q (List.mem_cons_of_mem _ hq)), add_assoc]

theorem whvFirst_eq (r0 : WRect ℝ) (rs : List (WRect ℝ)) (hok : ∀ r ∈ r0 :: rs, r.Ok) (hs : (r0 :: rs).Pairwise (fun a b => b.u1 ≤ a.u1)) {lastTop lastRight : ℝ}
    (hR : ∀ r ∈ r0 :: rs, r.u0 ≤ lastRight) (ps : List ℕ) :
    ∀ (top : ℝ), r0.u1 ≤ top → Stairs pts ps → (∀ q ∈ ps, pts q 1 = lastTop → ∀ q' ∈ ps, pts q 1 ≤ pts q' 1) →
      whvFirst pts (r0 :: rs) r0.u1 lastTop lastRight top ps = some (whvSum pts (r0 :: rs) top ps) := by
  induction ps with
  | nil =>
    intro top _ _ _
    rw [whvSum_zero _ _ _ (fun _ _ => rfl)]
    rfl
  | cons p ps ih =>
    intro top ht hst hlast
    rw [whvFirst]
    have hmax : ∀ r ∈ r0 :: rs, r.u1 ≤ r0.u1 := by
      intro r hr
      rcases List.mem_cons.1 hr with rfl | hr
      · exact le_rfl
      · exact (List.pairwise_cons.1 hs).1 r hr
    split_ifs with h1 hc
    · rw [whvSum_cons, whvStop_zero hR hst hlast hc, add_zero]
      congr 1
      symm
      apply List.sum_eq_zero
      intro x hx
      obtain ⟨q, hq, rfl⟩ := List.mem_map.1 hx
      rw [whvTerm, if_neg (by rintro ⟨_, h, _⟩; exact absurd (h.trans_le (hmax q hq)) (not_lt.2 h1)), mul_zero]
    · rw [ih (pts p 1) h1 (List.pairwise_cons.1 hst).2
        (fun q hq h q' hq' => hlast q (List.mem_cons_of_mem _ hq) h q' (List.mem_cons_of_mem _ hq')), whvSum_cons]
      congr 1
      symm
      rw [List.sum_eq_zero, zero_add]
      intro x hx
      obtain ⟨q, hq, rfl⟩ := List.mem_map.1 hx
      rw [whvTerm, if_neg (by rintro ⟨_, h, _⟩; exact absurd (h.trans_le (hmax q hq)) (not_lt.2 h1)), mul_zero]
    · have hp := not_le.1 h1
      have hall : ∀ q ∈ p :: ps, pts q 1 < r0.u1 := by
        intro q hq
        rcases List.mem_cons.1 hq with rfl | hq
        · exact hp
        · exact ((List.pairwise_cons.1 hst).1 q hq).2.trans hp
      rw [whvGo_eq r0 rs hok hs hR (p :: ps) false top 0 hst hlast (fun q hq => (hall q hq).trans_le ht) hall, zero_add]

/-! ## areas -/

/-- The points moved into the rectangle. -/
def clipPts (pts : ℕ → ℕ → ℝ) (r : WRect ℝ) : ℕ → ℕ → ℝ := fun i k => if k = 0 then max (pts i 0) r.l0 else max (pts i 1) r.l1

theorem whvStair_eq_HV (r : WRect ℝ) (hr : r.l0 < r.u0 ∧ r.l1 < r.u1) (ref : ℕ → ℝ) (href : ref 0 = r.u0) (ps : List ℕ) :
    ∀ top, Stairs pts ps → (∀ p ∈ ps, pts p 1 < top ∨ r.u1 ≤ top) → whvStair pts r top ps = HV 2 (clipPts pts r) ps (upd ref 1 (min top r.u1)) := by
  induction ps with
  | nil => intro top _ _; rw [HV_nil]; rfl
  | cons p ps ih =>
    intro top hst htop
    have hp := htop p (List.mem_cons_self ..)
    have hx : ∀ q ∈ ps, pts p 0 ≤ pts q 0 := fun q hq => ((List.pairwise_cons.1 hst).1 q hq).1
    have ih' := ih (pts p 1) (List.pairwise_cons.1 hst).2 (fun q hq => Or.inl ((List.pairwise_cons.1 hst).1 q hq).2)
    have hp1 : pts p 1 < r.u1 → pts p 1 < top := fun h => hp.elim id (fun h' => h.trans_le h')
    -- nothing of height at most `l1`
    have hlow : ∀ (A : List ℕ) (J : ℝ), J ≤ r.l1 → HV 2 (clipPts pts r) A (upd ref 1 J) = 0 := by
      intro A J hJ
      rw [HV_drop [] (by simp), HV_nil]
      intro q _
      refine Or.inr ⟨1, by omega, ?_⟩
      rw [upd_same]
      exact hJ.trans (le_max_right _ _)
    rw [whvStair, ih']
    by_cases h0 : pts p 0 < r.u0
    · by_cases hJ : max (pts p 1) r.l1 < min top r.u1
      · obtain ⟨h1, h2⟩ := max_lt_iff.1 hJ
        rw [whvTerm, if_pos ⟨h0, (lt_min_iff.1 h1).2, (lt_min_iff.1 h2).1⟩]
        rw [HV_two_first (pts := clipPts pts r) p ps (fun q hq => max_le_max (hx q hq) le_rfl) r.u0 (min top r.u1) (max_lt h0 hr.1) hJ ref href]
        have e : HV 2 (clipPts pts r) ps (upd ref 1 (min (pts p 1) r.u1)) = HV 2 (clipPts pts r) ps (upd ref 1 (clipPts pts r p 1)) := by
          have e1 : clipPts pts r p 1 = max (pts p 1) r.l1 := rfl
          rw [e1, min_eq_left (lt_min_iff.1 h1).2.le]
          rcases le_total r.l1 (pts p 1) with h | h
          · rw [max_eq_left h]
          · rw [hlow _ _ h, max_eq_right h, hlow _ _ le_rfl]
        rw [e, add_comm]
        rfl
      · have hJ' := not_lt.1 hJ
        have hdrop : HV 2 (clipPts pts r) (p :: ps) (upd ref 1 (min top r.u1)) = HV 2 (clipPts pts r) ps (upd ref 1 (min top r.u1)) := by
          apply HV_drop_last
          · intro q hq; exact List.mem_cons_of_mem _ hq
          · intro q hq
            rcases List.mem_cons.1 hq with rfl | hq
            · right; exact hJ'
            · left; exact hq
        rw [hdrop]
        have hterm : whvTerm pts r top p = 0 := by
          unfold whvTerm
          rw [if_neg]
          rintro ⟨_, h1, h2⟩
          exact hJ (max_lt (lt_min (hp1 h1) h1) (lt_min h2 hr.2))
        rw [hterm, zero_add]
        by_cases hu : r.u1 ≤ pts p 1
        · rw [min_eq_right hu, min_eq_right (hp.elim (fun h => hu.trans h.le) id)]
        · have ht : top ≤ r.l1 := by
            by_contra hc
            exact hJ (max_lt (lt_min (hp1 (not_le.1 hu)) (not_le.1 hu)) (lt_min (not_le.1 hc) hr.2))
          rw [hlow _ _ ((min_le_left _ _).trans ht), hlow _ _ ((min_le_left _ _).trans ((hp1 (not_le.1 hu)).le.trans ht))]
    · have h0' := not_lt.1 h0
      have hz : ∀ (A : List ℕ) (J : ℝ), (∀ q ∈ A, pts p 0 ≤ pts q 0) → HV 2 (clipPts pts r) A (upd ref 1 J) = 0 := by
        intro A J hA
        rw [HV_drop [] (by simp), HV_nil]
        intro q hq
        refine Or.inr ⟨0, by omega, ?_⟩
        rw [upd_ne _ _ (by omega), href]
        exact (h0'.trans (hA q hq)).trans (le_max_left _ _)
      rw [hz ps _ hx, hz (p :: ps) _ (by intro q hq; rcases List.mem_cons.1 hq with rfl | hq; exacts [le_rfl, hx q hq]), whvTerm, if_neg (by tauto), add_zero]

/-- The part of a rectangle that is below the reference point and dominated by one of the points. -/
def rectRegion (n : ℕ) (pts : ℕ → ℕ → ℝ) (ref : ℕ → ℝ) (r : WRect ℝ) : Set (Fin 2 → ℝ) :=
  {y | (r.l0 ≤ y 0 ∧ y 0 ≤ r.u0) ∧ (r.l1 ≤ y 1 ∧ y 1 ≤ r.u1) ∧ (y 0 ≤ ref 0 ∧ y 1 ≤ ref 1) ∧ ∃ i < n, pts i 0 ≤ y 0 ∧ pts i 1 ≤ y 1}

theorem rectRegion_eq (n : ℕ) (pts : ℕ → ℕ → ℝ) (ref : ℕ → ℝ) (r : WRect ℝ) :
    rectRegion n pts ref r = dominatedRegion 2 n (clipPts pts r) (fun k => if k = 0 then min r.u0 (ref 0) else min r.u1 (ref 1)) := by
  ext y
  unfold rectRegion dominatedRegion clipPts
  simp only [Set.mem_ofPred_eq, Fin.forall_fin_two, Fin.val_zero, Fin.val_one, if_true, one_ne_zero, if_false, max_le_iff, le_min_iff]
  constructor
  · rintro ⟨⟨a, b⟩, ⟨c, d⟩, ⟨e, f⟩, i, hi, g, h⟩
    exact ⟨⟨i, hi, ⟨g, a⟩, h, c⟩, ⟨b, e⟩, d, f⟩
  · rintro ⟨⟨i, hi, ⟨g, a⟩, h, c⟩, ⟨b, e⟩, d, f⟩
    exact ⟨⟨a, b⟩, ⟨c, d⟩, ⟨e, f⟩, i, hi, g, h⟩

theorem vol_rectRegion (n : ℕ) (pts : ℕ → ℕ → ℝ) (ref : ℕ → ℝ) (r : WRect ℝ) (hr : r.l0 < r.u0 ∧ r.l1 < r.u1) {ps : List ℕ} (hperm : ps.Perm (List.range n))
    (hst : Stairs pts ps) {top : ℝ} (htop : min r.u1 (ref 1) ≤ top) :
    vol (rectRegion n pts ref r) = if (r.clip ref).isEmpty then 0 else whvStair pts (r.clip ref) top ps := by
  have hv : vol (rectRegion n pts ref r) = HV 2 (clipPts pts r) ps (fun k => if k = 0 then min r.u0 (ref 0) else min r.u1 (ref 1)) := by
    unfold vol
    rw [rectRegion_eq, volume_dominatedRegion, ENNReal.toReal_ofReal HV_nonneg]
    exact HV_congr_mem (fun p => hperm.mem_iff.symm)
  rw [hv]
  have hclip : r.clip ref = ⟨min r.l0 (ref 0), min r.l1 (ref 1), min r.u0 (ref 0), min r.u1 (ref 1), r.color⟩ := rfl
  split_ifs with he
  · rw [HV_drop [] (by simp), HV_nil]
    intro q _
    right
    unfold WRect.isEmpty at he
    rw [hclip] at he
    rcases of_decide_eq_true he with he | he
    · refine ⟨0, by omega, ?_⟩
      simp only [if_true]
      dsimp only at he
      rw [← he]
      exact (min_le_left _ _).trans (le_max_right _ _)
    · refine ⟨1, by omega, ?_⟩
      simp only [one_ne_zero, if_false]
      dsimp only at he
      rw [← he]
      exact (min_le_left _ _).trans (le_max_right _ _)
  · have hne : ¬ (min r.l0 (ref 0) = min r.u0 (ref 0) ∨ min r.l1 (ref 1) = min r.u1 (ref 1)) := by
      intro h; exact he (decide_eq_true h)
    push Not at hne
    have h0 : r.l0 < ref 0 := by
      by_contra hc
      have hc := not_lt.1 hc
      exact hne.1 (by rw [min_eq_right hc, min_eq_right (hc.trans hr.1.le)])
    have h1 : r.l1 < ref 1 := by
      by_contra hc
      have hc := not_lt.1 hc
      exact hne.2 (by rw [min_eq_right hc, min_eq_right (hc.trans hr.2.le)])
    have hl0 : min r.l0 (ref 0) = r.l0 := min_eq_left h0.le
    have hl1 : min r.l1 (ref 1) = r.l1 := min_eq_left h1.le
    have hpts : clipPts pts (r.clip ref) = clipPts pts r := by
      unfold clipPts
      rw [hclip, hl0, hl1]
    rw [whvStair_eq_HV (r.clip ref) ⟨?_, ?_⟩ (fun _ => min r.u0 (ref 0)) rfl ps top hst (fun _ _ => Or.inr htop), hpts]
    · apply HV_congr_ref
      intro k hk
      rcases (by omega : k = 0 ∨ k = 1) with rfl | rfl
      · rw [upd_ne _ _ (by omega)]; rfl
      · rw [upd_same, hclip, min_eq_right htop]; rfl
    · rw [hclip]; dsimp only; rw [hl0]; exact lt_min hr.1 h0
    · rw [hclip]; dsimp only; rw [hl1]; exact lt_min hr.2 h1

theorem cmpDataYDesc_le {a b : ℕ} (h : cmpDataYDesc pts a b ≤ 0) : pts b 1 < pts a 1 ∨ pts a 1 = pts b 1 ∧ pts a 0 ≤ pts b 0 := by
  unfold cmpDataYDesc at h
  split_ifs at h with h1 h2 h3 h4
  · exact Or.inl h1
  · omega
  · exact Or.inr ⟨le_antisymm (not_lt.1 h1) (not_lt.1 h2), h3.le⟩
  · omega
  · exact Or.inr ⟨le_antisymm (not_lt.1 h1) (not_lt.1 h2), not_lt.1 h4⟩

theorem cmpRectYDesc_le {a b : WRect ℝ} (h : cmpRectYDesc a b ≤ 0) : b.u1 ≤ a.u1 := by
  unfold cmpRectYDesc at h
  split_ifs at h with h1 h2
  · exact h1.le
  · omega
  all_goals exact not_lt.1 h2

/-- Mutually nondominated points, sorted, form a staircase. -/
theorem stairs_of_sorted {n : ℕ} {ps : List ℕ} (hps : Qsort (cmpDataYDesc pts) (List.range n) ps)
    (hnd : ∀ i < n, ∀ j < n, i ≠ j → ¬ (pts i 0 ≤ pts j 0 ∧ pts i 1 ≤ pts j 1)) : Stairs pts ps := by
  have hnodup : ps.Nodup := hps.1.nodup_iff.2 List.nodup_range
  have hmem : ∀ p ∈ ps, p < n := fun p hp => List.mem_range.1 (hps.1.mem_iff.1 hp)
  refine List.Pairwise.imp_of_mem ?_ (hps.2.and hnodup)
  rintro a b ha hb ⟨hc, hne⟩
  have h1 := hnd a (hmem a ha) b (hmem b hb) hne
  have h2 := hnd b (hmem b hb) a (hmem a ha) (Ne.symm hne)
  rcases cmpDataYDesc_le hc with h | ⟨h, h'⟩
  · refine ⟨?_, h⟩
    by_contra hcon
    exact h2 ⟨(not_le.1 hcon).le, h.le⟩
  · exact absurd ⟨h', h.le⟩ h1

/-- The height of a point is not the lowest upper side of the rectangles that reach below the reference point, or the point is the lowest one. -/
def NoEarlyStop (n : ℕ) (pts : ℕ → ℕ → ℝ) (rects : List (WRect ℝ)) (ref : ℕ → ℝ) : Prop :=
  ∀ i < n, (∃ r ∈ rects, (r.l0 < ref 0 ∧ r.l1 < ref 1) ∧ pts i 1 = min r.u1 (ref 1) ∧ ∀ r' ∈ rects, r'.l0 < ref 0 ∧ r'.l1 < ref 1 → min r.u1 (ref 1) ≤ min r'.u1 (ref 1)) →
    ∀ j < n, pts i 1 ≤ pts j 1

/-- **C34 (where the code is right).** For mutually nondominated points and rectangles with positive sides and weights that are not negative, `rect_weighted_hv2d` returns
the sum over the rectangles of the weight times the area of the part below the reference that is dominated by a point, and no assertion fails, provided that no point
other than the lowest is exactly as high as the lowest upper side.  Missing: without this proviso the claim is false (`C34_false_early_stop`). -/
theorem C34_rect_weighted_hv2d_partial (n : ℕ) (pts : ℕ → ℕ → ℝ) (rects : List (WRect ℝ)) (ref : ℕ → ℝ) (ps : List ℕ) (rs : List (WRect ℝ))
    (hps : Qsort (cmpDataYDesc pts) (List.range n) ps) (hrs : Qsort cmpRectYDesc (whvPreprocess rects ref) rs)
    (hnd : ∀ i < n, ∀ j < n, i ≠ j → ¬ (pts i 0 ≤ pts j 0 ∧ pts i 1 ≤ pts j 1))
    (hr : ∀ r ∈ rects, r.l0 < r.u0 ∧ r.l1 < r.u1 ∧ 0 ≤ r.color) (hstop : NoEarlyStop n pts rects ref) :
    rectWeightedHv2d pts n rects ref ps rs = some ((rects.map (fun r => r.color * vol (rectRegion n pts ref r))).sum) := by
  have hst := stairs_of_sorted hps hnd
  have hmem : ∀ p ∈ ps, p < n := fun p hp => List.mem_range.1 (hps.1.mem_iff.1 hp)
  -- the sum, in terms of the staircase
  have hsum : ∀ top, (∀ r ∈ rects, min r.u1 (ref 1) ≤ top ∨ (r.clip ref).isEmpty) →
      (rects.map (fun r => r.color * vol (rectRegion n pts ref r))).sum = whvSum pts (whvPreprocess rects ref) top ps := by
    intro top htop
    rw [whvPreprocess_eq]
    unfold whvSum
    clear hrs hstop
    induction rects with
    | nil => rfl
    | cons r rects ih =>
      have ih' := ih (fun q hq => hr q (List.mem_cons_of_mem _ hq)) (fun q hq => htop q (List.mem_cons_of_mem _ hq))
      have hr' := hr r (List.mem_cons_self ..)
      simp only [List.map_cons, List.sum_cons, List.filter_cons]
      rw [ih']
      by_cases he : (r.clip ref).isEmpty
      · simp only [he, Bool.not_true, Bool.false_eq_true, if_false]
        rw [vol_rectRegion n pts ref r ⟨hr'.1, hr'.2.1⟩ hps.1 hst (top := min r.u1 (ref 1)) le_rfl, if_pos he, mul_zero, zero_add]
      · have ht : min r.u1 (ref 1) ≤ top := (htop r (List.mem_cons_self ..)).resolve_right he
        simp only [he, Bool.not_false, if_true, List.map_cons, List.sum_cons]
        rw [vol_rectRegion n pts ref r ⟨hr'.1, hr'.2.1⟩ hps.1 hst ht, if_neg he]
        rfl
  have hmemP : ∀ q, q ∈ whvPreprocess rects ref ↔ ∃ r ∈ rects, r.clip ref = q ∧ ¬ q.isEmpty := by
    intro q
    rw [whvPreprocess_eq, List.mem_filter, List.mem_map]
    constructor
    · rintro ⟨⟨r, h1, h2⟩, h3⟩; exact ⟨r, h1, h2, by simpa using h3⟩
    · rintro ⟨r, h1, h2, h3⟩; exact ⟨⟨r, h1, h2⟩, by simpa using h3⟩
  unfold rectWeightedHv2d
  split_ifs with h0 h1
  · rcases h0 with h0 | h0
    · obtain rfl := List.eq_nil_of_length_eq_zero h0
      rfl
    · congr 1
      symm
      apply List.sum_eq_zero
      intro x hx
      obtain ⟨r, _, rfl⟩ := List.mem_map.1 hx
      have : rectRegion n pts ref r = ∅ := by
        ext y
        simp [rectRegion, h0]
      rw [this, vol]
      simp
  · have hnil := List.eq_nil_of_length_eq_zero h1
    obtain ⟨top, htop⟩ : ∃ top : ℝ, ∀ r ∈ rects, min r.u1 (ref 1) ≤ top := ⟨ref 1, fun r _ => min_le_right _ _⟩
    rw [hsum top (fun r hr => Or.inl (htop r hr)), hnil]
    rfl
  · cases rs with
    | nil =>
      have := hrs.1.length_eq
      simp at this
      exact absurd this.symm (by simpa using h1)
    | cons r0 rs =>
      have hok : ∀ r ∈ r0 :: rs, r.Ok := by
        intro q hq
        obtain ⟨r, hrm, rfl, hne⟩ := (hmemP q).1 (hrs.1.mem_iff.1 hq)
        have hne' : ¬ (min r.l0 (ref 0) = min r.u0 (ref 0) ∨ min r.l1 (ref 1) = min r.u1 (ref 1)) := by
          intro h; exact hne (decide_eq_true h)
        push Not at hne'
        obtain ⟨a, b, c⟩ := hr r hrm
        exact ⟨lt_of_le_of_ne (min_le_min_right _ a.le) hne'.1, lt_of_le_of_ne (min_le_min_right _ b.le) hne'.2, c⟩
      have hs : (r0 :: rs).Pairwise (fun a b => b.u1 ≤ a.u1) := hrs.2.imp (fun h => cmpRectYDesc_le h)
      dsimp only
      rw [if_neg (not_not.2 (hok r0 (List.mem_cons_self ..)))]
      have hR : ∀ (l : List (WRect ℝ)) (m : ℝ), m ≤ l.foldl (fun m q => max m q.u0) m ∧ ∀ r ∈ l, r.u0 ≤ l.foldl (fun m q => max m q.u0) m := by
        intro l
        induction l with
        | nil => intro m; exact ⟨le_rfl, by simp⟩
        | cons a l ih =>
          intro m
          obtain ⟨i1, i2⟩ := ih (max m a.u0)
          refine ⟨(le_max_left _ _).trans i1, ?_⟩
          intro r hr
          rcases List.mem_cons.1 hr with rfl | hr
          · exact (le_max_right _ _).trans i1
          · exact i2 r hr
      have hlastmem : (r0 :: rs).getLastD r0 ∈ r0 :: rs := by
        rw [List.getLastD_eq_getLast?, List.getLast?_eq_getLast_of_ne_nil (by simp)]
        exact List.getLast_mem _
      have hlastmin : ∀ r ∈ r0 :: rs, ((r0 :: rs).getLastD r0).u1 ≤ r.u1 := by
        intro r hr
        obtain ⟨l, hl⟩ : ∃ l, r0 :: rs = l ++ [(r0 :: rs).getLastD r0] := by
          refine ⟨(r0 :: rs).dropLast, ?_⟩
          rw [List.getLastD_eq_getLast?, List.getLast?_eq_getLast_of_ne_nil (by simp)]
          exact (List.dropLast_append_getLast _).symm
        have hs' := hs
        rw [hl] at hs'
        have hr' := hr
        rw [hl] at hr'
        rcases List.mem_append.1 hr' with h | h
        · exact (List.pairwise_append.1 hs').2.2 r h _ (by simp)
        · simp only [List.mem_singleton] at h
          rw [← h]
      rw [whvFirst_eq r0 rs hok hs (lastRight := rs.foldl (fun m q => max m q.u0) r0.u0)
        (by
          intro r hr
          rcases List.mem_cons.1 hr with rfl | hr
          · exact (hR rs _).1
          · exact (hR rs _).2 r hr) ps r0.u1 le_rfl hst]
      · congr 1
        rw [hsum r0.u1]
        · exact ((hrs.1.map _).sum_eq)
        · intro r hrm
          by_cases he : (r.clip ref).isEmpty
          · exact Or.inr he
          · left
            have : r.clip ref ∈ r0 :: rs := hrs.1.mem_iff.2 ((hmemP _).2 ⟨r, hrm, rfl, he⟩)
            rcases List.mem_cons.1 this with h | h
            · rw [← h]; exact le_rfl
            · exact (List.pairwise_cons.1 hs).1 _ h
      · intro q hq hqt q' hq'
        obtain ⟨r, hrm, hreq, hne⟩ := (hmemP _).1 (hrs.1.mem_iff.1 hlastmem)
        refine hstop q (hmem q hq) ⟨r, hrm, ?_, ?_, ?_⟩ q' (hmem q' hq')
        · have hOk := hok _ hlastmem
          rw [← hreq] at hOk
          obtain ⟨a, b, _⟩ := hOk
          refine ⟨?_, ?_⟩
          · by_contra hc
            have hc := not_lt.1 hc
            have e : (r.clip ref).l0 = ref 0 := min_eq_right hc
            rw [e] at a
            exact absurd a (not_lt.2 (min_le_right _ _))
          · by_contra hc
            have hc := not_lt.1 hc
            have e : (r.clip ref).l1 = ref 1 := min_eq_right hc
            rw [e] at b
            exact absurd b (not_lt.2 (min_le_right _ _))
        · rw [hqt, ← hreq]; rfl
        · intro r' hr' ⟨h0, h1⟩
          have hne' : ¬ (r'.clip ref).isEmpty := by
            intro he
            obtain ⟨a, b, _⟩ := hr r' hr'
            have he' : min r'.l0 (ref 0) = min r'.u0 (ref 0) ∨ min r'.l1 (ref 1) = min r'.u1 (ref 1) := of_decide_eq_true he
            rcases he' with h | h
            · rw [min_eq_left h0.le] at h
              exact absurd (lt_min a h0) (by rw [h]; exact lt_irrefl _)
            · rw [min_eq_left h1.le] at h
              exact absurd (lt_min b h1) (by rw [h]; exact lt_irrefl _)
          have := hlastmin (r'.clip ref) (hrs.1.mem_iff.2 ((hmemP _).2 ⟨r', hr', rfl, hne'⟩))
          rw [← hreq] at this
          exact this

/-! ## counterexamples and non-vacuity -/

/-- A table of two points. -/
def twoPts (a b c d : ℝ) : ℕ → ℕ → ℝ := fun i k => if i = 0 then (if k = 0 then a else b) else (if k = 0 then c else d)

/-- A square of weight 1. -/
def squareRect : WRect ℝ := ⟨0, 0, 2, 2, 1⟩

theorem clip_square : squareRect.clip (fun _ => 5) = squareRect := by
  unfold WRect.clip squareRect
  norm_num

theorem pre_square : whvPreprocess [squareRect] (fun _ => (5 : ℝ)) = [squareRect] := by
  rw [whvPreprocess_eq, List.map_singleton, clip_square]
  simp [WRect.isEmpty, squareRect]

/-- **C34 is false**: the points (0, 2) and (1, 0) do not dominate each other and dominate an area of 2 of the square with corners (0, 0) and (2, 2), but the function returns 0:
it stops because the first point is as high as the (only) rectangle. -/
theorem C34_false_early_stop :
    Qsort (cmpDataYDesc (twoPts 0 2 1 0)) (List.range 2) [0, 1] ∧ Qsort cmpRectYDesc (whvPreprocess [squareRect] (fun _ => (5 : ℝ))) [squareRect] ∧
    rectWeightedHv2d (twoPts 0 2 1 0) 2 [squareRect] (fun _ => 5) [0, 1] [squareRect] = some 0 ∧
    vol (rectRegion 2 (twoPts 0 2 1 0) (fun _ => 5) squareRect) = 2 := by
  have h1 : Qsort (cmpDataYDesc (twoPts 0 2 1 0)) (List.range 2) [0, 1] := by
    refine ⟨by decide, ?_⟩
    simp [cmpDataYDesc, twoPts]
  refine ⟨h1, ?_, ?_, ?_⟩
  · rw [pre_square]; exact ⟨List.Perm.refl _, by simp⟩
  · unfold rectWeightedHv2d
    rw [pre_square]
    norm_num [whvFirst, twoPts, squareRect, WRect.Ok]
  · have hst : Stairs (twoPts 0 2 1 0) [0, 1] := by
      unfold Stairs
      simp [twoPts]
    rw [vol_rectRegion 2 _ (fun _ => 5) squareRect (by simp [squareRect]) h1.1 hst (top := 2) (by norm_num [squareRect]), clip_square]
    norm_num [WRect.isEmpty, whvStair, whvTerm, twoPts, squareRect]

/-- **C34 needs nondominated points**: with the points (1, 1) and (0, 0), which dominate the whole square (area 4), the result is 3. -/
theorem C34_false_dominated_point :
    Qsort (cmpDataYDesc (twoPts 1 1 0 0)) (List.range 2) [0, 1] ∧ Qsort cmpRectYDesc (whvPreprocess [squareRect] (fun _ => (5 : ℝ))) [squareRect] ∧
    rectWeightedHv2d (twoPts 1 1 0 0) 2 [squareRect] (fun _ => 5) [0, 1] [squareRect] = some 3 ∧
    (∀ y : Fin 2 → ℝ, y ∈ rectRegion 2 (twoPts 1 1 0 0) (fun _ => 5) squareRect ↔ (0 ≤ y 0 ∧ y 0 ≤ 2) ∧ (0 ≤ y 1 ∧ y 1 ≤ 2)) := by
  refine ⟨⟨by decide, ?_⟩, ?_, ?_, ?_⟩
  · norm_num [cmpDataYDesc, twoPts]
  · rw [pre_square]; exact ⟨List.Perm.refl _, by simp⟩
  · unfold rectWeightedHv2d
    rw [pre_square]
    norm_num [whvFirst, whvGo, whvInner, twoPts, squareRect, WRect.Ok]
  · intro y
    unfold rectRegion squareRect
    simp only [Set.mem_ofPred_eq]
    constructor
    · rintro ⟨h1, h2, _⟩; exact ⟨h1, h2⟩
    · rintro ⟨h1, h2⟩
      exact ⟨h1, h2, ⟨by linarith [h1.2], by linarith [h2.2]⟩, 1, by omega, by simpa [twoPts] using h1.1, by simpa [twoPts] using h2.1⟩

/-- **Repeated points**: with the point (1, 1) given twice an assertion fails. -/
theorem C34_repeated_point_abort : rectWeightedHv2d (twoPts 1 1 1 1) 2 [squareRect] (fun _ => 5) [0, 1] [squareRect] = none := by
  unfold rectWeightedHv2d
  rw [pre_square]
  norm_num [whvFirst, whvGo, whvInner, twoPts, squareRect, WRect.Ok]

/-- The hypotheses of `C34_rect_weighted_hv2d_partial` are met by two points that do not dominate each other, one of them inside the rectangle. -/
example : rectWeightedHv2d (twoPts 0 1 1 0) 2 [squareRect] (fun _ => 5) [0, 1] [squareRect] =
    some (([squareRect].map (fun r => r.color * vol (rectRegion 2 (twoPts 0 1 1 0) (fun _ => 5) r))).sum) := by
  apply C34_rect_weighted_hv2d_partial
  · refine ⟨by decide, ?_⟩
    simp [cmpDataYDesc, twoPts]
  · rw [pre_square]; exact ⟨List.Perm.refl _, by simp⟩
  · intro i hi j hj hne
    rcases (by omega : i = 0 ∧ j = 1 ∨ i = 1 ∧ j = 0) with ⟨rfl, rfl⟩ | ⟨rfl, rfl⟩ <;> simp [twoPts]
  · simp [squareRect]
  · rintro i hi ⟨r, hr, _, h, _⟩
    simp only [List.mem_singleton] at hr
    subst hr
    rcases (by omega : i = 0 ∨ i = 1) with rfl | rfl <;> norm_num [twoPts, squareRect] at h

end Moo
