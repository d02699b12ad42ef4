import Verif.Spec.Hypervolume
import Verif.Model.Basic
import Mathlib.MeasureTheory.Constructions.Pi
import Mathlib.Tactic.Linarith
import Mathlib.Tactic.Ring

/-!
# Volume of finite unions of boxes

`hvSet d x A ref` is the union over `p ∈ A` of the half-open boxes `[x p, ref)` in the first `d` coordinates.
-/

set_option autoImplicit false
set_option linter.unusedSectionVars false

namespace Moo

open MeasureTheory

/-- box between node `p` and `ref` -/
def hvBox (d : ℕ) (x : ℕ → ℕ → ℝ) (p : ℕ) (ref : ℕ → ℝ) : Set (Fin d → ℝ) :=
  {y | ∀ k : Fin d, x p k ≤ y k ∧ y k < ref k}

/-- union of boxes -/
def hvSet (d : ℕ) (x : ℕ → ℕ → ℝ) (A : List ℕ) (ref : ℕ → ℝ) : Set (Fin d → ℝ) :=
  {y | ∃ p ∈ A, ∀ k : Fin d, x p k ≤ y k ∧ y k < ref k}

/-- volume of the union -/
noncomputable def HV (d : ℕ) (x : ℕ → ℕ → ℝ) (A : List ℕ) (ref : ℕ → ℝ) : ℝ := (volume (hvSet d x A ref)).toReal

variable {d : ℕ} {x : ℕ → ℕ → ℝ} {ref : ℕ → ℝ} {A B : List ℕ}

theorem hvBox_eq_pi (p : ℕ) : hvBox d x p ref = Set.pi Set.univ (fun k : Fin d => Set.Ico (x p k) (ref k)) := by
  ext y; simp [hvBox, Set.mem_pi, Set.mem_Ico]

theorem hvBox_measurable (p : ℕ) : MeasurableSet (hvBox d x p ref) := by
  rw [hvBox_eq_pi]; exact MeasurableSet.univ_pi (fun _ => measurableSet_Ico)

theorem hvBox_volume (p : ℕ) : volume (hvBox d x p ref) = ∏ k : Fin d, ENNReal.ofReal (ref k - x p k) := by
  rw [hvBox_eq_pi, Real.volume_pi_Ico]

theorem hvBox_ne_top (p : ℕ) : volume (hvBox d x p ref) ≠ ⊤ := by
  rw [hvBox_volume]; exact ENNReal.prod_ne_top (fun _ _ => ENNReal.ofReal_ne_top)

theorem hvSet_nil : hvSet d x [] ref = ∅ := by ext y; simp [hvSet]

theorem hvSet_cons (p : ℕ) : hvSet d x (p :: A) ref = hvBox d x p ref ∪ hvSet d x A ref := by
  ext y; simp [hvSet, hvBox]

theorem hvSet_singleton (p : ℕ) : hvSet d x [p] ref = hvBox d x p ref := by
  rw [hvSet_cons, hvSet_nil, Set.union_empty]

theorem hvSet_measurable : MeasurableSet (hvSet d x A ref) := by
  induction A with
  | nil => rw [hvSet_nil]; exact MeasurableSet.empty
  | cons p A ih => rw [hvSet_cons]; exact (hvBox_measurable p).union ih

theorem hvSet_ne_top : volume (hvSet d x A ref) ≠ ⊤ := by
  induction A with
  | nil => rw [hvSet_nil]; simp
  | cons p A ih =>
    rw [hvSet_cons]
    exact ne_top_of_le_ne_top (ENNReal.add_ne_top.2 ⟨hvBox_ne_top p, ih⟩) (measure_union_le _ _)

theorem HV_nonneg : 0 ≤ HV d x A ref := ENNReal.toReal_nonneg

theorem HV_nil : HV d x [] ref = 0 := by unfold HV; rw [hvSet_nil]; simp

theorem HV_singleton (p : ℕ) (h : ∀ k : Fin d, x p k ≤ ref k) : HV d x [p] ref = ∏ k : Fin d, (ref k - x p k) := by
  unfold HV
  rw [hvSet_singleton, hvBox_volume, ENNReal.toReal_prod]
  exact Finset.prod_congr rfl (fun k _ => ENNReal.toReal_ofReal (sub_nonneg.2 (h k)))

theorem HV_mono (h : hvSet d x A ref ⊆ hvSet d x B ref) : HV d x A ref ≤ HV d x B ref :=
  ENNReal.toReal_mono hvSet_ne_top (measure_mono h)

theorem hvSet_subset (h : ∀ p ∈ A, ∃ q ∈ B, ∀ k < d, x q k ≤ x p k) : hvSet d x A ref ⊆ hvSet d x B ref := by
  rintro y ⟨p, hp, hy⟩
  obtain ⟨q, hq, hqp⟩ := h p hp
  exact ⟨q, hq, fun k => ⟨(hqp k k.2).trans (hy k).1, (hy k).2⟩⟩

theorem HV_le_of_dom (h : ∀ p ∈ A, ∃ q ∈ B, ∀ k < d, x q k ≤ x p k) : HV d x A ref ≤ HV d x B ref :=
  HV_mono (hvSet_subset h)

theorem HV_le_of_subset (h : A ⊆ B) : HV d x A ref ≤ HV d x B ref :=
  HV_le_of_dom (fun p hp => ⟨p, h hp, fun _ _ => le_rfl⟩)

theorem HV_congr_mem (h : ∀ p, p ∈ A ↔ p ∈ B) : HV d x A ref = HV d x B ref :=
  le_antisymm (HV_le_of_subset (fun p hp => (h p).1 hp)) (HV_le_of_subset (fun p hp => (h p).2 hp))

/-- Adding a point adds the volume of the part of its box outside of the rest. -/
theorem HV_cons (p : ℕ) : HV d x (p :: A) ref = HV d x A ref + (volume (hvBox d x p ref \ hvSet d x A ref)).toReal := by
  unfold HV
  rw [hvSet_cons, Set.union_comm, ← Set.union_sdiff_self, measure_union disjoint_sdiff_self_right
    ((hvBox_measurable p).diff hvSet_measurable), ENNReal.toReal_add hvSet_ne_top]
  exact ne_top_of_le_ne_top (hvBox_ne_top p) (measure_mono Set.sdiff_subset)

/-- A point that does not increase the volume is weakly dominated by another one. -/
theorem exists_dom_of_HV_le (p : ℕ) (hp : ∀ k < d, x p k < ref k) (h : HV d x (p :: A) ref ≤ HV d x A ref) :
    ∃ q ∈ A, ∀ k < d, x q k ≤ x p k := by
  by_contra hcon
  push Not at hcon
  -- a small box at the corner `p` avoids all other boxes
  have hex : ∃ ε > (0 : ℝ), (∀ k < d, x p k + ε ≤ ref k) ∧ ∀ q ∈ A, ∃ k < d, x p k + ε ≤ x q k := by
    have h1 : ∃ ε > (0 : ℝ), ∀ k < d, x p k + ε ≤ ref k := by
      clear h hcon
      induction d with
      | zero => exact ⟨1, one_pos, fun k hk => absurd hk (by omega)⟩
      | succ d ih =>
        obtain ⟨ε, he, hε⟩ := ih (fun k hk => hp k (by omega))
        refine ⟨min ε (ref d - x p d), lt_min he (sub_pos.2 (hp d (by omega))), fun k hk => ?_⟩
        rcases Nat.lt_succ_iff_lt_or_eq.1 hk with hk | rfl
        · have := hε k hk; have := min_le_left ε (ref d - x p d); linarith
        · have := min_le_right ε (ref k - x p k); linarith
    have h2 : ∃ ε > (0 : ℝ), ∀ q ∈ A, ∃ k < d, x p k + ε ≤ x q k := by
      clear h h1
      induction A with
      | nil => exact ⟨1, one_pos, by simp⟩
      | cons a A ih =>
        obtain ⟨ε, he, hε⟩ := ih (fun q hq => hcon q (List.mem_cons_of_mem _ hq))
        obtain ⟨k, hk, hlt⟩ := hcon a (List.mem_cons_self ..)
        refine ⟨min ε (x a k - x p k), lt_min he (sub_pos.2 hlt), fun q hq => ?_⟩
        rcases List.mem_cons.1 hq with rfl | hq
        · exact ⟨k, hk, by have := min_le_right ε (x q k - x p k); linarith⟩
        · obtain ⟨j, hj, hle⟩ := hε q hq
          exact ⟨j, hj, by have := min_le_left ε (x a k - x p k); linarith⟩
    obtain ⟨ε1, he1, h1⟩ := h1
    obtain ⟨ε2, he2, h2⟩ := h2
    refine ⟨min ε1 ε2, lt_min he1 he2, fun k hk => ?_, fun q hq => ?_⟩
    · have := h1 k hk; have := min_le_left ε1 ε2; linarith
    · obtain ⟨k, hk, hle⟩ := h2 q hq
      exact ⟨k, hk, by have := min_le_right ε1 ε2; linarith⟩
  obtain ⟨ε, he, href, havoid⟩ := hex
  have hsub : hvBox d x p (fun k => x p k + ε) ⊆ hvBox d x p ref \ hvSet d x A ref := by
    intro y hy
    refine ⟨fun k => ⟨(hy k).1, lt_of_lt_of_le (hy k).2 (href k k.2)⟩, ?_⟩
    rintro ⟨q, hq, hyq⟩
    obtain ⟨k, hk, hle⟩ := havoid q hq
    have h1 := (hyq ⟨k, hk⟩).1
    have h2 := (hy ⟨k, hk⟩).2
    dsimp only at h1 h2
    linarith
  have hpos : 0 < (volume (hvBox d x p (fun k => x p k + ε))).toReal := by
    rw [hvBox_volume, ENNReal.toReal_prod]
    refine Finset.prod_pos (fun k _ => ?_)
    rw [ENNReal.toReal_ofReal] <;> linarith
  have hle : (volume (hvBox d x p (fun k => x p k + ε))).toReal ≤ (volume (hvBox d x p ref \ hvSet d x A ref)).toReal :=
    ENNReal.toReal_mono (ne_top_of_le_ne_top (hvBox_ne_top p) (measure_mono Set.sdiff_subset)) (measure_mono hsub)
  rw [HV_cons] at h
  linarith

/-- Removing dominated points changes nothing. -/
theorem HV_eq_of_dom (hsub : B ⊆ A) (h : ∀ p ∈ A, ∃ q ∈ B, ∀ k < d, x q k ≤ x p k) : HV d x A ref = HV d x B ref :=
  le_antisymm (HV_le_of_dom h) (HV_le_of_subset hsub)

/-! ### Sweeping along the last coordinate -/

theorem hvSet_succ_iff (y : Fin (d + 1) → ℝ) : y ∈ hvSet (d + 1) x A ref ↔
    ∃ p ∈ A, (∀ k : Fin d, x p k ≤ y k.castSucc ∧ y k.castSucc < ref k) ∧ x p d ≤ y (Fin.last d) ∧ y (Fin.last d) < ref d := by
  unfold hvSet
  simp only [Set.mem_ofPred_eq, Fin.forall_fin_succ', Fin.val_castSucc, Fin.val_last]

theorem hvSet_congr_ref {ref' : ℕ → ℝ} (h : ∀ k < d, ref k = ref' k) : hvSet d x A ref = hvSet d x A ref' := by
  ext y; unfold hvSet
  simp only [Set.mem_ofPred_eq]
  refine exists_congr fun p => and_congr_right fun _ => forall_congr' fun k => ?_
  rw [h k k.2]

theorem HV_congr_ref {ref' : ℕ → ℝ} (h : ∀ k < d, ref k = ref' k) : HV d x A ref = HV d x A ref' := by
  unfold HV; rw [hvSet_congr_ref h]

/-- Volume of a cylinder. -/
theorem volume_slab (z z' : ℝ) (S : Set (Fin d → ℝ)) :
    volume {y : Fin (d + 1) → ℝ | (z ≤ y (Fin.last d) ∧ y (Fin.last d) < z') ∧ (fun k : Fin d => y k.castSucc) ∈ S} =
      ENNReal.ofReal (z' - z) * volume S := by
  have hmp := volume_preserving_piFinSuccAbove (fun _ : Fin (d + 1) => ℝ) (Fin.last d)
  have hset : {y : Fin (d + 1) → ℝ | (z ≤ y (Fin.last d) ∧ y (Fin.last d) < z') ∧ (fun k : Fin d => y k.castSucc) ∈ S} =
      (MeasurableEquiv.piFinSuccAbove (fun _ : Fin (d + 1) => ℝ) (Fin.last d)) ⁻¹' (Set.Ico z z' ×ˢ S) := by
    ext y
    simp only [Set.mem_ofPred_eq, Set.mem_preimage, Set.mem_prod, Set.mem_Ico]
    have e1 : ((MeasurableEquiv.piFinSuccAbove (fun _ : Fin (d + 1) => ℝ) (Fin.last d)) y).1 = y (Fin.last d) := rfl
    have e2 : ((MeasurableEquiv.piFinSuccAbove (fun _ : Fin (d + 1) => ℝ) (Fin.last d)) y).2 =
        fun k : Fin d => y k.castSucc := by
      funext k
      show y ((Fin.last d).succAbove k) = y k.castSucc
      rw [Fin.succAbove_last]
    rw [e1, e2]
  rw [hset, hmp.measure_preimage_equiv]
  show (volume.prod volume) (Set.Ico z z' ×ˢ S) = _
  rw [Measure.prod_prod, Real.volume_Ico]

/-- **Slab lemma.**  Raising the last coordinate of the reference point from `z` to `z'` adds a slab, if no point of `A` lies strictly between. -/
theorem HV_slab (z z' : ℝ) (hz : z ≤ z') (hA : ∀ p ∈ A, x p d ≤ z ∨ z' ≤ x p d) (C : List ℕ)
    (hC : ∀ p, p ∈ C ↔ p ∈ A ∧ x p d ≤ z) :
    HV (d + 1) x A (upd ref d z') = HV (d + 1) x A (upd ref d z) + HV d x C ref * (z' - z) := by
  have hsplit : hvSet (d + 1) x A (upd ref d z') = hvSet (d + 1) x A (upd ref d z) ∪
      {y : Fin (d + 1) → ℝ | (z ≤ y (Fin.last d) ∧ y (Fin.last d) < z') ∧
        (fun k : Fin d => y k.castSucc) ∈ hvSet d x C ref} := by
    ext y
    rw [Set.mem_union, hvSet_succ_iff, hvSet_succ_iff]
    simp only [upd_same]
    have hne : ∀ (k : Fin d) (v : ℝ), upd ref d v k = ref k := fun k v => upd_ne _ _ (by have := k.2; omega)
    simp only [hne]
    constructor
    · rintro ⟨p, hp, h1, h2, h3⟩
      by_cases hlt : y (Fin.last d) < z
      · exact Or.inl ⟨p, hp, h1, h2, hlt⟩
      · push Not at hlt
        right
        refine ⟨⟨hlt, h3⟩, p, (hC p).2 ⟨hp, ?_⟩, h1⟩
        rcases hA p hp with h | h
        · exact h
        · linarith
    · rintro (⟨p, hp, h1, h2, h3⟩ | ⟨⟨h1, h2⟩, p, hp, h3⟩)
      · exact ⟨p, hp, h1, h2, lt_of_lt_of_le h3 hz⟩
      · have := (hC p).1 hp
        exact ⟨p, this.1, h3, this.2.trans h1, h2⟩
  have hdisj : Disjoint (hvSet (d + 1) x A (upd ref d z))
      {y : Fin (d + 1) → ℝ | (z ≤ y (Fin.last d) ∧ y (Fin.last d) < z') ∧
        (fun k : Fin d => y k.castSucc) ∈ hvSet d x C ref} := by
    rw [Set.disjoint_left]
    intro y hy h
    rw [hvSet_succ_iff] at hy
    obtain ⟨p, _, _, _, h3⟩ := hy
    rw [upd_same] at h3
    linarith [h.1.1]
  unfold HV
  rw [hsplit, measure_union' hdisj hvSet_measurable, volume_slab, ENNReal.toReal_add hvSet_ne_top, ENNReal.toReal_mul,
    ENNReal.toReal_ofReal (by linarith), mul_comm]
  exact ENNReal.mul_ne_top ENNReal.ofReal_ne_top hvSet_ne_top

/-- Points not below the reference in the last coordinate do not count. -/
theorem HV_drop_last (z : ℝ) (C : List ℕ) (hC : ∀ p ∈ C, p ∈ A) (hA : ∀ p ∈ A, p ∈ C ∨ z ≤ x p d) :
    HV (d + 1) x A (upd ref d z) = HV (d + 1) x C (upd ref d z) := by
  unfold HV
  congr 2
  ext y
  rw [hvSet_succ_iff, hvSet_succ_iff]
  simp only [upd_same]
  constructor
  · rintro ⟨p, hp, h1, h2, h3⟩
    rcases hA p hp with h | h
    · exact ⟨p, h, h1, h2, h3⟩
    · linarith
  · rintro ⟨p, hp, h⟩
    exact ⟨p, hC p hp, h⟩

/-- Points that do not strictly dominate the reference point do not count. -/
theorem HV_drop (C : List ℕ) (hC : ∀ p ∈ C, p ∈ A) (hA : ∀ p ∈ A, p ∈ C ∨ ∃ k < d, ref k ≤ x p k) :
    HV d x A ref = HV d x C ref := by
  unfold HV
  congr 2
  ext y
  constructor
  · rintro ⟨p, hp, h⟩
    rcases hA p hp with h' | ⟨k, hk, hle⟩
    · exact ⟨p, h', h⟩
    · have := h ⟨k, hk⟩
      dsimp only at this
      linarith
  · rintro ⟨p, hp, h⟩
    exact ⟨p, hC p hp, h⟩

/-- Different point tables with the same points in the list. -/
theorem HV_congr_table {x' : ℕ → ℕ → ℝ} (h : ∀ p ∈ A, ∀ k < d, x p k = x' p k) : HV d x A ref = HV d x' A ref := by
  unfold HV
  congr 2
  ext y
  constructor
  · rintro ⟨p, hp, hy⟩
    exact ⟨p, hp, fun k => by rw [← h p hp k k.2]; exact hy k⟩
  · rintro ⟨p, hp, hy⟩
    exact ⟨p, hp, fun k => by rw [h p hp k k.2]; exact hy k⟩

theorem HV_upd_self (k : ℕ) : HV d x A (upd ref k (ref k)) = HV d x A ref := by
  apply HV_congr_ref
  intro j _
  by_cases h : j = k
  · subst h; rw [upd_same]
  · rw [upd_ne _ _ h]

/-! ### Two coordinates: exclusive area in a staircase -/

theorem HV_two_insert (A B : List ℕ) (c : ℕ) (prevy nextx : ℝ) (ref : ℕ → ℝ)
    (hxc : x c 0 ≤ nextx) (hyc : x c 1 ≤ prevy)
    (hAx : ∀ a ∈ A, x a 0 ≤ x c 0) (hBy : ∀ b ∈ B, x b 1 ≤ x c 1)
    (hAy : ∀ a ∈ A, prevy ≤ x a 1) (hBx : ∀ b ∈ B, nextx ≤ x b 0)
    (hprev : prevy = ref 1 ∨ ∃ a ∈ A, prevy = x a 1) (hnext : nextx = ref 0 ∨ ∃ b ∈ B, nextx = x b 0)
    (hpr : prevy ≤ ref 1) (hnr : nextx ≤ ref 0) :
    HV 2 x (A ++ c :: B) ref = HV 2 x (A ++ B) ref + (prevy - x c 1) * (nextx - x c 0) := by
  have hperm : HV 2 x (A ++ c :: B) ref = HV 2 x (c :: (A ++ B)) ref := by
    apply HV_congr_mem; intro p; simp only [List.mem_append, List.mem_cons]; tauto
  rw [hperm, HV_cons]
  congr 1
  have hset : hvBox 2 x c ref \ hvSet 2 x (A ++ B) ref = hvBox 2 x c (fun k => if k = 0 then nextx else prevy) := by
    ext y
    unfold hvBox hvSet
    simp only [Set.mem_sdiff, Set.mem_ofPred_eq, Fin.forall_fin_two, Fin.val_zero, Fin.val_one, List.mem_append]
    simp only [if_true, one_ne_zero, if_false]
    constructor
    · rintro ⟨⟨⟨h1, h2⟩, h3, h4⟩, hno⟩
      refine ⟨⟨h1, ?_⟩, h3, ?_⟩
      · rcases hnext with h | ⟨b, hb, h⟩
        · rw [h]; exact h2
        · by_contra hcon
          push Not at hcon
          exact hno ⟨b, Or.inr hb, ⟨by linarith, h2⟩, (hBy b hb).trans h3, h4⟩
      · rcases hprev with h | ⟨a, ha, h⟩
        · rw [h]; exact h4
        · by_contra hcon
          push Not at hcon
          exact hno ⟨a, Or.inl ha, ⟨(hAx a ha).trans h1, h2⟩, by linarith, h4⟩
    · rintro ⟨⟨h1, h2⟩, h3, h4⟩
      refine ⟨⟨⟨h1, by linarith⟩, h3, by linarith⟩, ?_⟩
      rintro ⟨p, hp | hp, ⟨g1, g2⟩, g3, g4⟩
      · linarith [hAy p hp]
      · linarith [hBx p hp]
  rw [hset, hvBox_volume, ENNReal.toReal_prod, Fin.prod_univ_two]
  simp only [Fin.val_zero, Fin.val_one, if_true, one_ne_zero, if_false]
  rw [ENNReal.toReal_ofReal (by linarith), ENNReal.toReal_ofReal (by linarith), mul_comm]

/-! ### Link to the specification -/

theorem region_ae (A : List ℕ) (pts : ℕ → ℕ → ℝ) :
    {y : Fin d → ℝ | (∃ i ∈ A, ∀ k : Fin d, pts i k ≤ y k) ∧ ∀ k : Fin d, y k ≤ ref k} =ᵐ[volume] hvSet d pts A ref := by
  have h1 : {y : Fin d → ℝ | (∃ i ∈ A, ∀ k : Fin d, pts i k ≤ y k) ∧ ∀ k : Fin d, y k ≤ ref k} =
      ⋃ i ∈ A.toFinset, Set.Icc (fun k : Fin d => pts i k) (fun k : Fin d => ref k) := by
    ext y
    simp only [Set.mem_ofPred_eq, Set.mem_iUnion, List.mem_toFinset, Set.mem_Icc, Pi.le_def, exists_prop]
    constructor
    · rintro ⟨⟨i, hi, h⟩, h'⟩; exact ⟨i, hi, h, h'⟩
    · rintro ⟨i, hi, h, h'⟩; exact ⟨⟨i, hi, h⟩, h'⟩
  have h2 : hvSet d pts A ref =
      ⋃ i ∈ A.toFinset, Set.pi Set.univ (fun k : Fin d => Set.Ico (pts i k) (ref k)) := by
    ext y
    simp [hvSet, Set.mem_pi, Set.mem_Ico]
  rw [h1, h2]
  refine Filter.EventuallyEq.countable_bUnion (Finset.countable_toSet _) (fun i _ => ?_)
  exact (Measure.univ_pi_Ico_ae_eq_Icc).symm

theorem volume_region (A : List ℕ) (pts : ℕ → ℕ → ℝ) :
    volume {y : Fin d → ℝ | (∃ i ∈ A, ∀ k : Fin d, pts i k ≤ y k) ∧ ∀ k : Fin d, y k ≤ ref k} =
      ENNReal.ofReal (HV d pts A ref) := by
  rw [measure_congr (region_ae A pts)]
  unfold HV
  rw [ENNReal.ofReal_toReal hvSet_ne_top]

theorem volume_dominatedRegion (n : ℕ) (pts : ℕ → ℕ → ℝ) :
    volume (dominatedRegion d n pts ref) = ENNReal.ofReal (HV d pts (List.range n) ref) := by
  rw [← volume_region]
  congr 1
  ext y
  simp [dominatedRegion]

theorem volume_dominatedRegionWithout (n i : ℕ) (pts : ℕ → ℕ → ℝ) :
    volume (dominatedRegionWithout d n pts ref i) =
      ENNReal.ofReal (HV d pts ((List.range n).filter (fun r => decide (r ≠ i))) ref) := by
  rw [← volume_region]
  congr 1
  ext y
  simp [dominatedRegionWithout, and_assoc]

theorem vol_dominatedRegion (n : ℕ) (pts : ℕ → ℕ → ℝ) :
    vol (dominatedRegion d n pts ref) = HV d pts (List.range n) ref := by
  unfold vol; rw [volume_dominatedRegion, ENNReal.toReal_ofReal HV_nonneg]

theorem vol_dominatedRegionWithout (n i : ℕ) (pts : ℕ → ℕ → ℝ) :
    vol (dominatedRegionWithout d n pts ref i) = HV d pts ((List.range n).filter (fun r => decide (r ≠ i))) ref := by
  unfold vol; rw [volume_dominatedRegionWithout, ENNReal.toReal_ofReal HV_nonneg]

end Moo
