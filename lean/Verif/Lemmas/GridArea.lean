import Verif.Props.WhvHypeMean

/-!
# The number of grid points in an upper set of the unit square
-/

set_option autoImplicit false
set_option linter.unusedSectionVars false

namespace Moo

open MeasureTheory
open scoped Classical

/-- The points of the grid, as vectors. -/
noncomputable def gridPoint (M : ℕ) (p : Fin M × Fin M) : Fin 2 → ℝ := ![(p.1 : ℝ) / M, (p.2 : ℝ) / M]

/-- The points of the grid in a set. -/
noncomputable def gridIn (M : ℕ) (U : Set (Fin 2 → ℝ)) : Finset (Fin M × Fin M) := Finset.univ.filter fun p => gridPoint M p ∈ U

/-- The cell above a point of the grid, without its upper edges. -/
def gridCell (M : ℕ) (p : Fin M × Fin M) : Set (Fin 2 → ℝ) := Set.univ.pi fun k => Set.Ico (gridPoint M p k) (gridPoint M p k + 1 / M)

/-- The cell above a point of the grid. -/
def gridClosed (M : ℕ) (p : Fin M × Fin M) : Set (Fin 2 → ℝ) := Set.univ.pi fun k => Set.Icc (gridPoint M p k) (gridPoint M p k + 1 / M)

theorem gridPoint_range {M : ℕ} (p : Fin M × Fin M) (k : Fin 2) : 0 ≤ gridPoint M p k ∧ gridPoint M p k + 1 / M ≤ 1 := by
  have : ∀ a : Fin M, 0 ≤ (a : ℝ) / M ∧ (a : ℝ) / M + 1 / M ≤ 1 := by
    intro a
    have hM : (0 : ℝ) < M := by exact_mod_cast (Nat.zero_le _).trans_lt a.2
    refine ⟨by positivity, ?_⟩
    rw [← add_div, div_le_one hM]
    exact_mod_cast a.2
  fin_cases k
  · exact this p.1
  · exact this p.2

theorem unitSquare_cell {M : ℕ} (p : Fin M × Fin M) : unitSquare (gridCell M p) = ENNReal.ofReal (1 / (M : ℝ) ^ 2) := by
  unfold unitSquare gridCell
  rw [Measure.pi_pi]
  have : ∀ k : Fin 2, (volume.restrict (Set.Icc (0 : ℝ) 1)) (Set.Ico (gridPoint M p k) (gridPoint M p k + 1 / M)) = ENNReal.ofReal (1 / M) := by
    intro k
    obtain ⟨h1, h2⟩ := gridPoint_range p k
    have hs : Set.Ico (gridPoint M p k) (gridPoint M p k + 1 / M) ⊆ Set.Icc (0 : ℝ) 1 := fun x hx => ⟨h1.trans hx.1, hx.2.le.trans h2⟩
    rw [Measure.restrict_apply measurableSet_Ico, Set.inter_eq_left.2 hs, Real.volume_Ico, add_sub_cancel_left]
  simp only [this, Finset.prod_const, Finset.card_univ, Fintype.card_fin]
  rw [← ENNReal.ofReal_pow (by positivity), one_div_pow]

theorem unitSquare_closed {M : ℕ} (p : Fin M × Fin M) : unitSquare (gridClosed M p) ≤ ENNReal.ofReal (1 / (M : ℝ) ^ 2) := by
  unfold unitSquare gridClosed
  rw [Measure.pi_pi]
  have : ∀ k : Fin 2, (volume.restrict (Set.Icc (0 : ℝ) 1)) (Set.Icc (gridPoint M p k) (gridPoint M p k + 1 / M)) ≤ ENNReal.ofReal (1 / M) := by
    intro k
    refine (Measure.restrict_apply_le _ _).trans ?_
    rw [Real.volume_Icc, add_sub_cancel_left]
  refine (Finset.prod_le_prod' fun k _ => this k).trans ?_
  simp only [Finset.prod_const, Finset.card_univ, Fintype.card_fin]
  rw [← ENNReal.ofReal_pow (by positivity), one_div_pow]

theorem grid_disjoint {M : ℕ} (hM : 0 < M) (p q : Fin M × Fin M) (h : p ≠ q) : Disjoint (gridCell M p) (gridCell M q) := by
  rw [Set.disjoint_left]
  intro u hp hq
  have hM' : (0 : ℝ) < M := by exact_mod_cast hM
  have : ∀ a b : Fin M, ∀ x : ℝ, x ∈ Set.Ico ((a : ℝ) / M) ((a : ℝ) / M + 1 / M) → x ∈ Set.Ico ((b : ℝ) / M) ((b : ℝ) / M + 1 / M) → a = b := by
    intro a b x h1 h2
    have l1 : (a : ℝ) / M < (b : ℝ) / M + 1 / M := h1.1.trans_lt h2.2
    have l2 : (b : ℝ) / M < (a : ℝ) / M + 1 / M := h2.1.trans_lt h1.2
    rw [← add_div, div_lt_div_iff_of_pos_right hM'] at l1 l2
    have l1' : a.1 < b.1 + 1 := by exact_mod_cast l1
    have l2' : b.1 < a.1 + 1 := by exact_mod_cast l2
    exact Fin.ext (by omega)
  exact h (Prod.ext (this _ _ (u 0) (hp 0 trivial) (hq 0 trivial)) (this _ _ (u 1) (hp 1 trivial) (hq 1 trivial)))

theorem measurableSet_cell {M : ℕ} (p : Fin M × Fin M) : MeasurableSet (gridCell M p) := MeasurableSet.univ_pi fun _ => measurableSet_Ico

theorem grid_lower {M : ℕ} (hM : 0 < M) (U : Set (Fin 2 → ℝ)) (hU : IsUpperSet U) : ((gridIn M U).card : ℝ) / (M : ℝ) ^ 2 ≤ unitSquare.real U := by
  have hsub : (⋃ p ∈ gridIn M U, gridCell M p) ⊆ U := by
    intro u hu
    simp only [Set.mem_iUnion, exists_prop] at hu
    obtain ⟨p, hp, hc⟩ := hu
    have hpU : gridPoint M p ∈ U := by simpa [gridIn] using hp
    exact hU (fun k => (hc k trivial).1) hpU
  have h1 := measureReal_mono hsub (measure_ne_top unitSquare U)
  rw [measureReal_biUnion_finset (fun p _ q _ h => grid_disjoint hM p q h) (fun p _ => measurableSet_cell p)] at h1
  refine le_trans (le_of_eq ?_) h1
  have : ∀ p ∈ gridIn M U, unitSquare.real (gridCell M p) = 1 / (M : ℝ) ^ 2 := by
    intro p _
    rw [Measure.real, unitSquare_cell, ENNReal.toReal_ofReal (by positivity)]
  rw [Finset.sum_congr rfl this, Finset.sum_const, nsmul_eq_mul, mul_one_div]

theorem grid_upper {M : ℕ} (hM : 0 < M) (U : Set (Fin 2 → ℝ)) (hU : IsUpperSet U) :
    unitSquare.real U ≤ (((gridIn M U).card : ℝ) + 2 * M) / (M : ℝ) ^ 2 := by
  have hM' : (0 : ℝ) < M := by exact_mod_cast hM
  let H : Finset (Fin M × Fin M) := Finset.univ.filter fun p => ∃ u ∈ U, u ∈ gridClosed M p
  let box : Set (Fin 2 → ℝ) := Set.univ.pi fun _ => Set.Icc (0 : ℝ) 1
  have hex : ∀ x : ℝ, x ∈ Set.Icc (0 : ℝ) 1 → ∃ a : Fin M, x ∈ Set.Icc ((a : ℝ) / M) ((a : ℝ) / M + 1 / M) := by
    intro x hx
    by_cases h1 : x < 1
    · refine ⟨⟨⌊x * M⌋₊, ?_⟩, ?_⟩
      · rw [Nat.floor_lt (mul_nonneg hx.1 hM'.le)]
        nlinarith
      · refine ⟨?_, ?_⟩
        · show ((⌊x * M⌋₊ : ℕ) : ℝ) / M ≤ x
          rw [div_le_iff₀ hM']
          exact Nat.floor_le (mul_nonneg hx.1 hM'.le)
        · show x ≤ ((⌊x * M⌋₊ : ℕ) : ℝ) / M + 1 / M
          rw [← add_div, le_div_iff₀ hM']
          exact (Nat.lt_floor_add_one _).le
    · refine ⟨⟨M - 1, by omega⟩, ?_⟩
      have : x = 1 := le_antisymm hx.2 (not_lt.1 h1)
      subst this
      have e : ((M - 1 : ℕ) : ℝ) = (M : ℝ) - 1 := by rw [Nat.cast_sub hM, Nat.cast_one]
      show (1 : ℝ) ∈ Set.Icc (((M - 1 : ℕ) : ℝ) / M) (((M - 1 : ℕ) : ℝ) / M + 1 / M)
      rw [e, ← add_div, sub_add_cancel, div_self hM'.ne']
      refine ⟨?_, le_rfl⟩
      rw [div_le_one hM']; linarith
  have hcov : U ∩ box ⊆ ⋃ p ∈ H, gridClosed M p := by
    rintro u ⟨hu, hb⟩
    obtain ⟨a, ha⟩ := hex (u 0) (hb 0 trivial)
    obtain ⟨b, hb'⟩ := hex (u 1) (hb 1 trivial)
    have hc : u ∈ gridClosed M (a, b) := by
      intro k _
      fin_cases k
      · exact ha
      · exact hb'
    simp only [Set.mem_iUnion, exists_prop]
    exact ⟨(a, b), by simpa [H] using ⟨u, hu, hc⟩, hc⟩
  have hnull : unitSquare boxᶜ = 0 := by
    rw [unitSquare_eq, Measure.restrict_apply (MeasurableSet.compl (MeasurableSet.univ_pi fun _ => measurableSet_Icc)), Set.compl_inter_self, measure_empty]
  have h1 : unitSquare U ≤ ∑ p ∈ H, unitSquare (gridClosed M p) := by
    calc unitSquare U ≤ unitSquare ((U ∩ box) ∪ boxᶜ) := measure_mono fun u hu => by
            by_cases hb : u ∈ box
            · exact .inl ⟨hu, hb⟩
            · exact .inr hb
      _ ≤ unitSquare (U ∩ box) + unitSquare boxᶜ := measure_union_le _ _
      _ = unitSquare (U ∩ box) := by rw [hnull, add_zero]
      _ ≤ unitSquare (⋃ p ∈ H, gridClosed M p) := measure_mono hcov
      _ ≤ _ := measure_biUnion_finset_le _ _
  have h2 : unitSquare U ≤ H.card * ENNReal.ofReal (1 / (M : ℝ) ^ 2) := by
    refine h1.trans ((Finset.sum_le_sum fun p _ => unitSquare_closed p).trans (le_of_eq ?_))
    rw [Finset.sum_const, nsmul_eq_mul]
  have h3 : unitSquare.real U ≤ (H.card : ℝ) / (M : ℝ) ^ 2 := by
    have := ENNReal.toReal_mono (ENNReal.mul_ne_top (ENNReal.natCast_ne_top _) ENNReal.ofReal_ne_top) h2
    rw [ENNReal.toReal_mul, ENNReal.toReal_natCast, ENNReal.toReal_ofReal (by positivity), mul_one_div] at this
    exact this
  refine h3.trans (div_le_div_of_nonneg_right ?_ (by positivity))
  have hcard : H.card ≤ (gridIn M U).card + 2 * M := by
    let A := H.filter fun p => p.1.1 + 1 < M ∧ p.2.1 + 1 < M
    let B : Finset (Fin M × Fin M) := (({⟨M - 1, by omega⟩} : Finset (Fin M)) ×ˢ Finset.univ) ∪ (Finset.univ ×ˢ ({⟨M - 1, by omega⟩} : Finset (Fin M)))
    have hHAB : H ⊆ A ∪ B := by
      intro p hp
      by_cases hA : p.1.1 + 1 < M ∧ p.2.1 + 1 < M
      · exact Finset.mem_union_left _ (Finset.mem_filter.2 ⟨hp, hA⟩)
      · refine Finset.mem_union_right _ ?_
        have h1 := p.1.2
        have h2 := p.2.2
        rcases (show p.1.1 = M - 1 ∨ p.2.1 = M - 1 by omega) with h | h
        · exact Finset.mem_union_left _ (Finset.mem_product.2 ⟨Finset.mem_singleton.2 (Fin.ext h), Finset.mem_univ _⟩)
        · exact Finset.mem_union_right _ (Finset.mem_product.2 ⟨Finset.mem_univ _, Finset.mem_singleton.2 (Fin.ext h)⟩)
    have hB : B.card ≤ 2 * M := by
      refine (Finset.card_union_le _ _).trans ?_
      rw [Finset.card_product, Finset.card_product, Finset.card_singleton, Finset.card_univ, Fintype.card_fin]
      omega
    have hA : A.card ≤ (gridIn M U).card := by
      let f : Fin M × Fin M → Fin M × Fin M := fun p => (⟨(p.1.1 + 1) % M, Nat.mod_lt _ hM⟩, ⟨(p.2.1 + 1) % M, Nat.mod_lt _ hM⟩)
      refine Finset.card_le_card_of_injOn f ?_ ?_
      · intro p hp
        obtain ⟨hpH, ha, hb⟩ := Finset.mem_filter.1 (Finset.mem_coe.1 hp)
        obtain ⟨_, u, hu, hc⟩ := Finset.mem_filter.1 hpH
        refine Finset.mem_coe.2 (Finset.mem_filter.2 ⟨Finset.mem_univ _, hU ?_ hu⟩)
        intro k
        have := (hc k trivial).2
        fin_cases k
        · refine this.trans (le_of_eq ?_)
          show (p.1 : ℝ) / M + 1 / M = (((p.1.1 + 1) % M : ℕ) : ℝ) / M
          rw [Nat.mod_eq_of_lt ha, ← add_div]; push_cast; rfl
        · refine this.trans (le_of_eq ?_)
          show (p.2 : ℝ) / M + 1 / M = (((p.2.1 + 1) % M : ℕ) : ℝ) / M
          rw [Nat.mod_eq_of_lt hb, ← add_div]; push_cast; rfl
      · intro p hp q hq h
        obtain ⟨_, ha, hb⟩ := Finset.mem_filter.1 (Finset.mem_coe.1 hp)
        obtain ⟨_, ha', hb'⟩ := Finset.mem_filter.1 (Finset.mem_coe.1 hq)
        have e1 : (p.1.1 + 1) % M = (q.1.1 + 1) % M := congrArg (fun r : Fin M × Fin M => r.1.1) h
        have e2 : (p.2.1 + 1) % M = (q.2.1 + 1) % M := congrArg (fun r : Fin M × Fin M => r.2.1) h
        rw [Nat.mod_eq_of_lt ha, Nat.mod_eq_of_lt ha'] at e1
        rw [Nat.mod_eq_of_lt hb, Nat.mod_eq_of_lt hb'] at e2
        exact Prod.ext (Fin.ext (by omega)) (Fin.ext (by omega))
    have := (Finset.card_le_card hHAB).trans (Finset.card_union_le _ _)
    omega
  exact_mod_cast hcard

end Moo
