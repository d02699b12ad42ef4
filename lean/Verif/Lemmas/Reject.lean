import Mathlib.Probability.Independence.Basic
import Mathlib.Probability.Independence.InfinitePi
import Mathlib.MeasureTheory.Measure.Typeclasses.Probability
import Mathlib.Analysis.SpecificLimits.Basic

set_option autoImplicit false

/-!
# Rejection sampling
-/

namespace Moo

open MeasureTheory ProbabilityTheory

/-- Independent draws until one of them is not in `R`: the probability that this one is in `S`. -/
theorem reject_prob {Ω E : Type*} [MeasurableSpace Ω] [MeasurableSpace E] {P : Measure Ω} [IsProbabilityMeasure P] {ν : Measure E}
    {X : ℕ → Ω → E} (hm : ∀ n, Measurable (X n)) (hind : iIndepFun X P) (hlaw : ∀ n, P.map (X n) = ν)
    {R S : Set E} (hR : MeasurableSet R) (hS : MeasurableSet S) (hRS : Disjoint R S) :
    P {ω | ∃ n, (∀ m < n, X m ω ∈ R) ∧ X n ω ∈ S} = (1 - ν R)⁻¹ * ν S := by
  have hset : {ω | ∃ n, (∀ m < n, X m ω ∈ R) ∧ X n ω ∈ S} = ⋃ n, {ω | (∀ m < n, X m ω ∈ R) ∧ X n ω ∈ S} := by
    ext ω; simp
  have hν : ∀ n (C : Set E), MeasurableSet C → P (X n ⁻¹' C) = ν C := by
    intro n C hC
    rw [← hlaw n, Measure.map_apply (hm n) hC]
  have hone : ∀ n, P {ω | (∀ m < n, X m ω ∈ R) ∧ X n ω ∈ S} = ν R ^ n * ν S := by
    intro n
    have h := hind.measure_inter_preimage_eq_mul (Finset.range (n + 1)) (sets := fun m => if m = n then S else R)
      (fun m _ => by split_ifs <;> assumption)
    have e1 : (⋂ i ∈ Finset.range (n + 1), X i ⁻¹' (if i = n then S else R)) = {ω | (∀ m < n, X m ω ∈ R) ∧ X n ω ∈ S} := by
      ext ω
      simp only [Set.mem_iInter, Finset.mem_range, Set.mem_preimage, Set.mem_ofPred_eq]
      constructor
      · intro h
        refine ⟨fun m hm => ?_, ?_⟩
        · have := h m (by omega)
          rwa [if_neg (by omega)] at this
        · have := h n (by omega)
          rwa [if_pos rfl] at this
      · rintro ⟨h1, h2⟩ i hi
        split_ifs with he
        · rw [he]; exact h2
        · exact h1 i (by omega)
    rw [e1] at h
    rw [h, Finset.prod_range_succ, if_pos rfl, hν n S hS]
    congr 1
    rw [Finset.prod_congr rfl (g := fun _ => ν R) (fun m hm => by
      rw [if_neg (by have := Finset.mem_range.1 hm; omega), hν m R hR])]
    simp
  have hdisj : Pairwise (Function.onFun Disjoint fun n => {ω | (∀ m < n, X m ω ∈ R) ∧ X n ω ∈ S}) := by
    intro a b hab
    rw [Function.onFun, Set.disjoint_left]
    rintro ω ⟨h1, h2⟩ ⟨h3, h4⟩
    rcases Nat.lt_or_gt_of_ne hab with h | h
    · exact Set.disjoint_left.1 hRS (h3 a h) h2
    · exact Set.disjoint_left.1 hRS (h1 b h) h4
  have hmeas : ∀ n, MeasurableSet {ω | (∀ m < n, X m ω ∈ R) ∧ X n ω ∈ S} := by
    intro n
    have : {ω | (∀ m < n, X m ω ∈ R) ∧ X n ω ∈ S} = (⋂ m, ⋂ (_ : m < n), X m ⁻¹' R) ∩ X n ⁻¹' S := by
      ext ω; simp
    rw [this]
    exact (MeasurableSet.iInter fun m => MeasurableSet.iInter fun _ => hm m hR).inter (hm n hS)
  rw [hset, measure_iUnion hdisj hmeas]
  simp only [hone]
  rw [ENNReal.tsum_mul_right, ENNReal.tsum_geometric]

/-- The same, together with an event that depends on the draws after the accepted one. -/
theorem reject_prob_next {Ω E : Type*} [MeasurableSpace Ω] [MeasurableSpace E] {P : Measure Ω} [IsProbabilityMeasure P] {ν : Measure E} [IsProbabilityMeasure ν]
    {X : ℕ → Ω → E} (hm : ∀ n, Measurable (X n)) (hind : iIndepFun X P) (hlaw : ∀ n, P.map (X n) = ν)
    {R S : Set E} (hR : MeasurableSet R) (hS : MeasurableSet S) (hRS : Disjoint R S) {F : Set (ℕ → E)} (hF : MeasurableSet F) :
    P {ω | ∃ n, (∀ m < n, X m ω ∈ R) ∧ X n ω ∈ S ∧ (fun i => X (n + 1 + i) ω) ∈ F} = (1 - ν R)⁻¹ * ν S * Measure.infinitePi (fun _ => ν) F := by
  have hdisj : Pairwise (Function.onFun Disjoint fun n => {ω | (∀ m < n, X m ω ∈ R) ∧ X n ω ∈ S}) := by
    intro a b hab
    rw [Function.onFun, Set.disjoint_left]
    rintro ω ⟨h1, h2⟩ ⟨h3, h4⟩
    rcases Nat.lt_or_gt_of_ne hab with h | h
    · exact Set.disjoint_left.1 hRS (h3 a h) h2
    · exact Set.disjoint_left.1 hRS (h1 b h) h4
  have hmeas : ∀ n, MeasurableSet {ω | (∀ m < n, X m ω ∈ R) ∧ X n ω ∈ S} := by
    intro n
    have : {ω | (∀ m < n, X m ω ∈ R) ∧ X n ω ∈ S} = (⋂ m, ⋂ (_ : m < n), X m ⁻¹' R) ∩ X n ⁻¹' S := by
      ext ω; simp
    rw [this]
    exact (MeasurableSet.iInter fun m => MeasurableSet.iInter fun _ => hm m hR).inter (hm n hS)
  have hshift : ∀ n, Measurable fun ω => (fun i => X (n + 1 + i) ω) := fun n => measurable_pi_lambda _ fun i => hm _
  have hlawshift : ∀ n, P ((fun ω => (fun i => X (n + 1 + i) ω)) ⁻¹' F) = Measure.infinitePi (fun _ => ν) F := by
    intro n
    have h := iIndepFun.map_fun_eq_infinitePi_map (X := fun i => X (n + 1 + i)) (fun i => hm _)
      (hind.precomp (g := fun i => n + 1 + i) (fun a b h => by dsimp only at h; omega))
    rw [← Measure.map_apply (hshift n) hF, h]
    simp only [hlaw]
  have hindep : ∀ n, P ({ω | (∀ m < n, X m ω ∈ R) ∧ X n ω ∈ S} ∩ ((fun ω => (fun i => X (n + 1 + i) ω)) ⁻¹' F)) =
      P {ω | (∀ m < n, X m ω ∈ R) ∧ X n ω ∈ S} * Measure.infinitePi (fun _ => ν) F := by
    intro n
    have hI := indep_iSup_of_disjoint (fun i => (hm i).comap_le) hind (S := Set.Iic n) (T := Set.Ioi n)
      (Set.disjoint_left.2 fun i h1 h2 => by rw [Set.mem_Iic] at h1; rw [Set.mem_Ioi] at h2; omega)
    rw [Indep_iff] at hI
    rw [← hlawshift n]
    refine hI _ _ ?_ ?_
    · have e : {ω | (∀ m < n, X m ω ∈ R) ∧ X n ω ∈ S} = (⋂ m, ⋂ (_ : m < n), X m ⁻¹' R) ∩ X n ⁻¹' S := by
        ext ω; simp
      rw [e]
      have hle : ∀ m ≤ n, ∀ C, MeasurableSet C → MeasurableSet[⨆ i ∈ Set.Iic n, MeasurableSpace.comap (X i) inferInstance] (X m ⁻¹' C) := by
        intro m hmn C hC
        exact (le_iSup₂_of_le m (Set.mem_Iic.2 hmn) le_rfl : MeasurableSpace.comap (X m) inferInstance ≤ _) _ ⟨C, hC, rfl⟩
      refine MeasurableSet.inter (MeasurableSet.iInter fun m => MeasurableSet.iInter fun h => hle m (le_of_lt h) R hR) (hle n le_rfl S hS)
    · have : @Measurable Ω (ℕ → E) (⨆ i ∈ Set.Ioi n, MeasurableSpace.comap (X i) inferInstance) _ (fun ω => (fun i => X (n + 1 + i) ω)) := by
        refine @measurable_pi_lambda Ω ℕ (fun _ => E) (⨆ i ∈ Set.Ioi n, MeasurableSpace.comap (X i) inferInstance) _ _ fun i => ?_
        have hc : @Measurable Ω E (MeasurableSpace.comap (X (n + 1 + i)) inferInstance) _ (X (n + 1 + i)) := comap_measurable _
        exact hc.mono (le_iSup₂_of_le (n + 1 + i) (Set.mem_Ioi.2 (by omega)) le_rfl) le_rfl
      exact this hF
  have hset : {ω | ∃ n, (∀ m < n, X m ω ∈ R) ∧ X n ω ∈ S ∧ (fun i => X (n + 1 + i) ω) ∈ F} =
      ⋃ n, ({ω | (∀ m < n, X m ω ∈ R) ∧ X n ω ∈ S} ∩ ((fun ω => (fun i => X (n + 1 + i) ω)) ⁻¹' F)) := by
    ext ω
    simp [and_assoc]
  have hset0 : {ω | ∃ n, (∀ m < n, X m ω ∈ R) ∧ X n ω ∈ S} = ⋃ n, {ω | (∀ m < n, X m ω ∈ R) ∧ X n ω ∈ S} := by
    ext ω; simp
  have hbase := reject_prob hm hind hlaw hR hS hRS
  rw [hset0, measure_iUnion hdisj hmeas] at hbase
  rw [hset, measure_iUnion (fun a b hab => (hdisj hab).mono Set.inter_subset_left Set.inter_subset_left) (fun n => (hmeas n).inter (hshift n hF))]
  simp only [hindep]
  rw [ENNReal.tsum_mul_right, hbase]

end Moo
