import Verif.Lemmas.HvApprox
import Mathlib.Probability.StrongLaw
import Mathlib.Probability.HasLaw
import Mathlib.Probability.ProductMeasure
import Mathlib.Probability.Independence.InfinitePi

/-!
# C55, C56: the Monte-Carlo approximation of the hypervolume (`hv_approx`)

`Z s ω k` is normal variate `k` of sample `s` in the outcome `ω`.
-/

set_option autoImplicit false

namespace Moo

open MeasureTheory ProbabilityTheory Filter
open scoped Topology Function

/-- Samples without a zero variate: the value of the estimate. -/
theorem hvApprox_value (data : ℕ → ℕ → ℝ) (nobj n : ℕ) (hm : 0 < nobj) (ref : ℕ → ℝ) (maximise : ℕ → Bool)
    (hr : hvaRows data nobj n ref maximise ≠ []) (N : ℕ) (hN : 0 < N) (z : ℕ → ℕ → ℝ) (hz : ∀ s < N, ∀ k < nobj, z s k ≠ 0) :
    hvApprox data nobj n ref maximise N z = some (hvaConst nobj *
      ((∑ s ∈ Finset.range N, hvaRho nobj (hvaRows data nobj n ref maximise) (fun k => z s k) ^ nobj) / N)) := by
  set rows := hvaRows data nobj n ref maximise
  have h1 : ∀ s ∈ List.range N, hvaSample nobj rows (z s) = some (hvaRho nobj rows (fun k => z s k)) := by
    intro s hs
    obtain ⟨v, hv, _⟩ := hvaSample_spec nobj hm rows hr (z s) (hz s (List.mem_range.mp hs))
    have : hvaSample nobj rows (extVec (fun k : Fin nobj => z s k)) = hvaSample nobj rows (z s) :=
      hvaSample_congr _ _ _ _ (fun k hk => by simp [extVec, hk])
    unfold hvaRho
    rw [this, hv]; rfl
  unfold hvApprox
  rw [mapM_some_eq _ _ _ h1, Option.bind_some, if_neg (by simpa using hN.ne'), List.length_map, List.length_range, List.map_map,
    list_range_sum]
  rfl

/-- There is a row as soon as a point is strictly better than the reference point in every objective. -/
theorem hvaRows_ne_nil (data : ℕ → ℕ → ℝ) (nobj n : ℕ) (ref : ℕ → ℝ) (maximise : ℕ → Bool) :
    hvaRows data nobj n ref maximise ≠ [] ↔ ∃ i < n, ∀ k < nobj, StrictlyBetter (maximise k) (data i k) (ref k) := by
  have hs : ∀ i k, 0 < hvaShift maximise ref (data i) k ↔ StrictlyBetter (maximise k) (data i k) (ref k) := by
    intro i k; rw [hvaShift_eq]; unfold StrictlyBetter; split <;> simp
  constructor
  · intro h
    obtain ⟨y, hy⟩ := List.exists_mem_of_ne_nil _ h
    obtain ⟨⟨i, hi, rfl⟩, h2⟩ := (mem_hvaRows _ _ _ _ _ _).mp hy
    exact ⟨i, hi, fun k hk => (hs i k).mp (h2 k hk)⟩
  · rintro ⟨i, hi, h⟩
    exact List.ne_nil_of_mem ((mem_hvaRows _ _ _ _ _ _).mpr ⟨⟨i, hi, rfl⟩, fun k hk => (hs i k).mpr (h k hk)⟩)

section

variable {Ω : Type*} [MeasurableSpace Ω] (P : Measure Ω)

theorem ae_normal_ne_zero (nobj : ℕ) (Zs : Ω → ℕ → ℝ) (h : HasLaw (fun ω (k : Fin nobj) => Zs ω k) (Measure.pi fun _ => gaussianReal 0 1) P) :
    ∀ᵐ ω ∂P, ∀ k < nobj, Zs ω k ≠ 0 := by
  have h1 : ∀ᵐ z ∂(Measure.pi fun _ : Fin nobj => gaussianReal 0 1), ∀ k, z k ≠ 0 := by
    refine ae_all_iff.mpr (fun k => ?_)
    have : NullSingletonClass (gaussianReal 0 1) := nullSingletonClass_gaussianReal one_ne_zero
    exact Measure.ae_eval_ne (μ := fun _ : Fin nobj => gaussianReal 0 1) k 0
  rw [← h.map_eq] at h1
  have h2 := ae_of_ae_map h.aemeasurable h1
  filter_upwards [h2] with ω hω k hk
  exact hω ⟨k, hk⟩

/-- **C55.**  `hv_approx` is an unbiased estimate of the hypervolume: with independent standard normal variates in every sample, it almost
surely returns a number, and its expectation is the volume of the region that is dominated by the points and bounded by the reference point. -/
theorem C55_hv_approx_unbiased (data : ℕ → ℕ → ℝ) (nobj n : ℕ) (hm : 0 < nobj) (ref : ℕ → ℝ) (maximise : ℕ → Bool) (nsamples : ℕ)
    (hN : 0 < nsamples) (hex : ∃ i < n, ∀ k < nobj, StrictlyBetter (maximise k) (data i k) (ref k)) (Z : ℕ → Ω → ℕ → ℝ)
    (hZ : ∀ s < nsamples, HasLaw (fun ω (k : Fin nobj) => Z s ω k) (Measure.pi fun _ => gaussianReal 0 1) P) :
    (∀ᵐ ω ∂P, (hvApprox data nobj n ref maximise nsamples (fun s => Z s ω)).isSome) ∧
    ∫ ω, (hvApprox data nobj n ref maximise nsamples (fun s => Z s ω)).getD 0 ∂P = vol (dominatedRegionMx nobj n maximise data ref) := by
  have hr := (hvaRows_ne_nil data nobj n ref maximise).mpr hex
  set rows := hvaRows data nobj n ref maximise with hrows
  have hz : ∀ᵐ ω ∂P, ∀ s < nsamples, ∀ k < nobj, Z s ω k ≠ 0 := by
    rw [ae_all_iff]; intro s
    by_cases hs : s < nsamples
    · filter_upwards [ae_normal_ne_zero P nobj (Z s) (hZ s hs)] with ω hω _
      exact hω
    · exact Eventually.of_forall (fun ω h => absurd h hs)
  have hval : ∀ᵐ ω ∂P, hvApprox data nobj n ref maximise nsamples (fun s => Z s ω) = some (hvaConst nobj *
      ((∑ s ∈ Finset.range nsamples, hvaRho nobj rows (fun k => Z s ω k) ^ nobj) / nsamples)) := by
    filter_upwards [hz] with ω hω
    exact hvApprox_value data nobj n hm ref maximise hr nsamples hN (fun s => Z s ω) hω
  refine ⟨by filter_upwards [hval] with ω hω; rw [hω]; rfl, ?_⟩
  rw [integral_congr_ae (g := fun ω => hvaConst nobj * ((∑ s ∈ Finset.range nsamples, hvaRho nobj rows (fun k => Z s ω k) ^ nobj) / nsamples))
    (by filter_upwards [hval] with ω hω; rw [hω]; rfl)]
  obtain ⟨hint, hmean⟩ := hvaRho_mean data nobj n hm ref maximise hr
  rw [← hrows] at hint hmean
  have hmeas : AEStronglyMeasurable (fun z => hvaRho nobj rows z ^ nobj) (Measure.pi fun _ : Fin nobj => gaussianReal 0 1) :=
    hint.aestronglyMeasurable
  have hI : ∀ s < nsamples, ∫ ω, hvaRho nobj rows (fun k => Z s ω k) ^ nobj ∂P = ∫ z, hvaRho nobj rows z ^ nobj ∂(stdNormal nobj) := by
    intro s hs
    exact (hZ s hs).integral_comp hmeas
  have hInt : ∀ s < nsamples, Integrable (fun ω => hvaRho nobj rows (fun k => Z s ω k) ^ nobj) P := by
    intro s hs
    have : Integrable (fun z => hvaRho nobj rows z ^ nobj) (P.map (fun ω (k : Fin nobj) => Z s ω k)) := by
      rw [(hZ s hs).map_eq]; exact hint
    exact this.comp_aemeasurable (hZ s hs).aemeasurable
  rw [integral_const_mul, integral_div, integral_finsetSum _ (fun s hs => hInt s (Finset.mem_range.mp hs)),
    Finset.sum_congr rfl (fun s hs => hI s (Finset.mem_range.mp hs)), Finset.sum_const, Finset.card_range, nsmul_eq_mul,
    mul_div_cancel_left₀ _ (by exact_mod_cast hN.ne'), hmean, vol_dominatedRegionMx]

/-- **C55.**  `hv_approx` is consistent: with independent samples it converges to the hypervolume, almost surely, when the number of samples
grows. -/
theorem C55_hv_approx_consistent (data : ℕ → ℕ → ℝ) (nobj n : ℕ) (hm : 0 < nobj) (ref : ℕ → ℝ) (maximise : ℕ → Bool)
    (hex : ∃ i < n, ∀ k < nobj, StrictlyBetter (maximise k) (data i k) (ref k)) (Z : ℕ → Ω → ℕ → ℝ)
    (hZ : ∀ s, HasLaw (fun ω (k : Fin nobj) => Z s ω k) (Measure.pi fun _ => gaussianReal 0 1) P)
    (hind : Pairwise fun s t => IndepFun (fun ω (k : Fin nobj) => Z s ω k) (fun ω (k : Fin nobj) => Z t ω k) P) :
    ∀ᵐ ω ∂P, Tendsto (fun nsamples => (hvApprox data nobj n ref maximise nsamples (fun s => Z s ω)).getD 0) atTop
      (𝓝 (vol (dominatedRegionMx nobj n maximise data ref))) := by
  have hr := (hvaRows_ne_nil data nobj n ref maximise).mpr hex
  set rows := hvaRows data nobj n ref maximise with hrows
  have hz : ∀ᵐ ω ∂P, ∀ s, ∀ k < nobj, Z s ω k ≠ 0 := ae_all_iff.mpr (fun s => ae_normal_ne_zero P nobj (Z s) (hZ s))
  obtain ⟨hint, hmean⟩ := hvaRho_mean data nobj n hm ref maximise hr
  rw [← hrows] at hint hmean
  have hmeas : Measurable (fun z => hvaRho nobj rows z ^ nobj) := (measurable_hvaRho hm rows hr).pow_const _
  have hid : ∀ s, IdentDistrib (fun ω => hvaRho nobj rows (fun k => Z s ω k) ^ nobj) (fun ω => hvaRho nobj rows (fun k => Z 0 ω k) ^ nobj) P P := by
    intro s
    have : IdentDistrib (fun ω (k : Fin nobj) => Z s ω k) (fun ω (k : Fin nobj) => Z 0 ω k) P P :=
      ⟨(hZ s).aemeasurable, (hZ 0).aemeasurable, by rw [(hZ s).map_eq, (hZ 0).map_eq]⟩
    exact this.comp hmeas
  have hI0 : Integrable (fun ω => hvaRho nobj rows (fun k => Z 0 ω k) ^ nobj) P := by
    have : Integrable (fun z => hvaRho nobj rows z ^ nobj) (P.map (fun ω (k : Fin nobj) => Z 0 ω k)) := by
      rw [(hZ 0).map_eq]; exact hint
    exact this.comp_aemeasurable (hZ 0).aemeasurable
  have hE : ∫ ω, hvaRho nobj rows (fun k => Z 0 ω k) ^ nobj ∂P = ∫ z, hvaRho nobj rows z ^ nobj ∂(stdNormal nobj) :=
    (hZ 0).integral_comp hint.aestronglyMeasurable
  have hslln := strong_law_ae_real (fun s ω => hvaRho nobj rows (fun k => Z s ω k) ^ nobj) hI0
    (fun s t hst => (hind hst).comp hmeas hmeas) hid
  filter_upwards [hz, hslln] with ω hω hlim
  rw [hE] at hlim
  have h2 := hlim.const_mul (hvaConst nobj)
  rw [hmean, ← vol_dominatedRegionMx] at h2
  refine h2.congr' ?_
  filter_upwards [eventually_gt_atTop 0] with N hN
  rw [hvApprox_value data nobj n hm ref maximise hr N hN (fun s => Z s ω) (fun s _ => hω s)]
  rfl

end

/-- Independent samples of `m` independent standard normal variates exist. -/
theorem exists_normal_samples (m : ℕ) : ∃ (Ω : Type) (_ : MeasurableSpace Ω) (P : Measure Ω) (_ : IsProbabilityMeasure P) (Z : ℕ → Ω → ℕ → ℝ),
    (∀ s, HasLaw (fun ω (k : Fin m) => Z s ω k) (Measure.pi fun _ => gaussianReal 0 1) P) ∧
    Pairwise fun s t => IndepFun (fun ω (k : Fin m) => Z s ω k) (fun ω (k : Fin m) => Z t ω k) P := by
  let μ : ℕ → Measure (Fin m → ℝ) := fun _ => Measure.pi fun _ => gaussianReal 0 1
  refine ⟨ℕ → Fin m → ℝ, inferInstance, Measure.infinitePi μ, inferInstance, fun s ω => extVec (ω s), ?_, ?_⟩
  · intro s
    have : (fun (ω : ℕ → Fin m → ℝ) (k : Fin m) => extVec (ω s) k) = fun ω => ω s := by
      funext ω k; exact extVec_fin _ _
    rw [this]
    exact ⟨(measurable_pi_apply s).aemeasurable, Measure.infinitePi_map_eval μ s⟩
  · intro s t hst
    have h : ∀ s, (fun (ω : ℕ → Fin m → ℝ) (k : Fin m) => extVec (ω s) k) = fun ω => ω s := by
      intro s; funext ω k; exact extVec_fin _ _
    simp only [h]
    have := iIndepFun_infinitePi (P := μ) (X := fun _ x => x) (fun _ => measurable_id)
    exact this.indepFun hst

/-- Non-vacuity of C55: one point, two maximised and minimised objectives; the expected value is the area 2 of the box. -/
example : ∃ (Ω : Type) (_ : MeasurableSpace Ω) (P : Measure Ω) (_ : IsProbabilityMeasure P) (Z : ℕ → Ω → ℕ → ℝ),
    ∫ ω, (hvApprox (fun _ k => if k = 0 then 1 else 5) 2 1 (fun k => if k = 0 then 2 else 3) (fun k => k = 1) 10 (fun s => Z s ω)).getD 0 ∂P
      = vol (dominatedRegionMx 2 1 (fun k => k = 1) (fun _ k => if k = 0 then 1 else 5) (fun k => if k = 0 then 2 else 3)) := by
  obtain ⟨Ω, i1, P, i2, Z, h1, _⟩ := exists_normal_samples 2
  refine ⟨Ω, i1, P, i2, Z, (C55_hv_approx_unbiased P _ 2 1 (by norm_num) _ _ 10 (by norm_num) ⟨0, by norm_num, fun k hk => ?_⟩ Z (fun s _ => h1 s)).2⟩
  have : k = 0 ∨ k = 1 := by omega
  rcases this with rfl | rfl <;> norm_num [StrictlyBetter]

/-! ## C56: what holds for every single run -/

/-- **C56.**  Pareto compliance, with the same random numbers: if every point of `B` is weakly dominated by a point of `A` and the
approximation for `B` is a number, then so is the one for `A`, and it is not smaller. -/
theorem C56_hv_approx_monotone (A B : ℕ → ℕ → ℝ) (nobj nA nB : ℕ) (ref : ℕ → ℝ) (maximise : ℕ → Bool) (nsamples : ℕ) (z : ℕ → ℕ → ℝ)
    (hdom : ∀ j < nB, ∃ i < nA, WeakDom nobj maximise (A i) (B j)) (b : ℝ) (hb : hvApprox B nobj nB ref maximise nsamples z = some b) :
    ∃ a, hvApprox A nobj nA ref maximise nsamples z = some a ∧ b ≤ a := by
  have hN : 0 < nsamples := by
    rcases Nat.eq_zero_or_pos nsamples with h | h
    · subst h; simp [hvApprox] at hb
    · exact h
  have hsome : ∀ s < nsamples, hvaSample nobj (hvaRows B nobj nB ref maximise) (z s) ≠ none := by
    intro s hs h
    unfold hvApprox at hb
    rw [mapM_none_of _ _ s (List.mem_range.mpr hs) h] at hb
    simp at hb
  have hz : ∀ s < nsamples, ∀ k < nobj, z s k ≠ 0 := by
    intro s hs k hk h0
    apply hsome s hs
    unfold hvaSample
    rw [if_pos]
    rw [List.any_eq_true]; exact ⟨k, List.mem_range.mpr hk, by simp [h0]⟩
  have hrB : hvaRows B nobj nB ref maximise ≠ [] := by
    intro h
    apply hsome 0 hN
    unfold hvaSample
    rw [h]; split <;> rfl
  have hm : 0 < nobj := by
    rcases Nat.eq_zero_or_pos nobj with h | h
    · exfalso
      subst h
      apply hsome 0 hN
      unfold hvaSample
      rw [if_neg (by simp)]
      obtain ⟨y, hy⟩ := List.exists_mem_of_ne_nil _ hrB
      rw [mapM_none_of _ _ y hy (by simp [npMin])]; rfl
    · exact h
  have hshift : ∀ i j, WeakDom nobj maximise (A i) (B j) → ∀ k < nobj, hvaShift maximise ref (B j) k ≤ hvaShift maximise ref (A i) k := by
    intro i j h k hk
    have := h k hk
    rw [hvaShift_eq, hvaShift_eq]
    unfold AtLeastAsGood at this
    by_cases hmx : maximise k <;> simp only [hmx, if_true] at this ⊢ <;> simp at this ⊢ <;> linarith
  have hrow : ∀ y ∈ hvaRows B nobj nB ref maximise, ∃ x ∈ hvaRows A nobj nA ref maximise, ∀ k < nobj, y k ≤ x k := by
    intro y hy
    obtain ⟨⟨j, hj, rfl⟩, h2⟩ := (mem_hvaRows _ _ _ _ _ _).mp hy
    obtain ⟨i, hi, h⟩ := hdom j hj
    exact ⟨_, (mem_hvaRows _ _ _ _ _ _).mpr ⟨⟨i, hi, rfl⟩, fun k hk => lt_of_lt_of_le (h2 k hk) (hshift i j h k hk)⟩, hshift i j h⟩
  have hrA : hvaRows A nobj nA ref maximise ≠ [] := by
    obtain ⟨y, hy⟩ := List.exists_mem_of_ne_nil _ hrB
    obtain ⟨x, hx, _⟩ := hrow y hy
    exact List.ne_nil_of_mem hx
  rw [hvApprox_value B nobj nB hm ref maximise hrB nsamples hN z hz, Option.some_inj] at hb
  refine ⟨_, hvApprox_value A nobj nA hm ref maximise hrA nsamples hN z hz, ?_⟩
  rw [← hb]
  refine mul_le_mul_of_nonneg_left ?_ (hvaConst_pos nobj).le
  refine div_le_div_of_nonneg_right (Finset.sum_le_sum (fun s hs => ?_)) (Nat.cast_nonneg _)
  have hz' : ∀ k : Fin nobj, z s k ≠ 0 := fun k => hz s (Finset.mem_range.mp hs) k k.2
  refine pow_le_pow_left₀ (hvaRho_nonneg hm _ hrB (fun y hy => ((mem_hvaRows _ _ _ _ _ _).mp hy).2) _) ?_ _
  refine le_of_forall_lt (fun t ht => ?_)
  rw [lt_hvaRho hm _ hrB _ hz'] at ht
  rw [lt_hvaRho hm _ hrA _ hz']
  obtain ⟨y, hy, h⟩ := ht
  obtain ⟨x, hx, hxy⟩ := hrow y hy
  have hs := sqrt_sum_sq_pos hm (fun k : Fin nobj => z s k) hz'
  exact ⟨x, hx, fun k => lt_of_lt_of_le (h k) (div_le_div_of_nonneg_right (hxy k k.2) (div_pos (abs_pos.mpr (hz' k)) hs).le)⟩

/-- **C56.**  Dominated points, repeated points and the order of the points have no influence: sets that weakly dominate each other have the
same approximation, if the random numbers are the same. -/
theorem C56_hv_approx_equal_of_equivalent_sets (A B : ℕ → ℕ → ℝ) (nobj nA nB : ℕ) (ref : ℕ → ℝ) (maximise : ℕ → Bool) (nsamples : ℕ)
    (z : ℕ → ℕ → ℝ) (h1 : ∀ j < nB, ∃ i < nA, WeakDom nobj maximise (A i) (B j)) (h2 : ∀ i < nA, ∃ j < nB, WeakDom nobj maximise (B j) (A i)) :
    hvApprox A nobj nA ref maximise nsamples z = hvApprox B nobj nB ref maximise nsamples z := by
  cases hB : hvApprox B nobj nB ref maximise nsamples z with
  | none =>
    cases hA : hvApprox A nobj nA ref maximise nsamples z with
    | none => rfl
    | some a =>
      obtain ⟨b, hb, _⟩ := C56_hv_approx_monotone B A nobj nB nA ref maximise nsamples z h2 a hA
      rw [hB] at hb; exact absurd hb (by simp)
  | some b =>
    obtain ⟨a, ha, hba⟩ := C56_hv_approx_monotone A B nobj nA nB ref maximise nsamples z h1 b hB
    obtain ⟨b', hb', hab⟩ := C56_hv_approx_monotone B A nobj nB nA ref maximise nsamples z h2 a ha
    rw [hB, Option.some_inj] at hb'
    rw [ha, Option.some_inj]
    subst hb'
    exact le_antisymm hab hba

/-- **C56.**  A number is returned exactly if there is a sample, an objective, and a point that is strictly better than the reference point in
every objective (for random numbers that are not zero), and it is then positive. -/
theorem C56_hv_approx_isSome_iff (data : ℕ → ℕ → ℝ) (nobj n : ℕ) (ref : ℕ → ℝ) (maximise : ℕ → Bool) (nsamples : ℕ) (z : ℕ → ℕ → ℝ)
    (hm : 0 < nobj) (hN : 0 < nsamples) (hz : ∀ s < nsamples, ∀ k < nobj, z s k ≠ 0) :
    ((hvApprox data nobj n ref maximise nsamples z).isSome ↔ ∃ i < n, ∀ k < nobj, StrictlyBetter (maximise k) (data i k) (ref k)) ∧
    ∀ v, hvApprox data nobj n ref maximise nsamples z = some v → 0 < v := by
  have hnone : hvaRows data nobj n ref maximise = [] → hvApprox data nobj n ref maximise nsamples z = none := by
    intro h
    unfold hvApprox
    rw [mapM_none_of _ _ 0 (List.mem_range.mpr hN) (by unfold hvaSample; rw [h]; split <;> rfl)]; rfl
  by_cases hr : hvaRows data nobj n ref maximise = []
  · have h1 := hnone hr
    have h2 := (hvaRows_ne_nil data nobj n ref maximise).not.mp (by simpa using hr)
    rw [h1]
    exact ⟨by simpa using h2, by simp⟩
  · have h1 := hvApprox_value data nobj n hm ref maximise hr nsamples hN z hz
    have h2 := (hvaRows_ne_nil data nobj n ref maximise).mp hr
    rw [h1]
    refine ⟨by simpa using h2, fun v hv => ?_⟩
    rw [Option.some_inj] at hv
    rw [← hv]
    refine mul_pos (hvaConst_pos nobj) (div_pos (Finset.sum_pos (fun s hs => pow_pos ?_ _) ⟨0, Finset.mem_range.mpr hN⟩) (by exact_mod_cast hN))
    have hz' : ∀ k : Fin nobj, z s k ≠ 0 := fun k => hz s (Finset.mem_range.mp hs) k k.2
    obtain ⟨y, hy⟩ := List.exists_mem_of_ne_nil _ hr
    have hs := sqrt_sum_sq_pos hm (fun k : Fin nobj => z s k) hz'
    exact (lt_hvaRho hm _ hr _ hz' 0).mpr ⟨y, hy, fun k =>
      div_pos (((mem_hvaRows _ _ _ _ _ _).mp hy).2 k k.2) (div_pos (abs_pos.mpr (hz' k)) hs)⟩

/-- **C56, a defect.**  If no point is strictly better than the reference point in every objective then `hv_approx` raises an exception,
whatever the random numbers, although the hypervolume is zero. -/
theorem C56_hv_approx_raises (data : ℕ → ℕ → ℝ) (nobj n : ℕ) (ref : ℕ → ℝ) (maximise : ℕ → Bool) (nsamples : ℕ) (z : ℕ → ℕ → ℝ)
    (h : ¬ ∃ i < n, ∀ k < nobj, StrictlyBetter (maximise k) (data i k) (ref k)) :
    hvApprox data nobj n ref maximise nsamples z = none ∧ vol (dominatedRegionMx nobj n maximise data ref) = 0 := by
  have hr : hvaRows data nobj n ref maximise = [] := by
    by_contra hr; exact h ((hvaRows_ne_nil data nobj n ref maximise).mp hr)
  constructor
  · rcases Nat.eq_zero_or_pos nsamples with h0 | h0
    · subst h0; rfl
    · unfold hvApprox
      rw [mapM_none_of _ _ 0 (List.mem_range.mpr h0) (by unfold hvaSample; rw [hr]; split <;> rfl)]; rfl
  · rw [vol_dominatedRegionMx]
    unfold vol
    rw [← hvaRows_volume, hr]
    simp

/-- Non-vacuity of C56: the point (1, 1) dominates (2, 1), both strictly better than (3, 3). -/
example : ∃ a b, hvApprox (fun _ _ => 1) 2 1 (fun _ => 3) (fun _ => false) 1 (fun _ _ => 1) = some a ∧
    hvApprox (fun _ k => if k = 0 then 2 else 1) 2 1 (fun _ => 3) (fun _ => false) 1 (fun _ _ => 1) = some b ∧ b ≤ a := by
  have hb := (C56_hv_approx_isSome_iff (fun _ k => if k = 0 then 2 else 1) 2 1 (fun _ => 3) (fun _ => false) 1 (fun _ _ => 1)
    (by norm_num) (by norm_num) (by norm_num)).1.mpr ⟨0, by norm_num, fun k hk => by
      have : k = 0 ∨ k = 1 := by omega
      rcases this with rfl | rfl <;> norm_num [StrictlyBetter]⟩
  obtain ⟨b, hb⟩ := Option.isSome_iff_exists.mp hb
  obtain ⟨a, ha, h⟩ := C56_hv_approx_monotone (fun _ _ => 1) _ 2 1 1 _ _ 1 _ (fun j _ => ⟨0, by norm_num, fun k hk => by
      have : k = 0 ∨ k = 1 := by omega
      rcases this with rfl | rfl <;> norm_num [AtLeastAsGood]⟩) b hb
  exact ⟨a, b, ha, hb, h⟩

/-- Non-vacuity of the defect: the only point is the reference point. -/
example : hvApprox (fun _ _ => 1) 2 1 (fun _ => 1) (fun _ => false) 5 (fun _ _ => 1) = none :=
  (C56_hv_approx_raises _ 2 1 _ _ 5 _ (by rintro ⟨i, _, h⟩; have := h 0 (by norm_num); norm_num [StrictlyBetter] at this)).1

end Moo
