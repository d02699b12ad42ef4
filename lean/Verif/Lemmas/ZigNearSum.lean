import Verif.Lemmas.ZigNear

set_option autoImplicit false
set_option linter.unusedSectionVars false

/-!
# The law of `rng_standard_normal` with tables that satisfy the equations approximately
-/

namespace Moo

open MeasureTheory ProbabilityTheory Set

section
variable {T : ZigTable} {N : ℕ} {v ε : ℝ}

theorem ZigNear.telescope (h : ZigNear T N v ε) (x : ℝ) (M : ℕ) (hM : M < N) :
    (∑ i ∈ Finset.range M, layT (T.f i) (T.f (i + 1)) v x) + ENNReal.ofReal (min (bell x) (T.f M) / v) = ENNReal.ofReal (min (bell x) (T.f 0) / v) := by
  have hv := h.v_pos
  induction M with
  | zero => simp
  | succ M ih =>
    rw [Finset.sum_range_succ, ← ih (by omega), add_assoc]
    congr 1
    have h1 := (h.f_anti M hM).le
    have h2 : min (bell x) (T.f (M + 1)) ≤ min (bell x) (T.f M) := min_le_min_left _ h1
    have h3 : 0 ≤ min (bell x) (T.f (M + 1)) := le_min (bell_pos x).le (h.f_pos _ hM).le
    rw [layT, ← ENNReal.ofReal_add (div_nonneg (by linarith) hv.le) (div_nonneg h3 hv.le)]
    congr 1
    ring

theorem ZigNear.sum (h : ZigNear T N v ε) (C : Set ℝ) (hC : MeasurableSet C) :
    (∑ i ∈ Finset.range (N - 1), ∫⁻ x in Ici 0, C.indicator (layT (T.f i) (T.f (i + 1)) v) x) +
      (∫⁻ x in Ici 0, C.indicator (fun x => ENNReal.ofReal (min (bell x) (T.f (N - 1)) / v)) x) = ∫⁻ x in Ici 0, C.indicator (fun x => ENNReal.ofReal (bell x / v)) x := by
  have h2 := h.two_le
  have hm1 : ∀ i, Measurable (C.indicator (layT (T.f i) (T.f (i + 1)) v)) := fun i => (measurable_layT _ _ _).indicator hC
  rw [← lintegral_finsetSum _ (fun i _ => hm1 i), ← lintegral_add_left (Finset.measurable_sum _ fun i _ => hm1 i)]
  refine setLIntegral_congr_fun measurableSet_Ici (fun x hx => ?_)
  by_cases hc : x ∈ C
  · simp only [indicator_of_mem hc]
    rw [h.telescope x (N - 1) (by omega), h.f_zero, min_eq_left]
    have : bell x ≤ bell 0 := (bell_le_iff hx le_rfl).2 hx
    simpa [bell] using this
  · simp only [indicator_of_notMem hc]
    simp

/-- What all layers give together, for the values without the sign. -/
noncomputable def zigS (T : ZigTable) (N : ℕ) (C : Set ℝ) : ENNReal :=
  (∑ i ∈ Finset.range (N - 1), (unif01.prod unif01) (layerSet (T.w (i + 1)) (T.k (i + 1)) (T.f i) (T.f (i + 1)) C)) + ((unif01.prod unif01).prod pairsLaw) (baseSet T C C)

theorem pass_eq (hN : 2 ≤ N) (hw : 0 < T.w 0) (hk0 : 0 ≤ T.k 0) (B : Set ℝ) (hB : MeasurableSet B) :
    zigLaw N (passHit T N B) = (2 * N : ENNReal)⁻¹ * (zigS T N (sgnPre true B) + zigS T N (sgnPre false B)) := by
  obtain ⟨M, rfl⟩ : ∃ M, N = M + 1 := ⟨N - 1, by omega⟩
  have hs := fun s => measurableSet_sgnPre s B hB
  have hsec0 : ∀ s s2, ((unif01.prod unif01).prod pairsLaw) (Prod.mk ((0 : Fin (M + 1)), s, s2) ⁻¹' passHit T (M + 1) B) = _ := fun s s2 =>
    (congrArg _ (sec_zero T 0 rfl s s2 B)).trans (base_gen T hw hk0 _ _ (hs s) (hs s2))
  have hsec : ∀ (i : Fin M) s s2, ((unif01.prod unif01).prod pairsLaw) (Prod.mk (i.succ, s, s2) ⁻¹' passHit T (M + 1) B) =
      (unif01.prod unif01) (layerSet (T.w (i + 1)) (T.k (i + 1)) (T.f i) (T.f (i + 1)) (sgnPre s B)) := by
    intro i s s2
    rw [sec_pos T i.succ (by simp), Measure.prod_prod, measure_univ, mul_one]
    rfl
  have h4 : (4 * ((M + 1 : ℕ) : ENNReal))⁻¹ = (2 * ((M + 1 : ℕ) : ENNReal))⁻¹ * 2⁻¹ := by
    rw [← ENNReal.mul_inv (Or.inr (by simp)) (Or.inr (by simp))]
    congr 1
    ring
  rw [zigLaw_apply (by omega) (measurableSet_passHit T _ B hB), Fin.sum_univ_succ, h4, mul_assoc]
  congr 1
  simp only [hsec0, hsec, Fintype.sum_bool, Finset.sum_add_distrib, zigS, base_gen T hw hk0 _ _ (hs true) (hs true), base_gen T hw hk0 _ _ (hs false) (hs false)]
  rw [Nat.add_sub_cancel, Finset.sum_range, Finset.sum_range]
  have h2x : ∀ y : ENNReal, 2⁻¹ * (2 * y) = y := fun y => by rw [← mul_assoc, ENNReal.inv_mul_cancel two_ne_zero ENNReal.ofNat_ne_top, one_mul]
  refine Eq.trans ?_ (h2x _)
  congr 1
  ring

theorem ZigNear.lower (h : ZigNear T N v ε) (C : Set ℝ) (hC : MeasurableSet C) :
    ∫⁻ x in Ici 0, C.indicator (fun x => ENNReal.ofReal (bell x / v)) x ≤ ENNReal.ofReal (1 + ε) * zigS T N C + ENNReal.ofReal (2 * N * ε) := by
  have h2 := h.two_le
  have hε := h.eps
  have hw0 := h.w_pos 0 (by omega)
  have hb := base_lower T (T.f (N - 1)) v ε (h.f_pos _ (by omega)) h.v_pos hε hw0 (h.k_le 0 (by omega)) h.base_w h.base_k C hC
  have ht := tail_lower T v ε h.v_pos hε h.r_pos h.invR_pos (h.k_le 0 (by omega)) h.tail_le h.shift h.shift_le C hC
  have hl : ∀ i ∈ Finset.range (N - 1), ∫⁻ x in Ici 0, C.indicator (layT (T.f i) (T.f (i + 1)) v) x ≤
      ENNReal.ofReal (1 + ε) * (unif01.prod unif01) (layerSet (T.w (i + 1)) (T.k (i + 1)) (T.f i) (T.f (i + 1)) C) + ENNReal.ofReal (2 * ε) := by
    intro i hi
    have hi' := Finset.mem_range.1 hi
    exact layer_lower _ _ _ _ v ε (h.w_pos _ (by omega)) (h.f_anti i (by omega)) h.v_pos hε (h.above _ (by omega) (by omega)) (h.area_le (i + 1) (by omega) (by omega)) C hC
  rw [← h.sum C hC, zigS, base_gen T hw0 (h.k_nonneg 0 (by omega)) C C hC hC]
  refine (add_le_add (Finset.sum_le_sum hl) (hb.trans (add_le_add_right ht _))).trans ?_
  rw [Finset.sum_add_distrib, ← Finset.mul_sum, Finset.sum_const, Finset.card_range, nsmul_eq_mul]
  have e : ENNReal.ofReal (2 * N * ε) = ((N - 1 : ℕ) : ENNReal) * ENNReal.ofReal (2 * ε) + ENNReal.ofReal ε + ENNReal.ofReal ε := by
    rw [← ENNReal.ofReal_natCast, ← ENNReal.ofReal_mul (by positivity), ← ENNReal.ofReal_add (by positivity) hε, ← ENNReal.ofReal_add (by positivity) hε]
    congr 1
    rw [Nat.cast_sub (by omega)]
    push_cast
    ring
  rw [e]
  refine le_of_eq ?_
  ring

theorem ZigNear.upper (h : ZigNear T N v ε) :
    zigS T N univ ≤ ENNReal.ofReal ((1 + ε) ^ 2) * (∫⁻ x in Ici 0, ENNReal.ofReal (bell x / v)) + ENNReal.ofReal (N * ε) := by
  have h2 := h.two_le
  have hε := h.eps
  have hb := base_upper T.r (T.f (N - 1)) v ε h.r_pos (h.f_pos _ (by omega)) h.v_pos hε h.f_last h.f_last' h.base_area
  have hl : ∀ i ∈ Finset.range (N - 1), (unif01.prod unif01) (layerSet (T.w (i + 1)) (T.k (i + 1)) (T.f i) (T.f (i + 1)) univ) ≤
      ENNReal.ofReal ((1 + ε) ^ 2) * (∫⁻ x in Ici 0, layT (T.f i) (T.f (i + 1)) v x) + ENNReal.ofReal ε := by
    intro i hi
    have hi' := Finset.mem_range.1 hi
    refine (layer_upper _ _ _ _ v ε (h.w_pos _ (by omega)) (h.f_anti i (by omega)) h.v_pos hε (h.k_nonneg _ (by omega)) (h.area_ge (i + 1) (by omega) (by omega))
      (h.k_near (i + 1) (by omega) (by omega))).trans (add_le_add_left (mul_le_mul_left (ENNReal.ofReal_le_ofReal ?_) _) _)
    nlinarith
  have hs := h.sum univ MeasurableSet.univ
  simp only [indicator_univ] at hs
  rw [← hs, zigS]
  refine (add_le_add (Finset.sum_le_sum hl) (prob_le_one.trans hb)).trans ?_
  rw [Finset.sum_add_distrib, ← Finset.mul_sum, Finset.sum_const, Finset.card_range, nsmul_eq_mul, mul_add]
  have e : ((N - 1 : ℕ) : ENNReal) * ENNReal.ofReal ε ≤ ENNReal.ofReal (N * ε) := by
    rw [← ENNReal.ofReal_natCast, ← ENNReal.ofReal_mul (by positivity)]
    refine ENNReal.ofReal_le_ofReal (mul_le_mul_of_nonneg_right ?_ hε)
    exact_mod_cast Nat.sub_le N 1
  rw [add_right_comm]
  exact add_le_add_right e _

/-- The factor between the law of a pass and the normal distribution. -/
noncomputable def zigC (N : ℕ) (v : ℝ) : ℝ := √(2 * Real.pi) / (2 * N * v)

theorem zigC_ge (h : ZigNear T N v ε) : 1 / 2 ≤ zigC N v := by
  unfold zigC
  have hN : (0 : ℝ) < N := by exact_mod_cast (by have := h.two_le; omega : 0 < N)
  have hv := h.v_pos
  rw [le_div_iff₀ (by positivity)]
  have h1 : 2 ≤ √(2 * Real.pi) := by
    refine Real.le_sqrt_of_sq_le ?_
    linarith [Real.two_le_pi]
  linarith [h.total]

theorem ZigNear.pass_lower (h : ZigNear T N v ε) (B : Set ℝ) (hB : MeasurableSet B) :
    zigC N v * (gaussianReal 0 1 B).toReal ≤ (1 + ε) * (zigLaw N (passHit T N B)).toReal + 2 * ε := by
  have h2 := h.two_le
  have hε := h.eps
  have hv := h.v_pos
  have hN : (0 : ℝ) < N := by exact_mod_cast (by omega : 0 < N)
  have hp := isProbabilityMeasure_zigLaw (N := N) (by omega)
  have hs := fun s => measurableSet_sgnPre s B hB
  have hsum := lintegral_sgnPre B hB _ (measurable_bell.div_const v).ennreal_ofReal (fun x => by rw [bell_neg])
  rw [lintegral_bell_gaussian v hv] at hsum
  have h3 := add_le_add (h.lower _ (hs true)) (h.lower _ (hs false))
  rw [hsum] at h3
  have h4 : ENNReal.ofReal (zigC N v) * gaussianReal 0 1 B ≤ ENNReal.ofReal (1 + ε) * zigLaw N (passHit T N B) + ENNReal.ofReal (2 * ε) := by
    rw [pass_eq h2 (h.w_pos 0 (by omega)) (h.k_nonneg 0 (by omega)) B hB]
    have h5 := mul_le_mul_right h3 (ENNReal.ofReal (1 / (2 * N)))
    have e1 : ENNReal.ofReal (1 / (2 * N)) = (2 * (N : ENNReal))⁻¹ := by
      rw [one_div, ENNReal.ofReal_inv_of_pos (by positivity), ENNReal.ofReal_mul (by norm_num), ENNReal.ofReal_natCast, ENNReal.ofReal_ofNat]
    have e2 : ENNReal.ofReal (1 / (2 * N)) * (ENNReal.ofReal (√(2 * Real.pi) / v) * gaussianReal 0 1 B) = ENNReal.ofReal (zigC N v) * gaussianReal 0 1 B := by
      rw [← mul_assoc, ← ENNReal.ofReal_mul (by positivity)]
      congr 2
      unfold zigC
      field_simp
    have e3 : ENNReal.ofReal (1 / (2 * N)) * (ENNReal.ofReal (2 * N * ε) + ENNReal.ofReal (2 * N * ε)) = ENNReal.ofReal (2 * ε) := by
      rw [← ENNReal.ofReal_add (by positivity) (by positivity), ← ENNReal.ofReal_mul (by positivity)]
      congr 1
      field_simp
      ring
    rw [e2] at h5
    refine h5.trans (le_of_eq ?_)
    rw [← e3, ← e1]
    ring
  have h6 := ENNReal.toReal_mono (ENNReal.add_ne_top.2 ⟨ENNReal.mul_ne_top ENNReal.ofReal_ne_top (measure_ne_top _ _), ENNReal.ofReal_ne_top⟩) h4
  rwa [ENNReal.toReal_mul, ENNReal.toReal_add (ENNReal.mul_ne_top ENNReal.ofReal_ne_top (measure_ne_top _ _)) ENNReal.ofReal_ne_top, ENNReal.toReal_mul,
    ENNReal.toReal_ofReal (by linarith [zigC_ge h]), ENNReal.toReal_ofReal (by linarith), ENNReal.toReal_ofReal (by linarith)] at h6

theorem ZigNear.pass_upper (h : ZigNear T N v ε) : (zigLaw N (passHit T N univ)).toReal ≤ (1 + ε) ^ 2 * zigC N v + ε := by
  have h2 := h.two_le
  have hε := h.eps
  have hv := h.v_pos
  have hN : (0 : ℝ) < N := by exact_mod_cast (by omega : 0 < N)
  have hsum := lintegral_sgnPre univ MeasurableSet.univ _ (measurable_bell.div_const v).ennreal_ofReal (fun x => by rw [bell_neg])
  have hu : ∀ s, sgnPre s univ = univ := fun s => by ext; simp [sgnPre]
  rw [lintegral_bell_gaussian v hv, hu, hu, measure_univ, mul_one] at hsum
  simp only [indicator_univ] at hsum
  have h3 := add_le_add h.upper h.upper
  rw [add_add_add_comm, ← mul_add, hsum] at h3
  have h4 : zigLaw N (passHit T N univ) ≤ ENNReal.ofReal ((1 + ε) ^ 2 * zigC N v + ε) := by
    rw [pass_eq h2 (h.w_pos 0 (by omega)) (h.k_nonneg 0 (by omega)) univ MeasurableSet.univ, hu, hu]
    have e1 : (2 * (N : ENNReal))⁻¹ = ENNReal.ofReal (1 / (2 * N)) := by
      rw [one_div, ENNReal.ofReal_inv_of_pos (by positivity), ENNReal.ofReal_mul (by norm_num), ENNReal.ofReal_natCast, ENNReal.ofReal_ofNat]
    rw [e1]
    refine (mul_le_mul_right h3 _).trans (le_of_eq ?_)
    rw [← ENNReal.ofReal_mul (by positivity), ← ENNReal.ofReal_add (by positivity) (by positivity), ← ENNReal.ofReal_add (by positivity) (by positivity),
      ← ENNReal.ofReal_mul (by positivity)]
    congr 1
    unfold zigC
    field_simp
    ring
  have := ENNReal.toReal_mono ENNReal.ofReal_ne_top h4
  rwa [ENNReal.toReal_ofReal (by have := zigC_ge h; positivity)] at this

theorem passHit_disjoint (T : ZigTable) (N : ℕ) (B : Set ℝ) : Disjoint (passHit T N B) (passHit T N Bᶜ) := by
  rw [Set.disjoint_left]
  rintro D ⟨f1, x, h1, hx⟩ ⟨f2, y, h2, hy⟩
  exact hy (zigIter_fuel T D f1 f2 x y h1 h2 ▸ hx)

theorem pass_add_le (hN : 0 < N) (B : Set ℝ) (hB : MeasurableSet B) :
    (zigLaw N (passHit T N B)).toReal + (zigLaw N (passHit T N Bᶜ)).toReal ≤ (zigLaw N (passHit T N univ)).toReal := by
  have hp := isProbabilityMeasure_zigLaw (N := N) hN
  rw [← ENNReal.toReal_add (measure_ne_top _ _) (measure_ne_top _ _), ← measure_union (passHit_disjoint T N B) (measurableSet_passHit T N _ hB.compl)]
  refine ENNReal.toReal_mono (measure_ne_top _ _) (measure_mono ?_)
  rintro D (⟨f, x, h, _⟩ | ⟨f, x, h, _⟩) <;> exact ⟨f, x, h, trivial⟩

theorem again_prob_gen (hN : 0 < N) (hi : 0 < T.invR) : 1 - zigLaw N (passAgain T N) = zigLaw N (passHit T N univ) := by
  have hp := isProbabilityMeasure_zigLaw (N := N) hN
  rw [← prob_compl_eq_one_sub (measurableSet_passAgain T N), zigLaw_apply hN (measurableSet_passAgain T N).compl,
    zigLaw_apply hN (measurableSet_passHit T N univ MeasurableSet.univ)]
  congr 1
  refine Finset.sum_congr rfl fun i _ => Finset.sum_congr rfl fun s _ => Finset.sum_congr rfl fun s2 _ => ?_
  by_cases hi0 : (i : ℕ) = 0
  · rw [again_zero T i hi0, measure_univ, sec_zero T i hi0]
    have hu : sgnPre s univ = univ := by ext; simp [sgnPre]
    have hu2 : sgnPre s2 univ = univ := by ext; simp [sgnPre]
    have hall : ∀ t : (ℝ × ℝ) × (ℕ → ℝ × ℝ), t.2 ∈ tailHit T univ → t ∈ baseSet T univ univ := by
      intro t ht
      by_cases hk : t.1.1 < T.k 0
      · exact Or.inl ⟨hk, trivial⟩
      · exact Or.inr ⟨hk, ht⟩
    rw [hu, hu2]
    refine le_antisymm ?_ prob_le_one
    calc (1 : ENNReal) = ((unif01.prod unif01).prod pairsLaw) (univ ×ˢ tailHit T univ) := by rw [Measure.prod_prod, tail_univ T hi, measure_univ, one_mul]
      _ ≤ _ := measure_mono fun t ht => hall t ht.2
  · rw [again_pos T i hi0]

/-- The probability with which a call returns a value in a set. -/
theorem zigReturns_prob {Ω : Type*} [MeasurableSpace Ω] (P : Measure Ω) [IsProbabilityMeasure P] (hN : 0 < N) (hi : 0 < T.invR)
    (D : ℕ → Ω → ZigDraw N) (hm : ∀ n, Measurable (D n)) (hind : iIndepFun D P) (hlaw : ∀ n, P.map (D n) = zigLaw N) (B : Set ℝ) (hB : MeasurableSet B) :
    P {ω | zigReturns T (fun n => D n ω) B} = (zigLaw N (passHit T N univ))⁻¹ * zigLaw N (passHit T N B) := by
  have hdis : Disjoint (passAgain T N) (passHit T N B) := by
    rw [Set.disjoint_left]
    rintro d h1 ⟨fuel, x, h3, _⟩
    have := (passAgain_iff T d fuel).2 h1
    rw [h3] at this
    simp at this
  have hr := reject_prob hm hind hlaw (measurableSet_passAgain T N) (measurableSet_passHit T N B hB) hdis
  simp only [zigReturns_iff]
  rw [hr, again_prob_gen hN hi]

theorem ZigNear.pass_pos (h : ZigNear T N v ε) : 1 / 3 < (zigLaw N (passHit T N univ)).toReal := by
  have h1 := h.pass_lower univ MeasurableSet.univ
  have h2 := zigC_ge h
  have h3 := h.eps
  have h4 := h.eps_le
  have hp := isProbabilityMeasure_zigLaw (N := N) (by have := h.two_le; omega)
  rw [measure_univ, ENNReal.toReal_one, mul_one] at h1
  have h5 : (zigLaw N (passHit T N univ)).toReal ≤ 1 := ENNReal.toReal_le_of_le_ofReal zero_le_one (by simpa using prob_le_one)
  nlinarith

theorem ZigNear.law_le (h : ZigNear T N v ε) (B : Set ℝ) (hB : MeasurableSet B) :
    (gaussianReal 0 1 B).toReal ≤ (zigLaw N (passHit T N B)).toReal / (zigLaw N (passHit T N univ)).toReal + 10 * ε := by
  have h1 := h.pass_lower B hB
  have h2 := zigC_ge h
  have h3 := h.eps
  have h4 := h.eps_le
  have h5 := h.pass_upper
  have h6 := h.pass_pos
  have h7 := pass_add_le (T := T) (N := N) (by have := h.two_le; omega) B hB
  set c := zigC N v
  set m := (zigLaw N (passHit T N univ)).toReal
  set p := (zigLaw N (passHit T N B)).toReal with hp
  set n := (gaussianReal 0 1 B).toReal
  have hp0 : 0 ≤ p := ENNReal.toReal_nonneg
  have hpm : p ≤ m := by
    have : 0 ≤ (zigLaw N (passHit T N Bᶜ)).toReal := ENNReal.toReal_nonneg
    linarith
  set q := p / m with hq
  have hm : 0 < m := by linarith
  have hq0 : 0 ≤ q := div_nonneg hp0 hm.le
  have hq1 : q ≤ 1 := (div_le_one hm).2 hpm
  have hpq : p = q * m := by rw [hq]; field_simp
  have h8 : c * n ≤ (1 + ε) * (q * ((1 + ε) ^ 2 * c + 2 * ε * c)) + 4 * ε * c := by
    have a : m ≤ (1 + ε) ^ 2 * c + 2 * ε * c := by nlinarith
    have b : q * m ≤ q * ((1 + ε) ^ 2 * c + 2 * ε * c) := mul_le_mul_of_nonneg_left a hq0
    rw [hpq] at h1
    have d : (1 + ε) * (q * m) ≤ (1 + ε) * (q * ((1 + ε) ^ 2 * c + 2 * ε * c)) := mul_le_mul_of_nonneg_left b (by linarith)
    nlinarith
  have h9 : n ≤ (1 + ε) * (q * ((1 + ε) ^ 2 + 2 * ε)) + 4 * ε := by
    have : c * n ≤ c * ((1 + ε) * (q * ((1 + ε) ^ 2 + 2 * ε)) + 4 * ε) := by linarith
    exact le_of_mul_le_mul_left this (by linarith)
  have h10 : (1 + ε) * ((1 + ε) ^ 2 + 2 * ε) ≤ 1 + 6 * ε := by nlinarith [mul_nonneg h3 h3, mul_nonneg (mul_nonneg h3 h3) h3]
  have h11 := mul_le_mul_of_nonneg_left h10 hq0
  nlinarith

/-- The law of the value of a call. -/
theorem ZigNear.law {Ω : Type*} [MeasurableSpace Ω] (P : Measure Ω) [IsProbabilityMeasure P] (h : ZigNear T N v ε)
    (D : ℕ → Ω → ZigDraw N) (hm : ∀ n, Measurable (D n)) (hind : iIndepFun D P) (hlaw : ∀ n, P.map (D n) = zigLaw N) (B : Set ℝ) (hB : MeasurableSet B) :
    |(P {ω | zigReturns T (fun n => D n ω) B}).toReal - (gaussianReal 0 1 B).toReal| ≤ 10 * ε := by
  have hN : 0 < N := by have := h.two_le; omega
  have hp := h.pass_pos
  rw [zigReturns_prob P hN h.invR_pos D hm hind hlaw B hB, ENNReal.toReal_mul, ENNReal.toReal_inv, mul_comm, ← div_eq_mul_inv, abs_le]
  have h1 := h.law_le B hB
  have h2 := h.law_le Bᶜ hB.compl
  have h3 := pass_add_le (T := T) hN B hB
  have h4 : (gaussianReal 0 1 Bᶜ).toReal = 1 - (gaussianReal 0 1 B).toReal := by
    rw [prob_compl_eq_one_sub hB, ENNReal.toReal_sub_of_le prob_le_one ENNReal.one_ne_top, ENNReal.toReal_one]
  rw [h4] at h2
  have h5 := div_le_div_of_nonneg_right h3 (show 0 ≤ (zigLaw N (passHit T N univ)).toReal from ENNReal.toReal_nonneg)
  rw [add_div, div_self (by linarith)] at h5
  constructor <;> linarith

theorem ZigNear.terminates {Ω : Type*} [MeasurableSpace Ω] (P : Measure Ω) [IsProbabilityMeasure P] (h : ZigNear T N v ε)
    (D : ℕ → Ω → ZigDraw N) (hm : ∀ n, Measurable (D n)) (hind : iIndepFun D P) (hlaw : ∀ n, P.map (D n) = zigLaw N) :
    P {ω | zigReturns T (fun n => D n ω) univ} = 1 := by
  have hN : 0 < N := by have := h.two_le; omega
  have hp := h.pass_pos
  have := isProbabilityMeasure_zigLaw (N := N) hN
  rw [zigReturns_prob P hN h.invR_pos D hm hind hlaw univ MeasurableSet.univ]
  refine ENNReal.inv_mul_cancel (fun h0 => ?_) (measure_ne_top _ _)
  rw [h0] at hp
  norm_num at hp

/-- Successive calls are independent, for all tables. -/
theorem zigMany_prob {Ω : Type*} [MeasurableSpace Ω] (P : Measure Ω) [IsProbabilityMeasure P] (hN : 0 < N)
    (D : ℕ → Ω → ZigDraw N) (hm : ∀ n, Measurable (D n)) (hind : iIndepFun D P) (hlaw : ∀ n, P.map (D n) = zigLaw N)
    (Bs : List (Set ℝ)) (hBs : ∀ B ∈ Bs, MeasurableSet B) :
    P {ω | zigManyReturns T (fun n => D n ω) Bs} = (Bs.map fun B => P {ω | zigReturns T (fun n => D n ω) B}).prod := by
  have hp : IsProbabilityMeasure (zigLaw N) := isProbabilityMeasure_zigLaw hN
  have hjoint : P.map (fun ω n => D n ω) = Measure.infinitePi fun _ => zigLaw N := by
    rw [iIndepFun.map_fun_eq_infinitePi_map hm hind]
    simp only [hlaw]
  have hgen : ∀ Bs : List (Set ℝ), (∀ B ∈ Bs, MeasurableSet B) →
      P {ω | zigManyReturns T (fun n => D n ω) Bs} = Measure.infinitePi (fun _ => zigLaw N) {D | zigManyReturns T D Bs} := by
    intro Bs hBs
    rw [← hjoint, Measure.map_apply (measurable_pi_lambda _ hm) (measurableSet_zigManyReturns T Bs hBs)]
    rfl
  have hdis : ∀ B, Disjoint (passAgain T N) (passHit T N B) := by
    intro B
    rw [Set.disjoint_left]
    rintro d h1 ⟨fuel, x, h3, _⟩
    have := (passAgain_iff T d fuel).2 h1
    rw [h3] at this
    simp at this
  induction Bs with
  | nil =>
    have : {ω | zigManyReturns T (fun n => D n ω) []} = univ := by
      ext ω
      exact ⟨fun _ => trivial, fun _ => ⟨0, 0, [], rfl, List.Forall₂.nil⟩⟩
    rw [this, measure_univ]
    simp
  | cons B Bs ih =>
    have hB := hBs B (by simp)
    have hBs' : ∀ C ∈ Bs, MeasurableSet C := fun C hC => hBs C (by simp [hC])
    have hI := iIndepFun_infinitePi (P := fun _ : ℕ => zigLaw N) (X := fun _ x => x) (fun _ => measurable_id)
    have hM : ∀ n, Measurable fun D : ℕ → ZigDraw N => D n := fun n => measurable_pi_apply n
    have hL : ∀ n : ℕ, (Measure.infinitePi fun _ : ℕ => zigLaw N).map (fun D => D n) = zigLaw N := fun n => Measure.infinitePi_map_eval _ n
    have hr := reject_prob_next hM hI hL (measurableSet_passAgain T N) (measurableSet_passHit T N B hB) (hdis B) (measurableSet_zigManyReturns T Bs hBs')
    have hr0 := reject_prob hM hI hL (measurableSet_passAgain T N) (measurableSet_passHit T N B hB) (hdis B)
    have hr1 := reject_prob hm hind hlaw (measurableSet_passAgain T N) (measurableSet_passHit T N B hB) (hdis B)
    rw [← hr0, ← hgen Bs hBs', ih hBs', hr0, ← hr1] at hr
    rw [hgen _ hBs, List.map_cons, List.prod_cons]
    simp only [zigReturns_iff]
    simp only [zigReturns_iff] at hr
    rw [← hr]
    simp only [zigManyReturns_cons]
    rfl

end

end Moo
