import Verif.Lemmas.ZigTable

set_option autoImplicit false
set_option linter.unusedSectionVars false

/-!
# C106: the normal random numbers of `rng_standard_normal` have the standard normal distribution
-/

namespace Moo

open MeasureTheory ProbabilityTheory Set

/-- The equations that the tables of c/ziggurat_constants.h (with `N = 256`) satisfy up to rounding: `w 1 < ... < w (N-1) = r` are the right ends of the layers,
`f i` is the height of the curve `exp (-x^2/2)` there, every layer has the area `v`, also the base together with the tail, and `k i` is the part of the layer `i` that is
below the curve. -/
structure ZigOk (T : ZigTable) (N : ℕ) (v : ℝ) : Prop where
  two_le : 2 ≤ N
  f_zero : T.f 0 = 1
  f_eq : ∀ i, 1 ≤ i → i < N → T.f i = Real.exp (-T.w i ^ 2 / 2)
  w_pos : 0 < T.w 1
  w_lt : ∀ i, 1 ≤ i → i + 1 < N → T.w i < T.w (i + 1)
  w_last : T.w (N - 1) = T.r
  area : ∀ i, 1 ≤ i → i < N → T.w i * (T.f (i - 1) - T.f i) = v
  k_one : T.k 1 = 0
  k_eq : ∀ i, 2 ≤ i → i < N → T.k i = T.w (i - 1) / T.w i
  base : T.r * T.f (N - 1) + ∫ x in Ioi T.r, Real.exp (-x ^ 2 / 2) = v
  w_zero : T.w 0 = v / T.f (N - 1)
  k_zero : T.k 0 = T.r / T.w 0
  inv_r : T.invR = 1 / T.r

/-- The law of the random numbers of one pass: the index and the two signs are uniform, the other numbers are uniform on the unit interval, and all are independent. -/
noncomputable def zigLaw (N : ℕ) : Measure (ZigDraw N) :=
  (uniformOn (univ : Set (Fin N × Bool × Bool))).prod ((unif01.prod unif01).prod (Measure.infinitePi fun _ => unif01.prod unif01))

/-- The event that `rng_standard_normal` returns and that the value is in `B`. -/
def zigReturns (T : ZigTable) {N : ℕ} (D : ℕ → ZigDraw N) (B : Set ℝ) : Prop := ∃ tailFuel fuel x D', zigNormal T tailFuel fuel D = some (x, D') ∧ x ∈ B

/-! ## The table -/

section
variable {T : ZigTable} {N : ℕ} {v : ℝ}

theorem ZigOk.w_pos' (h : ZigOk T N v) (i : ℕ) (h1 : 1 ≤ i) (hi : i < N) : 0 < T.w i := by
  induction i with
  | zero => omega
  | succ i ih =>
    rcases Nat.eq_zero_or_pos i with rfl | hp
    · exact h.w_pos
    · exact (ih hp (by omega)).trans (h.w_lt i hp hi)

theorem ZigOk.r_pos (h : ZigOk T N v) : 0 < T.r := by
  rw [← h.w_last]
  have := h.two_le
  exact h.w_pos' _ (by omega) (by omega)

theorem ZigOk.v_pos (h : ZigOk T N v) : 0 < v := by
  have h2 := h.two_le
  have h1 := bellTail_pos T.r
  have hf : 0 < T.f (N - 1) := by rw [h.f_eq _ (by omega) (by omega)]; exact Real.exp_pos _
  have h3 : T.r * T.f (N - 1) + bellTail T.r = v := h.base
  have := mul_pos h.r_pos hf
  linarith

/-- A layer. -/
noncomputable def layI (T : ZigTable) (v : ℝ) (i : ℕ) (C : Set ℝ) : ENNReal :=
  ∫⁻ x in Ici 0, C.indicator (fun x => ENNReal.ofReal ((min (bell x) (T.f (i - 1)) - min (bell x) (T.f i)) / v)) x

theorem ZigOk.layer (h : ZigOk T N v) (i : ℕ) (h1 : 1 ≤ i) (hi : i < N) (C : Set ℝ) (hC : MeasurableSet C) :
    (unif01.prod unif01) (layerSet (T.w i) (T.k i) (T.f (i - 1)) (T.f i) C) = layI T v i C := by
  have hf : T.f i = bell (T.w i) := by rw [h.f_eq i h1 hi, bell_eq]
  have hw := h.w_pos' i h1 hi
  rcases Nat.lt_or_ge 1 i with h2 | h2
  · rw [h.k_eq i h2 hi]
    refine layer_prob _ _ _ _ _ hw (h.w_pos' (i - 1) (by omega) (by omega)).le ?_ hf ?_ (h.area i h1 hi) C hC
    · have := h.w_lt (i - 1) (by omega) (by omega)
      rwa [Nat.sub_add_cancel h1] at this
    · rw [h.f_eq (i - 1) (by omega) (by omega), bell_eq]
  · have e : i = 1 := by omega
    subst e
    rw [h.k_one, ← zero_div (T.w 1)]
    refine layer_prob _ _ _ _ _ hw le_rfl hw hf ?_ (h.area 1 h1 hi) C hC
    rw [Nat.sub_self, h.f_zero, bell]
    simp

theorem ZigOk.f_pos (h : ZigOk T N v) (i : ℕ) (hi : i < N) : 0 < T.f i := by
  rcases Nat.eq_zero_or_pos i with rfl | hp
  · rw [h.f_zero]; exact one_pos
  · rw [h.f_eq i hp hi]; exact Real.exp_pos _

theorem ZigOk.f_anti (h : ZigOk T N v) (i : ℕ) (hi : i + 1 < N) : T.f (i + 1) < T.f i := by
  have h1 := h.area (i + 1) (by omega) hi
  rw [Nat.add_sub_cancel] at h1
  have h2 := h.w_pos' (i + 1) (by omega) hi
  have h3 := h.v_pos
  rw [← h1] at h3
  have := pos_of_mul_pos_right h3 h2.le
  linarith

theorem ZigOk.telescope (h : ZigOk T N v) (x : ℝ) (M : ℕ) (hM : M < N) :
    (∑ i ∈ Finset.range M, ENNReal.ofReal ((min (bell x) (T.f (i + 1 - 1)) - min (bell x) (T.f (i + 1))) / v)) + ENNReal.ofReal (min (bell x) (T.f M) / v)
      = ENNReal.ofReal (min (bell x) (T.f 0) / v) := by
  have hv := h.v_pos
  induction M with
  | zero => simp
  | succ M ih =>
    rw [Finset.sum_range_succ, ← ih (by omega), add_assoc]
    congr 1
    have h1 := (h.f_anti M hM).le
    have h2 : min (bell x) (T.f (M + 1)) ≤ min (bell x) (T.f M) := min_le_min_left _ h1
    have h3 : 0 ≤ min (bell x) (T.f (M + 1)) := le_min (bell_pos x).le (h.f_pos _ hM).le
    rw [Nat.add_sub_cancel, ← ENNReal.ofReal_add (div_nonneg (by linarith) hv.le) (div_nonneg h3 hv.le)]
    congr 1
    ring

theorem ZigOk.sum (h : ZigOk T N v) (C : Set ℝ) (hC : MeasurableSet C) :
    (∑ i ∈ Finset.range (N - 1), layI T v (i + 1) C) + (basePart T.r (T.f (N - 1)) v C + tailPart T.r v C) =
      ∫⁻ x in Ici 0, C.indicator (fun x => ENNReal.ofReal (bell x / v)) x := by
  have h2 := h.two_le
  have hlt : Measurable fun x : ℝ => bell x := measurable_bell
  have hm1 : ∀ i, Measurable (C.indicator (fun x => ENNReal.ofReal ((min (bell x) (T.f (i + 1 - 1)) - min (bell x) (T.f (i + 1))) / v))) := by
    intro i
    exact (ENNReal.measurable_ofReal.comp (((hlt.min measurable_const).sub (hlt.min measurable_const)).div_const _)).indicator hC
  have hm2 : Measurable (C.indicator (fun x => if x < T.r then ENNReal.ofReal (T.f (N - 1) / v) else 0)) :=
    (Measurable.ite (measurableSet_lt measurable_id measurable_const) measurable_const measurable_const).indicator hC
  unfold layI basePart tailPart
  rw [← lintegral_add_left hm2, ← lintegral_finsetSum _ (fun i _ => hm1 i), ← lintegral_add_left (Finset.measurable_sum _ fun i _ => hm1 i)]
  refine setLIntegral_congr_fun measurableSet_Ici (fun x hx => ?_)
  by_cases hc : x ∈ C
  · simp only [indicator_of_mem hc]
    have hlast : T.f (N - 1) = bell T.r := by rw [h.f_eq _ (by omega) (by omega), h.w_last, bell_eq]
    have e : ((if x < T.r then ENNReal.ofReal (T.f (N - 1) / v) else 0) + if x < T.r then 0 else ENNReal.ofReal (bell x / v)) =
        ENNReal.ofReal (min (bell x) (T.f (N - 1)) / v) := by
      by_cases hr : x < T.r
      · rw [if_pos hr, if_pos hr, add_zero, min_eq_right (by rw [hlast, bell_le_iff h.r_pos.le hx]; exact hr.le)]
      · rw [if_neg hr, if_neg hr, zero_add, min_eq_left (by rw [hlast, bell_le_iff hx h.r_pos.le]; exact not_lt.1 hr)]
    rw [e, h.telescope x (N - 1) (by omega), h.f_zero, min_eq_left]
    have : bell x ≤ bell 0 := (bell_le_iff hx le_rfl).2 hx
    simpa [bell] using this
  · simp only [indicator_of_notMem hc]
    simp

end

/-! ## The signs -/

/-- The values without the sign. -/
def sgnPre (s : Bool) (B : Set ℝ) : Set ℝ := {x | (if s then -x else x) ∈ B}

theorem measurableSet_sgnPre (s : Bool) (B : Set ℝ) (hB : MeasurableSet B) : MeasurableSet (sgnPre s B) := by
  cases s
  · exact hB
  · exact measurable_neg hB

theorem lintegral_sgnPre (B : Set ℝ) (hB : MeasurableSet B) (φ : ℝ → ENNReal) (hφ : Measurable φ) (hev : ∀ x, φ (-x) = φ x) :
    (∫⁻ x in Ici 0, (sgnPre true B).indicator φ x) + (∫⁻ x in Ici 0, (sgnPre false B).indicator φ x) = ∫⁻ x in B, φ x := by
  have hm := hφ.indicator hB
  have h1 : ∫⁻ x in Ici 0, (sgnPre true B).indicator φ x = ∫⁻ x in (Ici 0)ᶜ, B.indicator φ x := by
    rw [compl_Ici, ← lintegral_indicator measurableSet_Iio, ← lintegral_indicator measurableSet_Ici,
      ← lintegral_neg_eq_self ((Iio (0 : ℝ)).indicator _)]
    refine lintegral_congr_ae ?_
    have h0 : ∀ᵐ t : ℝ, t ≠ 0 := by simp [ae_iff, measure_singleton]
    filter_upwards [h0] with x hx
    have hiff : x ∈ sgnPre true B ↔ -x ∈ B := by simp [sgnPre]
    by_cases hp : 0 ≤ x
    · have hn : -x ∈ Iio (0 : ℝ) := by
        rw [mem_Iio, neg_lt_zero]
        exact lt_of_le_of_ne hp (Ne.symm hx)
      rw [indicator_of_mem (show x ∈ Ici (0 : ℝ) from hp), indicator_of_mem hn]
      by_cases hb : -x ∈ B
      · rw [indicator_of_mem hb, indicator_of_mem (hiff.2 hb), hev]
      · rw [indicator_of_notMem hb, indicator_of_notMem (fun h => hb (hiff.1 h))]
    · have hn : -x ∉ Iio (0 : ℝ) := by
        rw [mem_Iio, neg_lt_zero]
        intro h
        exact hp h.le
      rw [indicator_of_notMem (show x ∉ Ici (0 : ℝ) from hp), indicator_of_notMem hn]
  have h2 : sgnPre false B = B := rfl
  rw [h1, h2, add_comm, lintegral_add_compl _ measurableSet_Ici, lintegral_indicator hB]

/-- The integral as a normal probability. -/
theorem lintegral_bell_gaussian (v : ℝ) (hv : 0 < v) (B : Set ℝ) :
    ∫⁻ x in B, ENNReal.ofReal (bell x / v) = ENNReal.ofReal (√(2 * Real.pi) / v) * gaussianReal 0 1 B := by
  rw [gaussianReal_apply 0 one_ne_zero, ← lintegral_const_mul _ (measurable_gaussianPDF 0 1)]
  congr 1
  funext x
  have hs : 0 < √(2 * Real.pi) := Real.sqrt_pos.2 (by positivity)
  rw [gaussianPDF, ← ENNReal.ofReal_mul (by positivity), gaussianPDFReal, bell_eq]
  congr 1
  simp only [NNReal.coe_one, mul_one, sub_zero]
  field_simp

/-! ## One pass -/

/-- The numbers for which a pass returns a value in `B`. -/
def passHit (T : ZigTable) (N : ℕ) (B : Set ℝ) : Set (ZigDraw N) := {D | ∃ fuel x, zigIter T fuel D = some (some x) ∧ x ∈ B}

/-- The numbers for which the loop goes on with the next pass. -/
def passAgain (T : ZigTable) (N : ℕ) : Set (ZigDraw N) := {D | zigIter T 0 D = some none}

theorem passAgain_iff (T : ZigTable) {N : ℕ} (D : ZigDraw N) (fuel : ℕ) : zigIter T fuel D = some none ↔ D ∈ passAgain T N := by
  show _ ↔ zigIter T 0 D = some none
  unfold zigIter
  dsimp only
  split_ifs <;> rcases zigTail T fuel D.2.2 <;> simp [zigTail]

theorem sec_zero (T : ZigTable) {N : ℕ} (i : Fin N) (hi : (i : ℕ) = 0) (s s2 : Bool) (B : Set ℝ) :
    Prod.mk (i, s, s2) ⁻¹' passHit T N B = baseSet T (sgnPre s B) (sgnPre s2 B) := by
  ext ⟨p, t⟩
  show (∃ fuel x, zigIter T fuel ((i, s, s2), p, t) = some (some x) ∧ x ∈ B) ↔ _
  unfold zigIter
  dsimp only
  rw [hi]
  by_cases hk : p.1 < T.k 0
  · simp only [if_pos hk]
    constructor
    · rintro ⟨_, x, h, hx⟩
      have := Option.some.inj (Option.some.inj h)
      exact Or.inl ⟨hk, by show (if s then _ else _) ∈ B; rw [this]; exact hx⟩
    · rintro (h | h)
      · exact ⟨0, _, rfl, h.2⟩
      · exact absurd hk h.1
  · simp only [if_neg hk, if_true]
    constructor
    · rintro ⟨fuel, x, h, hx⟩
      refine Or.inr ⟨hk, ?_⟩
      rcases hz : zigTail T fuel t with _ | y
      · rw [hz] at h; simp at h
      · rw [hz] at h
        have := Option.some.inj (Option.some.inj h)
        exact ⟨fuel, y, hz, by show (if s2 then _ else _) ∈ B; rw [this]; exact hx⟩
    · rintro (h | ⟨_, fuel, y, hz, hy⟩)
      · exact absurd h.1 hk
      · exact ⟨fuel, _, by rw [hz], hy⟩

theorem sec_pos (T : ZigTable) {N : ℕ} (i : Fin N) (hi : (i : ℕ) ≠ 0) (s s2 : Bool) (B : Set ℝ) :
    Prod.mk (i, s, s2) ⁻¹' passHit T N B = layerSet (T.w i) (T.k i) (T.f (i - 1)) (T.f i) (sgnPre s B) ×ˢ univ := by
  ext ⟨p, t⟩
  have hb : Real.exp (-0.5 * (if s then -(p.1 * T.w i) else p.1 * T.w i) * (if s then -(p.1 * T.w i) else p.1 * T.w i)) = bell (p.1 * T.w i) := by
    cases s
    · rfl
    · exact bell_neg _
  show (∃ fuel x, zigIter T fuel ((i, s, s2), p, t) = some (some x) ∧ x ∈ B) ↔ _
  unfold zigIter
  dsimp only
  rw [hb]
  simp only [mem_prod, mem_univ, and_true]
  by_cases hk : p.1 < T.k i
  · simp only [if_pos hk]
    constructor
    · rintro ⟨_, x, h, hx⟩
      have := Option.some.inj (Option.some.inj h)
      exact Or.inl ⟨hk, by show (if s then _ else _) ∈ B; rw [this]; exact hx⟩
    · rintro (h | h)
      · exact ⟨0, _, rfl, h.2⟩
      · exact absurd hk h.1
  · simp only [if_neg hk, if_neg hi]
    by_cases hf : (T.f (i - 1) - T.f i) * p.2 + T.f i < bell (p.1 * T.w i)
    · simp only [if_pos hf]
      constructor
      · rintro ⟨_, x, h, hx⟩
        have := Option.some.inj (Option.some.inj h)
        exact Or.inr ⟨hk, hf, by show (if s then _ else _) ∈ B; rw [this]; exact hx⟩
      · rintro (h | h)
        · exact absurd h.1 hk
        · exact ⟨0, _, rfl, h.2.2⟩
    · simp only [if_neg hf]
      constructor
      · rintro ⟨_, x, h, _⟩
        simp at h
      · rintro (h | h)
        · exact absurd h.1 hk
        · exact absurd h.2.1 hf

theorem again_zero (T : ZigTable) {N : ℕ} (i : Fin N) (hi : (i : ℕ) = 0) (s s2 : Bool) :
    Prod.mk (i, s, s2) ⁻¹' (passAgain T N)ᶜ = univ := by
  ext ⟨p, t⟩
  refine ⟨fun _ => trivial, fun _ h => ?_⟩
  have h' : zigIter T 0 ((i, s, s2), p, t) = some none := h
  unfold zigIter at h'
  dsimp only at h'
  rw [hi] at h'
  split_ifs at h' <;> simp_all [zigTail]

theorem again_pos (T : ZigTable) {N : ℕ} (i : Fin N) (hi : (i : ℕ) ≠ 0) (s s2 : Bool) :
    Prod.mk (i, s, s2) ⁻¹' (passAgain T N)ᶜ = Prod.mk (i, s, s2) ⁻¹' passHit T N univ := by
  ext ⟨p, t⟩
  show ¬ zigIter T 0 ((i, s, s2), p, t) = some none ↔ ∃ fuel x, zigIter T fuel ((i, s, s2), p, t) = some (some x) ∧ x ∈ univ
  unfold zigIter
  dsimp only
  split_ifs <;> simp

theorem measurableSet_of_sections {ι E : Type*} [Countable ι] [MeasurableSpace ι] [MeasurableSingletonClass ι] [MeasurableSpace E] {S : Set (ι × E)}
    (h : ∀ i, MeasurableSet (Prod.mk i ⁻¹' S)) : MeasurableSet S := by
  have : S = ⋃ i, ({i} : Set ι) ×ˢ (Prod.mk i ⁻¹' S) := by
    ext ⟨i, e⟩
    simp
  rw [this]
  exact MeasurableSet.iUnion fun i => (measurableSet_singleton i).prod (h i)

theorem measurableSet_passHit (T : ZigTable) (N : ℕ) (B : Set ℝ) (hB : MeasurableSet B) : MeasurableSet (passHit T N B) := by
  refine measurableSet_of_sections fun ⟨i, s, s2⟩ => ?_
  by_cases hi : (i : ℕ) = 0
  · rw [sec_zero T i hi]
    exact measurableSet_baseSet _ _ _ (measurableSet_sgnPre _ _ hB) (measurableSet_sgnPre _ _ hB)
  · rw [sec_pos T i hi]
    exact (measurableSet_layerSet _ _ _ _ _ (measurableSet_sgnPre _ _ hB)).prod MeasurableSet.univ

theorem measurableSet_passAgain (T : ZigTable) (N : ℕ) : MeasurableSet (passAgain T N) := by
  rw [← MeasurableSet.compl_iff]
  refine measurableSet_of_sections fun ⟨i, s, s2⟩ => ?_
  by_cases hi : (i : ℕ) = 0
  · rw [again_zero T i hi]
    exact MeasurableSet.univ
  · rw [again_pos T i hi, sec_pos T i hi]
    exact (measurableSet_layerSet _ _ _ _ _ (measurableSet_sgnPre _ _ MeasurableSet.univ)).prod MeasurableSet.univ

theorem zigLaw_apply {N : ℕ} (hN : 0 < N) {S : Set (ZigDraw N)} (hS : MeasurableSet S) :
    zigLaw N S = (4 * N : ENNReal)⁻¹ * ∑ i : Fin N, ∑ s : Bool, ∑ s2 : Bool, ((unif01.prod unif01).prod pairsLaw) (Prod.mk (i, s, s2) ⁻¹' S) := by
  have : Nonempty (Fin N) := ⟨⟨0, hN⟩⟩
  have hu : uniformOn (univ : Set (Fin N × Bool × Bool)) = (4 * N : ENNReal)⁻¹ • Measure.count := by
    rw [uniformOn, ProbabilityTheory.cond, Measure.restrict_univ]
    congr 2
    rw [Measure.count_apply MeasurableSet.univ, encard_univ]
    simp [ENat.card_eq_coe_fintype_card]
    ring
  rw [zigLaw, Measure.prod_apply hS, hu, lintegral_smul_measure, lintegral_count, tsum_fintype, Fintype.sum_prod_type]
  simp only [Fintype.sum_prod_type]
  rfl

/-- The probability that one pass returns a value in `B`. -/
theorem pass_prob {T : ZigTable} {N : ℕ} {v : ℝ} (h : ZigOk T N v) (B : Set ℝ) (hB : MeasurableSet B) :
    zigLaw N (passHit T N B) = (4 * N : ENNReal)⁻¹ * (2 * ENNReal.ofReal (√(2 * Real.pi) / v)) * gaussianReal 0 1 B := by
  have h2 := h.two_le
  obtain ⟨M, rfl⟩ : ∃ M, N = M + 1 := ⟨N - 1, by omega⟩
  have hs := fun s => measurableSet_sgnPre s B hB
  have hsec0 : ∀ s s2, ((unif01.prod unif01).prod pairsLaw) (Prod.mk ((0 : Fin (M + 1)), s, s2) ⁻¹' passHit T (M + 1) B) =
      basePart T.r (T.f M) v (sgnPre s B) + tailPart T.r v (sgnPre s2 B) := by
    intro s s2
    rw [sec_zero T 0 rfl]
    exact base_prob T _ v h.r_pos h.inv_r (h.f_pos M (by omega)) h.w_zero h.k_zero h.base _ _ (hs s) (hs s2)
  have hsec : ∀ (i : Fin M) s s2, ((unif01.prod unif01).prod pairsLaw) (Prod.mk (i.succ, s, s2) ⁻¹' passHit T (M + 1) B) =
      layI T v (i + 1) (sgnPre s B) := by
    intro i s s2
    rw [sec_pos T i.succ (by simp), Measure.prod_prod, measure_univ, mul_one]
    exact h.layer (i + 1) (by omega) (by omega) _ (hs s)
  have hbell : Measurable fun x => ENNReal.ofReal (bell x / v) := (measurable_bell.div_const v).ennreal_ofReal
  have hsum := lintegral_sgnPre B hB _ hbell (fun x => by rw [bell_neg])
  rw [lintegral_bell_gaussian v h.v_pos, ← h.sum _ (hs true), ← h.sum _ (hs false), Nat.add_sub_cancel] at hsum
  rw [zigLaw_apply (by omega) (measurableSet_passHit T _ B hB), Fin.sum_univ_succ, mul_assoc, mul_assoc, ← hsum]
  simp only [hsec0, hsec, Fintype.sum_bool, Finset.sum_add_distrib]
  rw [Finset.sum_range, Finset.sum_range]
  congr 1
  ring

/-- The probability that one pass goes on with the next one. -/
theorem again_prob {T : ZigTable} {N : ℕ} {v : ℝ} (h : ZigOk T N v) : 1 - zigLaw N (passAgain T N) = zigLaw N (passHit T N univ) := by
  have h2 := h.two_le
  have hp : IsProbabilityMeasure (zigLaw N) := by
    have : Nonempty (Fin N) := ⟨⟨0, by omega⟩⟩
    have : IsProbabilityMeasure (uniformOn (univ : Set (Fin N × Bool × Bool))) := isProbabilityMeasure_uniformOn finite_univ univ_nonempty
    unfold zigLaw
    infer_instance
  rw [← prob_compl_eq_one_sub (measurableSet_passAgain T N), zigLaw_apply (by omega) (measurableSet_passAgain T N).compl,
    zigLaw_apply (by omega) (measurableSet_passHit T N univ MeasurableSet.univ)]
  congr 1
  refine Finset.sum_congr rfl fun i _ => Finset.sum_congr rfl fun s _ => Finset.sum_congr rfl fun s2 _ => ?_
  by_cases hi : (i : ℕ) = 0
  · rw [again_zero T i hi, measure_univ, sec_zero T i hi]
    have hu : sgnPre s univ = univ := by ext; simp [sgnPre]
    have hu2 : sgnPre s2 univ = univ := by ext; simp [sgnPre]
    have hall : ∀ t : (ℝ × ℝ) × (ℕ → ℝ × ℝ), t.2 ∈ tailHit T univ → t ∈ baseSet T univ univ := by
      intro t ht
      by_cases hk : t.1.1 < T.k 0
      · exact Or.inl ⟨hk, trivial⟩
      · exact Or.inr ⟨hk, ht⟩
    have h1 : pairsLaw (tailHit T univ) = 1 := by
      rw [tail_prob T h.r_pos h.inv_r univ MeasurableSet.univ, indicator_univ, lintegral_bell_tail]
      refine ENNReal.inv_mul_cancel ?_ ENNReal.ofReal_ne_top
      rw [Ne, ENNReal.ofReal_eq_zero, not_le]
      exact bellTail_pos _
    rw [hu, hu2]
    refine le_antisymm ?_ prob_le_one
    calc (1 : ENNReal) = ((unif01.prod unif01).prod pairsLaw) (univ ×ˢ tailHit T univ) := by rw [Measure.prod_prod, h1, measure_univ, one_mul]
      _ ≤ _ := measure_mono fun t ht => hall t ht.2
  · rw [again_pos T i hi]

/-! ## The loop -/

theorem zigNormal_eq_some (T : ZigTable) {N : ℕ} (tf fuel : ℕ) (D D' : ℕ → ZigDraw N) (x : ℝ) : zigNormal T tf fuel D = some (x, D') ↔
    ∃ n < fuel, (∀ m < n, D m ∈ passAgain T N) ∧ zigIter T tf (D n) = some (some x) ∧ D' = fun i => D (n + 1 + i) := by
  induction fuel generalizing D with
  | zero => simp [zigNormal]
  | succ fuel ih =>
    unfold zigNormal
    rcases hz : zigIter T tf (D 0) with _ | (_ | y)
    · constructor
      · intro h; simp at h
      · rintro ⟨n, _, h1, h2, _⟩
        rcases n with _ | n
        · rw [hz] at h2; simp at h2
        · have := (passAgain_iff T (D 0) tf).2 (h1 0 (by omega))
          rw [hz] at this
          simp at this
    · refine (ih _).trans ?_
      constructor
      · rintro ⟨n, hn, h1, h2, h3⟩
        refine ⟨n + 1, by omega, fun m hm => ?_, h2, ?_⟩
        · rcases m with _ | m
          · exact (passAgain_iff T (D 0) tf).1 hz
          · exact h1 m (by omega)
        · rw [h3]
          funext i
          congr 1
          omega
      · rintro ⟨n, hn, h1, h2, h3⟩
        rcases n with _ | n
        · rw [hz] at h2; simp at h2
        · refine ⟨n, by omega, fun m hm => h1 (m + 1) (by omega), h2, ?_⟩
          rw [h3]
          funext i
          congr 1
          omega
    · constructor
      · intro h
        have he := Prod.mk.inj (Option.some.inj h)
        refine ⟨0, by omega, fun m hm => by omega, by rw [hz, he.1], ?_⟩
        rw [← he.2]
        funext i
        congr 1
        omega
      · rintro ⟨n, _, h1, h2, h3⟩
        rcases n with _ | n
        · rw [hz] at h2
          rw [Option.some.inj (Option.some.inj h2), h3]
          show some (x, _) = some (x, _)
          congr 2
          funext i
          congr 1
          omega
        · have := (passAgain_iff T (D 0) tf).2 (h1 0 (by omega))
          rw [hz] at this
          simp at this

theorem zigReturns_iff (T : ZigTable) {N : ℕ} (D : ℕ → ZigDraw N) (B : Set ℝ) :
    zigReturns T D B ↔ ∃ n, (∀ m < n, D m ∈ passAgain T N) ∧ D n ∈ passHit T N B := by
  constructor
  · rintro ⟨tf, fuel, x, D', h, hx⟩
    obtain ⟨n, _, h1, h2, _⟩ := (zigNormal_eq_some _ _ _ _ _ _).1 h
    exact ⟨n, h1, tf, x, h2, hx⟩
  · rintro ⟨n, h1, tf, x, h2, hx⟩
    exact ⟨tf, n + 1, x, _, (zigNormal_eq_some _ _ _ _ _ _).2 ⟨n, by omega, h1, h2, rfl⟩, hx⟩

/-- **C106.**  For every table that satisfies the equations of the ziggurat method, with any number of layers, the value that `rng_standard_normal` returns has exactly
the standard normal distribution: it is in `B` with the probability that the normal distribution gives to `B`. -/
theorem C106_standard_normal {Ω : Type*} [MeasurableSpace Ω] (P : Measure Ω) [IsProbabilityMeasure P] {T : ZigTable} {N : ℕ} {v : ℝ} (h : ZigOk T N v)
    (D : ℕ → Ω → ZigDraw N) (hm : ∀ n, Measurable (D n)) (hind : iIndepFun D P) (hlaw : ∀ n, P.map (D n) = zigLaw N)
    (B : Set ℝ) (hB : MeasurableSet B) :
    P {ω | zigReturns T (fun n => D n ω) B} = gaussianReal 0 1 B := by
  have h2 := h.two_le
  have hdis : Disjoint (passAgain T N) (passHit T N B) := by
    rw [Set.disjoint_left]
    rintro d h1 ⟨fuel, x, h3, _⟩
    have := (passAgain_iff T d fuel).2 h1
    rw [h3] at this
    simp at this
  have hr := reject_prob hm hind hlaw (measurableSet_passAgain T N) (measurableSet_passHit T N B hB) hdis
  simp only [zigReturns_iff]
  rw [hr, again_prob h, pass_prob h univ MeasurableSet.univ, pass_prob h B hB, measure_univ, mul_one, ← mul_assoc, ENNReal.inv_mul_cancel, one_mul]
  · have : 0 < √(2 * Real.pi) / v := div_pos (Real.sqrt_pos.2 (by positivity)) h.v_pos
    refine mul_ne_zero (ENNReal.inv_ne_zero.2 (ENNReal.mul_ne_top (by simp) (ENNReal.natCast_ne_top N))) (mul_ne_zero two_ne_zero ?_)
    rw [Ne, ENNReal.ofReal_eq_zero, not_le]
    exact this
  · refine ENNReal.mul_ne_top (ENNReal.inv_ne_top.2 (mul_ne_zero (by simp) (by simp; omega))) (ENNReal.mul_ne_top (by simp) ENNReal.ofReal_ne_top)

/-- **C106.**  `rng_standard_normal` returns with probability one. -/
theorem C106_terminates {Ω : Type*} [MeasurableSpace Ω] (P : Measure Ω) [IsProbabilityMeasure P] {T : ZigTable} {N : ℕ} {v : ℝ} (h : ZigOk T N v)
    (D : ℕ → Ω → ZigDraw N) (hm : ∀ n, Measurable (D n)) (hind : iIndepFun D P) (hlaw : ∀ n, P.map (D n) = zigLaw N) :
    P {ω | ∃ tailFuel fuel x D', zigNormal T tailFuel fuel (fun n => D n ω) = some (x, D')} = 1 := by
  have := C106_standard_normal P h D hm hind hlaw univ MeasurableSet.univ
  rw [measure_univ] at this
  rw [← this]
  congr 1
  ext ω
  simp [zigReturns]

theorem zigTail_fuel (T : ZigTable) (t : ℕ → ℝ × ℝ) (f1 f2 : ℕ) (x y : ℝ) (h1 : zigTail T f1 t = some x) (h2 : zigTail T f2 t = some y) : x = y := by
  obtain ⟨n, _, a1, a2, a3⟩ := (zigTail_eq_some _ _ _ _).1 h1
  obtain ⟨m, _, b1, b2, b3⟩ := (zigTail_eq_some _ _ _ _).1 h2
  rcases Nat.lt_trichotomy n m with h | h | h
  · exact absurd a2 (b1 n h)
  · rw [a3, b3, h]
  · exact absurd b2 (a1 m h)

theorem zigIter_fuel (T : ZigTable) {N : ℕ} (D : ZigDraw N) (f1 f2 : ℕ) (x y : ℝ) (h1 : zigIter T f1 D = some (some x)) (h2 : zigIter T f2 D = some (some y)) :
    x = y := by
  unfold zigIter at h1 h2
  dsimp only at h1 h2
  by_cases hk : D.2.1.1 < T.k (D.1.1 : ℕ)
  · rw [if_pos hk] at h1 h2
    rw [h1] at h2
    exact Option.some.inj (Option.some.inj h2)
  · rw [if_neg hk] at h1 h2
    by_cases hi : (D.1.1 : ℕ) = 0
    · rw [if_pos hi] at h1 h2
      rcases z1 : zigTail T f1 D.2.2 with _ | a
      · rw [z1] at h1; simp at h1
      · rcases z2 : zigTail T f2 D.2.2 with _ | b
        · rw [z2] at h2; simp at h2
        · rw [z1] at h1
          rw [z2] at h2
          rw [zigTail_fuel T _ _ _ _ _ z1 z2] at h1
          rw [h1] at h2
          exact Option.some.inj (Option.some.inj h2)
    · rw [if_neg hi] at h1 h2
      rw [h1] at h2
      exact Option.some.inj (Option.some.inj h2)

/-- **C106.**  The returned value and the position in the stream of random numbers do not depend on how many passes the model allows, so "the value" is well defined. -/
theorem C106_fuel (T : ZigTable) {N : ℕ} (D : ℕ → ZigDraw N) (t1 f1 t2 f2 : ℕ) (x y : ℝ)
    (D1 D2 : ℕ → ZigDraw N) (h1 : zigNormal T t1 f1 D = some (x, D1)) (h2 : zigNormal T t2 f2 D = some (y, D2)) : x = y ∧ D1 = D2 := by
  obtain ⟨n, _, a1, ha, a2⟩ := (zigNormal_eq_some _ _ _ _ _ _).1 h1
  obtain ⟨m, _, b1, hb, b2⟩ := (zigNormal_eq_some _ _ _ _ _ _).1 h2
  have hn : ∀ n f x, zigIter T f (D n) = some (some x) → D n ∉ passAgain T N := by
    intro n f x h hc
    have := (passAgain_iff T (D n) f).2 hc
    rw [h] at this
    simp at this
  rcases Nat.lt_trichotomy n m with h | h | h
  · exact absurd (b1 n h) (hn n _ _ ha)
  · subst h
    exact ⟨zigIter_fuel T (D n) _ _ _ _ ha hb, by rw [a2, b2]⟩
  · exact absurd (a1 m h) (hn m _ _ hb)

/-! ## Successive calls -/

/-- The event that as many successive calls of `rng_standard_normal` as `Bs` has sets return, the first with a value in the first set, and so on. -/
def zigManyReturns (T : ZigTable) {N : ℕ} (D : ℕ → ZigDraw N) (Bs : List (Set ℝ)) : Prop :=
  ∃ tailFuel fuel l, zigMany T tailFuel fuel Bs.length D = some l ∧ List.Forall₂ (fun x B => x ∈ B) l Bs

theorem zigIter_mono (T : ZigTable) {N : ℕ} (D : ZigDraw N) {f1 f2 : ℕ} (hf : f1 ≤ f2) (x : ℝ) (h : zigIter T f1 D = some (some x)) :
    zigIter T f2 D = some (some x) := by
  have ht : ∀ y, zigTail T f1 D.2.2 = some y → zigTail T f2 D.2.2 = some y := by
    intro y hy
    obtain ⟨n, hn, r⟩ := (zigTail_eq_some _ _ _ _).1 hy
    exact (zigTail_eq_some _ _ _ _).2 ⟨n, by omega, r⟩
  unfold zigIter at h ⊢
  dsimp only at h ⊢
  by_cases hk : D.2.1.1 < T.k (D.1.1 : ℕ)
  · rw [if_pos hk] at h ⊢
    exact h
  · rw [if_neg hk] at h ⊢
    by_cases hi : (D.1.1 : ℕ) = 0
    · rw [if_pos hi] at h ⊢
      rcases z1 : zigTail T f1 D.2.2 with _ | a
      · rw [z1] at h; simp at h
      · rw [z1] at h
        rw [ht a z1]
        exact h
    · rw [if_neg hi] at h ⊢
      exact h

theorem zigNormal_mono (T : ZigTable) {N : ℕ} (D D' : ℕ → ZigDraw N) {t1 t2 f1 f2 : ℕ} (ht : t1 ≤ t2) (hf : f1 ≤ f2) (x : ℝ)
    (h : zigNormal T t1 f1 D = some (x, D')) : zigNormal T t2 f2 D = some (x, D') := by
  obtain ⟨n, hn, h1, h2, h3⟩ := (zigNormal_eq_some _ _ _ _ _ _).1 h
  exact (zigNormal_eq_some _ _ _ _ _ _).2 ⟨n, by omega, h1, zigIter_mono T _ ht x h2, h3⟩

theorem zigMany_mono (T : ZigTable) {N : ℕ} (m : ℕ) (D : ℕ → ZigDraw N) {t1 t2 f1 f2 : ℕ} (ht : t1 ≤ t2) (hf : f1 ≤ f2) (l : List ℝ)
    (h : zigMany T t1 f1 m D = some l) : zigMany T t2 f2 m D = some l := by
  induction m generalizing D l with
  | zero => exact h
  | succ m ih =>
    unfold zigMany at h ⊢
    rcases hz : zigNormal T t1 f1 D with _ | ⟨x, D'⟩
    · rw [hz] at h; simp at h
    · rw [hz] at h
      rw [zigNormal_mono T D D' ht hf x hz]
      simp only [Option.map_eq_some_iff] at h ⊢
      obtain ⟨l', h1, h2⟩ := h
      exact ⟨l', ih D' l' h1, h2⟩

theorem zigManyReturns_cons (T : ZigTable) {N : ℕ} (D : ℕ → ZigDraw N) (B : Set ℝ) (Bs : List (Set ℝ)) :
    zigManyReturns T D (B :: Bs) ↔
      ∃ n, (∀ m < n, D m ∈ passAgain T N) ∧ D n ∈ passHit T N B ∧ zigManyReturns T (fun i => D (n + 1 + i)) Bs := by
  constructor
  · rintro ⟨tf, fuel, l, h, hl⟩
    rw [List.length_cons, zigMany] at h
    rcases hz : zigNormal T tf fuel D with _ | ⟨x, D'⟩
    · rw [hz] at h; simp at h
    · rw [hz] at h
      simp only [Option.map_eq_some_iff] at h
      obtain ⟨l', h1, rfl⟩ := h
      obtain ⟨n, hn, a1, a2, rfl⟩ := (zigNormal_eq_some _ _ _ _ _ _).1 hz
      obtain ⟨hx, hl'⟩ := List.forall₂_cons.1 hl
      exact ⟨n, a1, ⟨tf, x, a2, hx⟩, tf, fuel, l', h1, hl'⟩
  · rintro ⟨n, a1, ⟨t1, x, a2, hx⟩, t2, f2, l, h, hl⟩
    refine ⟨max t1 t2, max (n + 1) f2, x :: l, ?_, List.forall₂_cons.2 ⟨hx, hl⟩⟩
    rw [List.length_cons, zigMany, (zigNormal_eq_some T (max t1 t2) (max (n + 1) f2) D (fun i => D (n + 1 + i)) x).2
      ⟨n, lt_of_lt_of_le (Nat.lt_succ_self n) (le_max_left _ _), a1, zigIter_mono T _ (le_max_left _ _) x a2, rfl⟩]
    simp only [zigMany_mono T _ _ (le_max_right t1 t2) (le_max_right (n + 1) f2) l h, Option.map_some]

theorem measurableSet_zigManyReturns (T : ZigTable) {N : ℕ} (Bs : List (Set ℝ)) (hBs : ∀ B ∈ Bs, MeasurableSet B) :
    MeasurableSet {D : ℕ → ZigDraw N | zigManyReturns T D Bs} := by
  induction Bs with
  | nil =>
    have : {D : ℕ → ZigDraw N | zigManyReturns T D []} = univ := by
      ext D
      exact ⟨fun _ => trivial, fun _ => ⟨0, 0, [], rfl, List.Forall₂.nil⟩⟩
    rw [this]
    exact MeasurableSet.univ
  | cons B Bs ih =>
    have : {D : ℕ → ZigDraw N | zigManyReturns T D (B :: Bs)} = ⋃ n : ℕ, (⋂ m, ⋂ (_ : m < n), (fun D : ℕ → ZigDraw N => D m) ⁻¹' passAgain T N) ∩
        ((fun D => D n) ⁻¹' passHit T N B ∩ (fun (D : ℕ → ZigDraw N) i => D (n + 1 + i)) ⁻¹' {D | zigManyReturns T D Bs}) := by
      ext D
      simp only [mem_ofPred_eq, zigManyReturns_cons, mem_iUnion, mem_inter_iff, mem_iInter, mem_preimage]
    rw [this]
    refine MeasurableSet.iUnion fun n => (MeasurableSet.iInter fun m => MeasurableSet.iInter fun _ =>
      (measurable_pi_apply m) (measurableSet_passAgain T N)).inter (((measurable_pi_apply n) (measurableSet_passHit T N B (hBs B (by simp)))).inter ?_)
    exact (measurable_pi_lambda _ fun i => measurable_pi_apply _) (ih fun C hC => hBs C (by simp [hC]))

theorem isProbabilityMeasure_zigLaw {N : ℕ} (hN : 0 < N) : IsProbabilityMeasure (zigLaw N) := by
  have : Nonempty (Fin N) := ⟨⟨0, hN⟩⟩
  have : IsProbabilityMeasure (uniformOn (univ : Set (Fin N × Bool × Bool))) := isProbabilityMeasure_uniformOn finite_univ univ_nonempty
  unfold zigLaw
  infer_instance

/-- **C106.**  The values of successive calls of `rng_standard_normal` are independent standard normal random numbers: the calls return values in given sets with the
product of the normal probabilities of the sets, for any number of calls. -/
theorem C106_independent {Ω : Type*} [MeasurableSpace Ω] (P : Measure Ω) [IsProbabilityMeasure P] {T : ZigTable} {N : ℕ} {v : ℝ} (h : ZigOk T N v)
    (D : ℕ → Ω → ZigDraw N) (hm : ∀ n, Measurable (D n)) (hind : iIndepFun D P) (hlaw : ∀ n, P.map (D n) = zigLaw N)
    (Bs : List (Set ℝ)) (hBs : ∀ B ∈ Bs, MeasurableSet B) :
    P {ω | zigManyReturns T (fun n => D n ω) Bs} = (Bs.map (gaussianReal 0 1)).prod := by
  have h2 := h.two_le
  have hp : IsProbabilityMeasure (zigLaw N) := isProbabilityMeasure_zigLaw (by omega)
  have hjoint : P.map (fun ω n => D n ω) = Measure.infinitePi fun _ => zigLaw N := by
    rw [iIndepFun.map_fun_eq_infinitePi_map hm hind]
    simp only [hlaw]
  have hgen : P {ω | zigManyReturns T (fun n => D n ω) Bs} = Measure.infinitePi (fun _ => zigLaw N) {D | zigManyReturns T D Bs} := by
    rw [← hjoint, Measure.map_apply (measurable_pi_lambda _ hm) (measurableSet_zigManyReturns T Bs hBs)]
    rfl
  rw [hgen]
  clear hgen hjoint
  induction Bs with
  | nil =>
    have : {D : ℕ → ZigDraw N | zigManyReturns T D []} = univ := by
      ext D
      exact ⟨fun _ => trivial, fun _ => ⟨0, 0, [], rfl, List.Forall₂.nil⟩⟩
    rw [this, measure_univ]
    simp
  | cons B Bs ih =>
    have hB := hBs B (by simp)
    have hBs' : ∀ C ∈ Bs, MeasurableSet C := fun C hC => hBs C (by simp [hC])
    have hdis : Disjoint (passAgain T N) (passHit T N B) := by
      rw [Set.disjoint_left]
      rintro d h1 ⟨fuel, x, h3, _⟩
      have := (passAgain_iff T d fuel).2 h1
      rw [h3] at this
      simp at this
    have hI := iIndepFun_infinitePi (P := fun _ : ℕ => zigLaw N) (X := fun _ x => x) (fun _ => measurable_id)
    have hM : ∀ n, Measurable fun D : ℕ → ZigDraw N => D n := fun n => measurable_pi_apply n
    have hL : ∀ n : ℕ, (Measure.infinitePi fun _ : ℕ => zigLaw N).map (fun D => D n) = zigLaw N := fun n => Measure.infinitePi_map_eval _ n
    have hr := reject_prob_next hM hI hL (measurableSet_passAgain T N) (measurableSet_passHit T N B hB) hdis (measurableSet_zigManyReturns T Bs hBs')
    have hr0 := reject_prob hM hI hL (measurableSet_passAgain T N) (measurableSet_passHit T N B hB) hdis
    have h1 := C106_standard_normal (Measure.infinitePi fun _ : ℕ => zigLaw N) h (fun n D => D n) hM hI hL B hB
    simp only [zigReturns_iff] at h1
    rw [h1] at hr0
    rw [← hr0, ih hBs'] at hr
    rw [List.map_cons, List.prod_cons, ← hr]
    simp only [zigManyReturns_cons]
    rfl

/-- **C106.**  For every number of layers there are tables that satisfy the equations of the ziggurat method. -/
theorem C106_table_exists (N : ℕ) (hN : 2 ≤ N) : ∃ T v, ZigOk T N v := by
  obtain ⟨v, hv, h⟩ := zig_area_exists (N - 1)
  have hX : ∀ i, 1 ≤ i → 0 < zigX i v := by
    intro i hi
    have := zigX_lt (i - 1) hv
    rw [Nat.sub_add_cancel hi] at this
    exact lt_of_le_of_lt (zigX_nonneg (i - 1) hv) this
  refine ⟨idealTable N v, v, hN, ?_, ?_, ?_, ?_, ?_, ?_, ?_, ?_, ?_, ?_, ?_, ?_⟩
  · exact bell_zero
  · intro i h1 hi
    show bell (zigX i v) = Real.exp (-(if i = 0 then _ else _) ^ 2 / 2)
    rw [if_neg (by omega), bell_eq]
  · simp only [idealTable, one_ne_zero, if_false]
    exact hX 1 le_rfl
  · intro i h1 hi
    simp only [idealTable]
    rw [if_neg (by omega), if_neg (by omega)]
    exact zigX_lt i hv
  · show (if N - 1 = 0 then _ else _) = zigX (N - 1) v
    rw [if_neg (by omega)]
  · intro i h1 hi
    show (if i = 0 then _ else _) * (bell (zigX (i - 1) v) - bell (zigX i v)) = v
    rw [if_neg (by omega)]
    have := zigX_area (i - 1) hv
    rw [Nat.sub_add_cancel h1] at this
    exact this
  · simp [idealTable, zigX]
  · intro i h1 hi
    show (if i = 0 then _ else _) = (if i - 1 = 0 then _ else _) / (if i = 0 then _ else _)
    rw [if_neg (by omega), if_neg (by omega), if_neg (by omega)]
  · exact h
  · rfl
  · rfl
  · rfl

/-- Non-vacuity: with 256 layers, as in the code, there are a table and independent random numbers that meet the hypotheses. -/
example : ∃ (Ω : Type) (_ : MeasurableSpace Ω) (P : Measure Ω) (_ : IsProbabilityMeasure P) (T : ZigTable) (D : ℕ → Ω → ZigDraw 256),
    ∀ Bs : List (Set ℝ), (∀ B ∈ Bs, MeasurableSet B) → P {ω | zigManyReturns T (fun n => D n ω) Bs} = (Bs.map (gaussianReal 0 1)).prod := by
  obtain ⟨T, v, h⟩ := C106_table_exists 256 (by norm_num)
  have hp := isProbabilityMeasure_zigLaw (N := 256) (by norm_num)
  refine ⟨ℕ → ZigDraw 256, inferInstance, Measure.infinitePi fun _ => zigLaw 256, inferInstance, T, fun n ω => ω n, fun B hB => ?_⟩
  exact C106_independent _ h _ (fun n => measurable_pi_apply n)
    (iIndepFun_infinitePi (P := fun _ : ℕ => zigLaw 256) (X := fun _ x => x) (fun _ => measurable_id)) (fun n => Measure.infinitePi_map_eval _ n) B hB

end Moo
