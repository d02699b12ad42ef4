import Verif.Model.ZigRng
import Verif.Props.ZigConst
import Verif.Props.WhvHypePoint

/-!
# C111: `whv_hype` with a goal, from the random bits to the estimate

C101 says what `whv_hype` with `dist = "point"` estimates when its normal random numbers are independent and exactly normal.  Here the numbers come from `rng_standard_normal` with the tables of the code.
-/

set_option autoImplicit false
set_option linter.unusedSectionVars false

namespace Moo

open MeasureTheory ProbabilityTheory Filter Set
open scoped Topology

/-! ## The sequence of the values of a generator -/

/-- The normal numbers that a generator returns, one after the other. -/
def rngVals {S K : Type*} (rng : Rng S K) : ℕ → S → K
  | 0, s => (rng.normal s).1
  | i + 1, s => rngVals rng i (rng.normal s).2

theorem bivariateNormalFill_vals {S : Type*} (rng : Rng S ℝ) (mu1 mu2 s1 s2 rho : ℝ) (n : ℕ) (s : S) :
    bivariateNormalFill rng Real.sqrt mu1 mu2 s1 s2 rho n s = bivariateNormalFill streamRng Real.sqrt mu1 mu2 s1 s2 rho n (fun i => rngVals rng i s) := by
  induction n generalizing s with
  | zero => rfl
  | succ n ih =>
    rw [bivariateNormalFill, bivariateNormalFill, ih]
    rfl

theorem whvHypeGaus_vals {S : Type*} (rng : Rng S ℝ) (pts : ℕ → ℕ → ℝ) (n : ℕ) (ideal ref : ℕ → ℝ) (nsamples : ℕ) (s : S) (mu : ℕ → ℝ) :
    whvHypeGaus rng Real.sqrt pts n ideal ref nsamples s mu = whvHypeGaus streamRng Real.sqrt pts n ideal ref nsamples (fun i => rngVals rng i s) mu := by
  unfold whvHypeGaus gaussianSamples
  simp only [bivariateNormalFill_vals rng]

section
variable (T : ZigTable) {N : ℕ} (R : (ℕ → ZigDraw N) → ℝ × (ℕ → ZigDraw N))

theorem zigRng_normal (D : ℕ → ZigDraw N) (p : ℝ × (ℕ → ZigDraw N)) (tf f : ℕ) (h : zigNormal T tf f D = some p) : (zigRng T R).normal D = p := by
  have hex : ∃ p : ℝ × (ℕ → ZigDraw N), ∃ tailFuel fuel, zigNormal T tailFuel fuel D = some p := ⟨p, tf, f, h⟩
  simp only [zigRng]
  rw [dif_pos hex]
  obtain ⟨t', f', h'⟩ := hex.choose_spec
  have := C106_fuel T D t' f' tf f hex.choose.1 p.1 hex.choose.2 p.2 h' h
  exact Prod.ext this.1 this.2

theorem zigMany_vals (m : ℕ) (D : ℕ → ZigDraw N) (tf f : ℕ) (l : List ℝ) (h : zigMany T tf f m D = some l) :
    l = (List.range m).map fun i => rngVals (zigRng T R) i D := by
  induction m generalizing D l with
  | zero => simpa [zigMany] using h.symm
  | succ m ih =>
    unfold zigMany at h
    rcases hz : zigNormal T tf f D with _ | ⟨x, D'⟩
    · rw [hz] at h; simp at h
    · rw [hz] at h
      simp only [Option.map_eq_some_iff] at h
      obtain ⟨l', h1, rfl⟩ := h
      have hn := zigRng_normal T R D (x, D') tf f hz
      rw [List.range_succ_eq_map, List.map_cons, List.map_map, ih D' l' h1]
      simp only [rngVals, Function.comp_def, hn]

/-- As many calls as the list has sets return. -/
def zigAll (m : ℕ) (D : ℕ → ZigDraw N) : Prop := zigManyReturns T D (List.replicate m univ)

theorem zigManyReturns_iff (D : ℕ → ZigDraw N) (m : ℕ) (B : ℕ → Set ℝ) :
    zigManyReturns T D ((List.range m).map B) ↔ zigAll T m D ∧ ∀ i < m, rngVals (zigRng T R) i D ∈ B i := by
  have hfa : ∀ (l : List ℕ) (g : ℕ → ℝ) (C : ℕ → Set ℝ), List.Forall₂ (fun x B => x ∈ B) (l.map g) (l.map C) ↔ ∀ i ∈ l, g i ∈ C i := by
    intro l g C
    induction l with
    | nil => simp
    | cons a l ih => simp [ih]
  have hrep : List.replicate m (univ : Set ℝ) = (List.range m).map fun _ => univ := by
    rw [List.map_const', List.length_range]
  unfold zigAll
  rw [hrep]
  unfold zigManyReturns
  simp only [List.length_map, List.length_range]
  constructor
  · rintro ⟨tf, f, l, h, hl⟩
    have e := zigMany_vals T R m D tf f l h
    subst e
    refine ⟨⟨tf, f, _, h, (hfa _ _ _).2 fun _ _ => mem_univ _⟩, fun i hi => ?_⟩
    exact (hfa _ _ _).1 hl i (List.mem_range.2 hi)
  · rintro ⟨⟨tf, f, l, h, -⟩, hB⟩
    have e := zigMany_vals T R m D tf f l h
    subst e
    exact ⟨tf, f, _, h, (hfa _ _ _).2 fun i hi => hB i (List.mem_range.1 hi)⟩

end

/-! ## Law and independence of the values -/

section
variable {T : ZigTable} {N : ℕ} (R : (ℕ → ZigDraw N) → ℝ × (ℕ → ZigDraw N)) {Ω : Type*} [MeasurableSpace Ω] (P : Measure Ω) [IsProbabilityMeasure P] (hN : 0 < N)
  (D : ℕ → Ω → ZigDraw N) (hm : ∀ n, Measurable (D n)) (hind : iIndepFun D P) (hlaw : ∀ n, P.map (D n) = zigLaw N)
  (hterm : P {ω | zigReturns T (fun n => D n ω) univ} = 1)
include hN hm hind hlaw hterm

theorem zigAll_prob (m : ℕ) : P {ω | zigAll T m fun n => D n ω} = 1 := by
  unfold zigAll
  rw [zigMany_prob P hN D hm hind hlaw _ (by intro B hB; rw [List.eq_of_mem_replicate hB]; exact MeasurableSet.univ)]
  simp [hterm]

theorem measurableSet_zigMany (m : ℕ) (B : ℕ → Set ℝ) (hB : ∀ i < m, MeasurableSet (B i)) :
    MeasurableSet {ω | zigManyReturns T (fun n => D n ω) ((List.range m).map B)} :=
  (measurable_pi_lambda _ hm) (measurableSet_zigManyReturns T _ (by
    intro C hC
    obtain ⟨i, hi, rfl⟩ := List.mem_map.1 hC
    exact hB i (List.mem_range.1 hi)))

theorem zigAll_ae (m : ℕ) : ∀ᵐ ω ∂P, zigAll T m fun n => D n ω := by
  have hms : MeasurableSet {ω | zigAll T m fun n => D n ω} := by
    have := measurableSet_zigMany (T := T) P hN D hm hind hlaw hterm m (fun _ => univ) fun _ _ => MeasurableSet.univ
    rw [List.map_const', List.length_range] at this
    exact this
  exact (prob_compl_eq_zero_iff hms).2 (zigAll_prob P hN D hm hind hlaw hterm m)

/-- The probability that the first `m` values lie in given sets. -/
theorem vals_prob (m : ℕ) (B : ℕ → Set ℝ) (hB : ∀ i < m, MeasurableSet (B i)) :
    P {ω | ∀ i < m, rngVals (zigRng T R) i (fun n => D n ω) ∈ B i} = ∏ i ∈ Finset.range m, P {ω | zigReturns T (fun n => D n ω) (B i)} := by
  have h1 : P {ω | ∀ i < m, rngVals (zigRng T R) i (fun n => D n ω) ∈ B i} = P {ω | zigManyReturns T (fun n => D n ω) ((List.range m).map B)} := by
    refine measure_congr ?_
    filter_upwards [zigAll_ae P hN D hm hind hlaw hterm m] with ω hω
    exact propext ((zigManyReturns_iff T R (fun n => D n ω) m B).trans ⟨fun h => h.2, fun h => ⟨hω, h⟩⟩).symm
  rw [h1, zigMany_prob P hN D hm hind hlaw _ (by
    intro C hC
    obtain ⟨i, hi, rfl⟩ := List.mem_map.1 hC
    exact hB i (List.mem_range.1 hi)), List.map_map]
  rfl

theorem vals_aemeasurable (i : ℕ) : AEMeasurable (fun ω => rngVals (zigRng T R) i fun n => D n ω) P := by
  classical
  refine ⟨fun ω => if zigAll T (i + 1) (fun n => D n ω) then rngVals (zigRng T R) i (fun n => D n ω) else 0, ?_, ?_⟩
  · intro B hB
    have hA : MeasurableSet {ω | zigAll T (i + 1) fun n => D n ω} := by
      have := measurableSet_zigMany (T := T) P hN D hm hind hlaw hterm (i + 1) (fun _ => univ) fun _ _ => MeasurableSet.univ
      rw [List.map_const', List.length_range] at this
      exact this
    have hS := measurableSet_zigMany (T := T) P hN D hm hind hlaw hterm (i + 1) (fun k => if k = i then B else univ) fun k _ => by
      split
      · exact hB
      · exact MeasurableSet.univ
    have e : (fun ω => if zigAll T (i + 1) (fun n => D n ω) then rngVals (zigRng T R) i (fun n => D n ω) else 0) ⁻¹' B =
        {ω | zigManyReturns T (fun n => D n ω) ((List.range (i + 1)).map fun k => if k = i then B else univ)} ∪ ({ω | zigAll T (i + 1) fun n => D n ω}ᶜ ∩ {_ω | (0 : ℝ) ∈ B}) := by
      ext ω
      simp only [mem_preimage, mem_union, mem_ofPred_eq, mem_inter_iff, mem_compl_iff, zigManyReturns_iff T R]
      by_cases h : zigAll T (i + 1) fun n => D n ω
      · simp only [h, if_true, true_and, not_true, false_and, or_false]
        constructor
        · intro hx k hk
          by_cases hki : k = i
          · rw [if_pos hki, hki]; exact hx
          · rw [if_neg hki]; exact mem_univ _
        · intro hx
          have := hx i (by omega)
          rwa [if_pos rfl] at this
      · simp only [h, if_false, false_and, not_false_iff, true_and, false_or]
    rw [e]
    exact hS.union (hA.compl.inter (MeasurableSet.const _))
  · filter_upwards [zigAll_ae P hN D hm hind hlaw hterm (i + 1)] with ω hω
    rw [if_pos hω]

theorem val_prob (i : ℕ) (B : Set ℝ) (hB : MeasurableSet B) :
    P {ω | rngVals (zigRng T R) i (fun n => D n ω) ∈ B} = P {ω | zigReturns T (fun n => D n ω) B} := by
  have h := vals_prob R P hN D hm hind hlaw hterm (i + 1) (fun k => if k = i then B else univ) fun k _ => by
    split
    · exact hB
    · exact MeasurableSet.univ
  have e : {ω | ∀ k < i + 1, rngVals (zigRng T R) k (fun n => D n ω) ∈ (if k = i then B else univ)} = {ω | rngVals (zigRng T R) i (fun n => D n ω) ∈ B} := by
    ext ω
    constructor
    · intro hx
      have := hx i (by omega)
      rwa [if_pos rfl] at this
    · intro hx k hk
      by_cases hki : k = i
      · rw [if_pos hki, hki]; exact hx
      · rw [if_neg hki]; exact mem_univ _
  rw [e] at h
  rw [h, Finset.prod_eq_single i]
  · simp
  · intro k _ hk
    simp [hk, hterm]
  · intro hi
    simp at hi

/-- The law of the values. -/
theorem val_law (i : ℕ) : HasLaw (fun ω => rngVals (zigRng T R) i fun n => D n ω) (P.map fun ω => rngVals (zigRng T R) 0 fun n => D n ω) P := by
  have hi := vals_aemeasurable R P hN D hm hind hlaw hterm i
  have h0 := vals_aemeasurable R P hN D hm hind hlaw hterm 0
  refine ⟨hi, ?_⟩
  ext B hB
  rw [Measure.map_apply_of_aemeasurable hi hB, Measure.map_apply_of_aemeasurable h0 hB]
  exact (val_prob R P hN D hm hind hlaw hterm i B hB).trans (val_prob R P hN D hm hind hlaw hterm 0 B hB).symm

theorem vals_indep {i j : ℕ} (hij : i < j) :
    IndepFun (fun ω => rngVals (zigRng T R) i fun n => D n ω) (fun ω => rngVals (zigRng T R) j fun n => D n ω) P := by
  rw [indepFun_iff_measure_inter_preimage_eq_mul]
  intro A B hA hB
  have h := vals_prob R P hN D hm hind hlaw hterm (j + 1) (fun k => if k = i then A else if k = j then B else univ) fun k _ => by
    split
    · exact hA
    · split
      · exact hB
      · exact MeasurableSet.univ
  have e : {ω | ∀ k < j + 1, rngVals (zigRng T R) k (fun n => D n ω) ∈ (if k = i then A else if k = j then B else univ)} =
      (fun ω => rngVals (zigRng T R) i fun n => D n ω) ⁻¹' A ∩ (fun ω => rngVals (zigRng T R) j fun n => D n ω) ⁻¹' B := by
    ext ω
    constructor
    · intro hx
      have a := hx i (by omega)
      have b := hx j (by omega)
      rw [if_pos rfl] at a
      rw [if_neg (by omega), if_pos rfl] at b
      exact ⟨a, b⟩
    · rintro ⟨ha, hb⟩ k hk
      by_cases hki : k = i
      · rw [if_pos hki, hki]; exact ha
      · rw [if_neg hki]
        by_cases hkj : k = j
        · rw [if_pos hkj, hkj]; exact hb
        · rw [if_neg hkj]; exact mem_univ _
  rw [← e, h]
  have e1 := val_prob R P hN D hm hind hlaw hterm i A hA
  have e2 := val_prob R P hN D hm hind hlaw hterm j B hB
  refine Eq.trans ?_ (congrArg₂ (· * ·) e1.symm e2.symm)
  have : ∀ k ∈ Finset.range (j + 1), P {ω | zigReturns T (fun n => D n ω) (if k = i then A else if k = j then B else univ)} =
      (if k = i then P {ω | zigReturns T (fun n => D n ω) A} else 1) * (if k = j then P {ω | zigReturns T (fun n => D n ω) B} else 1) := by
    intro k _
    by_cases hki : k = i
    · simp [hki, hij.ne]
    · by_cases hkj : k = j
      · simp [hkj, hij.ne']
      · simp [hki, hkj, hterm]
  rw [Finset.prod_congr rfl this, Finset.prod_mul_distrib, Finset.prod_ite_eq', Finset.prod_ite_eq', if_pos (Finset.mem_range.2 (by omega)), if_pos (Finset.mem_range.2 (by omega))]

end

/-! ## The estimate -/

section
variable {Ω : Type*} [MeasurableSpace Ω] (P : Measure Ω)

theorem point_mean_law (μ : Measure ℝ) [IsProbabilityMeasure μ] (pts : ℕ → ℕ → ℝ) (n : ℕ) (ideal ref mu : ℕ → ℝ) (h : ∀ d < 2, ideal d < ref d) (nsamples : ℕ) (hN : 0 < nsamples)
    (X : ℕ → Ω → ℝ) (hlaw : ∀ s < nsamples, HasLaw (X (2 * s)) μ P) :
    ∫ ω, (whvHypeGaus streamRng Real.sqrt pts n ideal ref nsamples (fun i => X i ω) mu).getD 0 ∂P =
      (ref 0 - ideal 0) * (ref 1 - ideal 1) * μ.real {x | ∃ j < n, goalDistance ideal ref mu (pts j) ≤ x / 4} := by
  simp only [fun ω => C101_point_value pts n ideal ref mu h nsamples (fun i => X i ω), Option.getD_some]
  have hm := measurableSet_goal pts n ideal ref mu
  set D := {x : ℝ | ∃ j < n, goalDistance ideal ref mu (pts j) ≤ x / 4} with hD
  have hint : Integrable (D.indicator (1 : ℝ → ℝ)) μ := (integrable_const (1 : ℝ)).indicator hm
  have hI : ∀ s < nsamples, Integrable (fun ω => D.indicator (1 : ℝ → ℝ) (X (2 * s) ω)) P := by
    intro s hs
    have : Integrable (D.indicator (1 : ℝ → ℝ)) (P.map (X (2 * s))) := by rw [(hlaw s hs).map_eq]; exact hint
    exact this.comp_aemeasurable (hlaw s hs).aemeasurable
  rw [integral_const_mul, integral_div, integral_finsetSum _ (fun s hs => hI s (Finset.mem_range.mp hs))]
  congr 1
  have hE : ∀ s ∈ Finset.range nsamples, ∫ ω, D.indicator (1 : ℝ → ℝ) (X (2 * s) ω) ∂P = μ.real D := fun s hs =>
    ((hlaw s (Finset.mem_range.mp hs)).integral_comp hint.aestronglyMeasurable).trans (integral_indicator_one hm)
  rw [Finset.sum_congr rfl hE, Finset.sum_const, Finset.card_range, nsmul_eq_mul, mul_div_cancel_left₀ _ (by exact_mod_cast hN.ne')]

theorem point_consistent_law (μ : Measure ℝ) [IsProbabilityMeasure μ] (pts : ℕ → ℕ → ℝ) (n : ℕ) (ideal ref mu : ℕ → ℝ) (h : ∀ d < 2, ideal d < ref d)
    (X : ℕ → Ω → ℝ) (hlaw : ∀ s, HasLaw (X (2 * s)) μ P) (hind : Pairwise fun s t => IndepFun (X (2 * s)) (X (2 * t)) P) :
    ∀ᵐ ω ∂P, Tendsto (fun nsamples => (whvHypeGaus streamRng Real.sqrt pts n ideal ref nsamples (fun i => X i ω) mu).getD 0) atTop
      (𝓝 ((ref 0 - ideal 0) * (ref 1 - ideal 1) * μ.real {x | ∃ j < n, goalDistance ideal ref mu (pts j) ≤ x / 4})) := by
  have hm := measurableSet_goal pts n ideal ref mu
  set D := {x : ℝ | ∃ j < n, goalDistance ideal ref mu (pts j) ≤ x / 4} with hD
  have hf : Measurable (D.indicator (1 : ℝ → ℝ)) := measurable_one.indicator hm
  have hint : Integrable (D.indicator (1 : ℝ → ℝ)) μ := (integrable_const (1 : ℝ)).indicator hm
  have hid : ∀ s, IdentDistrib (fun ω => D.indicator (1 : ℝ → ℝ) (X (2 * s) ω)) (fun ω => D.indicator (1 : ℝ → ℝ) (X (2 * 0) ω)) P P := by
    intro s
    have : IdentDistrib (X (2 * s)) (X (2 * 0)) P P :=
      ⟨(hlaw s).aemeasurable, (hlaw 0).aemeasurable, by rw [(hlaw s).map_eq, (hlaw 0).map_eq]⟩
    exact this.comp hf
  have hI0 : Integrable (fun ω => D.indicator (1 : ℝ → ℝ) (X (2 * 0) ω)) P := by
    have : Integrable (D.indicator (1 : ℝ → ℝ)) (P.map (X (2 * 0))) := by rw [(hlaw 0).map_eq]; exact hint
    exact this.comp_aemeasurable (hlaw 0).aemeasurable
  have hE : ∫ ω, D.indicator (1 : ℝ → ℝ) (X (2 * 0) ω) ∂P = μ.real D :=
    ((hlaw 0).integral_comp hint.aestronglyMeasurable).trans (integral_indicator_one hm)
  have hslln := strong_law_ae_real (fun s ω => D.indicator (1 : ℝ → ℝ) (X (2 * s) ω)) hI0 (fun s t hst => (hind hst).comp hf hf) hid
  filter_upwards [hslln] with ω hlim
  rw [hE] at hlim
  have h2 := hlim.const_mul ((ref 0 - ideal 0) * (ref 1 - ideal 1))
  refine h2.congr (fun M => ?_)
  rw [C101_point_value pts n ideal ref mu h, Option.getD_some]

end

section
variable {rnd : ℝ → ℝ} (hr : Nearest binary64 rnd) (R : (ℕ → ZigDraw 256) → ℝ × (ℕ → ZigDraw 256)) {Ω : Type*} [MeasurableSpace Ω] (P : Measure Ω) [IsProbabilityMeasure P]
  (D : ℕ → Ω → ZigDraw 256) (hm : ∀ n, Measurable (D n)) (hind : iIndepFun D P) (hlaw : ∀ n, P.map (D n) = zigLaw 256)
include hr hm hind hlaw

theorem zigLaw_near : IsProbabilityMeasure (P.map fun ω => rngVals (zigRng (zigTab rnd) R) 0 fun n => D n ω) ∧
    ∀ B, MeasurableSet B → |(P.map fun ω => rngVals (zigRng (zigTab rnd) R) 0 fun n => D n ω).real B - (gaussianReal 0 1).real B| ≤ 1 / 10 ^ 11 := by
  have ht := (zigTab_near hr).terminates P D hm hind hlaw
  have h0 := vals_aemeasurable R P (by norm_num) D hm hind hlaw ht 0
  refine ⟨Measure.isProbabilityMeasure_map h0, fun B hB => ?_⟩
  unfold Measure.real
  rw [Measure.map_apply_of_aemeasurable h0 hB]
  have e := val_prob R P (by norm_num) D hm hind hlaw ht 0 B hB
  have := C110_standard_normal hr P D hm hind hlaw B hB
  rw [← e] at this
  exact this

/-- **C111 (mean).**  The expected value of the estimate of `whv_hype` with a goal, with the ziggurat method and its tables, differs from the value of C101 by at most the area of the box times `10^-11`. -/
theorem C111_mean (pts : ℕ → ℕ → ℝ) (n : ℕ) (ideal ref mu : ℕ → ℝ) (h : ∀ d < 2, ideal d < ref d) (nsamples : ℕ) (hN : 0 < nsamples) :
    |∫ ω, (whvHypeGaus (zigRng (zigTab rnd) R) Real.sqrt pts n ideal ref nsamples (fun i => D i ω) mu).getD 0 ∂P -
        (ref 0 - ideal 0) * (ref 1 - ideal 1) * (gaussianReal 0 1).real {x | ∃ j < n, goalDistance ideal ref mu (pts j) ≤ x / 4}| ≤
      (ref 0 - ideal 0) * (ref 1 - ideal 1) / 10 ^ 11 := by
  have ht := (zigTab_near hr).terminates P D hm hind hlaw
  obtain ⟨hp, hnear⟩ := zigLaw_near hr R P D hm hind hlaw
  simp only [whvHypeGaus_vals (zigRng (zigTab rnd) R)]
  rw [point_mean_law P _ pts n ideal ref mu h nsamples hN (fun i ω => rngVals (zigRng (zigTab rnd) R) i fun n => D n ω)
    (fun s _ => val_law R P (by norm_num) D hm hind hlaw ht (2 * s)), ← mul_sub, abs_mul]
  have ha : 0 < (ref 0 - ideal 0) * (ref 1 - ideal 1) := mul_pos (sub_pos.2 (h 0 (by omega))) (sub_pos.2 (h 1 (by omega)))
  rw [abs_of_pos ha, div_eq_mul_one_div]
  exact mul_le_mul_of_nonneg_left (hnear _ (measurableSet_goal pts n ideal ref mu)) ha.le

/-- **C111 (convergence).**  With probability one the estimate converges, as the number of samples grows, to a number that differs from the value of C101 by at most the area of the box times `10^-11`. -/
theorem C111_consistent (pts : ℕ → ℕ → ℝ) (n : ℕ) (ideal ref mu : ℕ → ℝ) (h : ∀ d < 2, ideal d < ref d) :
    ∃ L, |L - (ref 0 - ideal 0) * (ref 1 - ideal 1) * (gaussianReal 0 1).real {x | ∃ j < n, goalDistance ideal ref mu (pts j) ≤ x / 4}| ≤ (ref 0 - ideal 0) * (ref 1 - ideal 1) / 10 ^ 11 ∧
      ∀ᵐ ω ∂P, Tendsto (fun nsamples => (whvHypeGaus (zigRng (zigTab rnd) R) Real.sqrt pts n ideal ref nsamples (fun i => D i ω) mu).getD 0) atTop (𝓝 L) := by
  have ht := (zigTab_near hr).terminates P D hm hind hlaw
  obtain ⟨hp, hnear⟩ := zigLaw_near hr R P D hm hind hlaw
  simp only [whvHypeGaus_vals (zigRng (zigTab rnd) R)]
  refine ⟨_, ?_, point_consistent_law P (P.map fun ω => rngVals (zigRng (zigTab rnd) R) 0 fun n => D n ω) pts n ideal ref mu h
    (fun i ω => rngVals (zigRng (zigTab rnd) R) i fun n => D n ω)
    (fun s => val_law R P (by norm_num) D hm hind hlaw ht (2 * s)) (fun s t hst => ?_)⟩
  · rw [← mul_sub, abs_mul]
    have ha : 0 < (ref 0 - ideal 0) * (ref 1 - ideal 1) := mul_pos (sub_pos.2 (h 0 (by omega))) (sub_pos.2 (h 1 (by omega)))
    rw [abs_of_pos ha, div_eq_mul_one_div]
    exact mul_le_mul_of_nonneg_left (hnear _ (measurableSet_goal pts n ideal ref mu)) ha.le
  · rcases Nat.lt_or_gt_of_ne hst with hlt | hlt
    · exact vals_indep R P (by norm_num) D hm hind hlaw ht (by omega)
    · exact (vals_indep R P (by norm_num) D hm hind hlaw ht (by omega)).symm

/-- **C111 (values).**  With probability one all the calls of `rng_standard_normal` return, and the value that the model of the generator has for a call that does not return plays no role. -/
theorem C111_returns : ∀ᵐ ω ∂P, ∀ m, ∃ tailFuel fuel l, zigMany (zigTab rnd) tailFuel fuel m (fun n => D n ω) = some l ∧
    l = (List.range m).map fun i => rngVals (zigRng (zigTab rnd) R) i fun n => D n ω := by
  have ht := (zigTab_near hr).terminates P D hm hind hlaw
  rw [ae_all_iff]
  intro m
  filter_upwards [zigAll_ae P (by norm_num) D hm hind hlaw ht m] with ω hω
  obtain ⟨tf, f, l, h1, -⟩ := hω
  rw [List.length_replicate] at h1
  exact ⟨tf, f, l, h1, zigMany_vals _ R m _ tf f l h1⟩

end

/-- Non-vacuity: a rounding, independent random numbers and the box from (1, 1) to (4, 4) with the goal (2.9, 0.9) of the documentation and the point (3, 1). -/
example : ∃ (rnd : ℝ → ℝ) (Ω : Type) (_ : MeasurableSpace Ω) (P : Measure Ω) (D : ℕ → Ω → ZigDraw 256) (R : (ℕ → ZigDraw 256) → ℝ × (ℕ → ZigDraw 256)),
    |∫ ω, (whvHypeGaus (zigRng (zigTab rnd) R) Real.sqrt (fun _ k => if k = 0 then 3 else 1) 1 (fun _ => 1) (fun _ => 4) 1000 (fun i => D i ω) (fun k => if k = 0 then 2.9 else 0.9)).getD 0 ∂P -
      9 * (gaussianReal 0 1).real {x | ∃ j < 1, goalDistance (fun _ => 1) (fun _ => 4) (fun k => if k = 0 then 2.9 else 0.9) ((fun _ k => if k = 0 then 3 else 1 : ℕ → ℕ → ℝ) j) ≤ x / 4}| ≤ 9 / 10 ^ 11 := by
  obtain ⟨rnd, hr⟩ := exists_nearest64
  have hp := isProbabilityMeasure_zigLaw (N := 256) (by norm_num)
  refine ⟨rnd, ℕ → ZigDraw 256, inferInstance, Measure.infinitePi fun _ => zigLaw 256, fun n ω => ω n, fun D => (0, D), ?_⟩
  have := C111_mean hr (fun D => (0, D)) (Measure.infinitePi fun _ => zigLaw 256) (fun n ω => ω n) (fun n => measurable_pi_apply n)
    (iIndepFun_infinitePi (P := fun _ : ℕ => zigLaw 256) (X := fun _ x => x) (fun _ => measurable_id)) (fun n => Measure.infinitePi_map_eval _ n)
    (fun _ k => if k = 0 then 3 else 1) 1 (fun _ => 1) (fun _ => 4) (fun k => if k = 0 then 2.9 else 0.9) (fun d _ => by norm_num) 1000 (by norm_num)
  norm_num at this ⊢
  exact this

end Moo
