import Verif.Model.WhvHype
import Verif.Props.Normalise
import Mathlib.Tactic.Linarith
import Mathlib.Tactic.FieldSimp
import Mathlib.Tactic.Ring
import Mathlib.Tactic.NormNum

/-!
# Property C35: the HypE estimate of the weighted hypervolume
-/

set_option autoImplicit false
set_option linter.unusedSectionVars false

namespace Moo

variable {K : Type*} [Field K] [LinearOrder K] [IsStrictOrderedRing K] {S : Type*}

/-- Specification: the sample `s` is weakly dominated by one of the points. -/
def SampleDominated (pts : ℕ → ℕ → K) (n : ℕ) (s : K × K) : Prop := ∃ j < n, pts j 0 ≤ s.1 ∧ pts j 1 ≤ s.2

/-- Specification: the place of a sample of the unit square in the box between `ideal` and `ref`. -/
def inBox (ideal ref : ℕ → K) (s : K × K) : K × K := (ideal 0 + s.1 * (ref 0 - ideal 0), ideal 1 + s.2 * (ref 1 - ideal 1))

/-- Specification: how many samples, placed in the box, are dominated. -/
noncomputable def dominatedCount (pts : ℕ → ℕ → K) (n : ℕ) (l : List (K × K)) : ℕ :=
  by classical exact l.countP (fun s => decide (SampleDominated pts n s))

theorem isDominator_iff (s : K × K) (p : ℕ → K) : isDominator s p = true ↔ p 0 ≤ s.1 ∧ p 1 ≤ s.2 := by
  unfold isDominator
  split_ifs with h1 h2
  · simp [h1]
  · simp [h2]
  · simp [not_lt.1 h1, not_lt.1 h2]

theorem countDominators_snd (pts : ℕ → ℕ → K) (s : K × K) (js : List ℕ) :
    (countDominators pts s js).2 = js.map (fun j => isDominator s (pts j)) ∧ (countDominators pts s js).1 = (js.map (fun j => isDominator s (pts j))).count true := by
  induction js with
  | nil => exact ⟨rfl, rfl⟩
  | cons j js ih =>
    unfold countDominators
    dsimp only
    rw [ih.1, ih.2]
    refine ⟨rfl, ?_⟩
    cases h : isDominator s (pts j) <;> simp [h]

theorem addAlpha_eq (c : ℕ) (ds : List Bool) : ∀ whv : K, (true ∈ ds → 0 < c) → addAlpha c ds whv = some (whv + (ds.count true : K) * (1 / (c : K))) := by
  induction ds with
  | nil => intro whv _; simp [addAlpha]
  | cons d ds ih =>
    intro whv h
    have h' : true ∈ ds → 0 < c := fun hm => h (List.mem_cons_of_mem _ hm)
    unfold addAlpha
    cases d
    · simp only [Bool.false_eq_true, if_false]
      rw [ih whv h']
      simp
    · simp only [if_true]
      rw [if_neg (not_not.2 (h (List.mem_cons_self ..))), ih _ h', List.count_cons_self, Nat.cast_add, Nat.cast_one]
      congr 1
      ring

theorem estimateWhvLoop_eq (pts : ℕ → ℕ → K) (n : ℕ) (samples : List (K × K)) :
    ∀ whv : K, estimateWhvLoop pts n samples whv = some (whv + (dominatedCount pts n samples : K)) := by
  classical
  induction samples with
  | nil => intro whv; simp [estimateWhvLoop, dominatedCount]
  | cons s ss ih =>
    intro whv
    unfold estimateWhvLoop
    dsimp only
    obtain ⟨e1, e2⟩ := countDominators_snd pts s (List.range n)
    rw [e1, e2, addAlpha_eq _ _ _ (fun h => List.count_pos_iff.2 h)]
    dsimp only
    rw [ih]
    congr 1
    have hiff : true ∈ (List.range n).map (fun j => isDominator s (pts j)) ↔ SampleDominated pts n s := by
      unfold SampleDominated
      rw [List.mem_map]
      constructor
      · rintro ⟨j, hj, h⟩; exact ⟨j, List.mem_range.1 hj, (isDominator_iff _ _).1 h⟩
      · rintro ⟨j, hj, h⟩; exact ⟨j, List.mem_range.2 hj, (isDominator_iff _ _).2 h⟩
    unfold dominatedCount
    rw [List.countP_cons]
    by_cases hd : SampleDominated pts n s
    · have hpos : 0 < ((List.range n).map (fun j => isDominator s (pts j))).count true := List.count_pos_iff.2 (hiff.2 hd)
      have hne : ((((List.range n).map (fun j => isDominator s (pts j))).count true : ℕ) : K) ≠ 0 := by exact_mod_cast hpos.ne'
      rw [mul_one_div_cancel hne]
      simp only [hd, decide_true, if_true, Nat.cast_add, Nat.cast_one]
      ring
    · have : ((List.range n).map (fun j => isDominator s (pts j))).count true = 0 := List.count_eq_zero.2 (fun h => hd (hiff.1 h))
      rw [this]
      simp [hd]

/-- **C35 (estimate).** `estimate_whv` counts the samples that are weakly dominated by a point; no assertion fails. -/
theorem C35_estimate (pts : ℕ → ℕ → K) (n : ℕ) (samples : List (K × K)) :
    estimateWhv pts n samples = some (dominatedCount pts n samples : K) := by
  unfold estimateWhv
  rw [estimateWhvLoop_eq, zero_add]

theorem normalise01_val (pts : ℕ → ℕ → K) (n : ℕ) (ideal ref : ℕ → K) {j d : ℕ} (hj : j < n) (hd : d < 2) (h : ideal d < ref d) :
    normalise01 pts 2 n ideal ref j d = (pts j d - ideal d) / (ref d - ideal d) := by
  unfold normalise01 normalise normDiff flipObjective
  rw [if_pos ⟨hj, hd⟩, if_neg (by simp), if_neg (sub_ne_zero.2 h.ne')]
  ring

theorem sampleDominated_normalise (pts : ℕ → ℕ → K) (n : ℕ) (ideal ref : ℕ → K) (h : ∀ d < 2, ideal d < ref d) (s : K × K) :
    SampleDominated (normalise01 pts 2 n ideal ref) n s ↔ SampleDominated pts n (inBox ideal ref s) := by
  unfold SampleDominated inBox
  refine exists_congr fun j => and_congr_right fun hj => ?_
  have key : ∀ d < 2, ∀ x : K, normalise01 pts 2 n ideal ref j d ≤ x ↔ pts j d ≤ ideal d + x * (ref d - ideal d) := by
    intro d hd x
    rw [normalise01_val pts n ideal ref hj hd (h d hd), div_le_iff₀ (sub_pos.2 (h d hd))]
    constructor <;> intro h <;> linarith
  rw [key 0 (by omega), key 1 (by omega)]

theorem volumeBetween_two (ideal ref : ℕ → K) : volumeBetween ideal ref 2 = (ref 0 - ideal 0) * (ref 1 - ideal 1) := by
  simp [volumeBetween, List.range_succ]

/-- **C35 (value).** With `ideal` below `ref`, the estimate is the area of the box between them times the fraction of the samples, placed in
that box, that are weakly dominated by a point. -/
theorem C35_value (pts : ℕ → ℕ → K) (n : ℕ) (ideal ref : ℕ → K) (h : ∀ d < 2, ideal d < ref d) (samples : List (K × K)) :
    whvHypeSample pts n ideal ref samples =
      some ((ref 0 - ideal 0) * (ref 1 - ideal 1) * ((dominatedCount pts n (samples.map (inBox ideal ref)) : K) / (samples.length : K))) := by
  classical
  unfold whvHypeSample
  rw [C35_estimate, volumeBetween_two]
  dsimp only
  have : dominatedCount (normalise01 pts 2 n ideal ref) n samples = dominatedCount pts n (samples.map (inBox ideal ref)) := by
    unfold dominatedCount
    rw [List.countP_map]
    apply List.countP_congr
    intro s _
    simp only [Function.comp, decide_eq_true_eq]
    exact sampleDominated_normalise pts n ideal ref h s
  rw [this]
  congr 1
  ring

/-- **C35 (range).** The estimate lies between 0 and the area of the box. -/
theorem C35_range (pts : ℕ → ℕ → K) (n : ℕ) (ideal ref : ℕ → K) (h : ∀ d < 2, ideal d < ref d) (samples : List (K × K)) :
    ∃ v, whvHypeSample pts n ideal ref samples = some v ∧ 0 ≤ v ∧ v ≤ (ref 0 - ideal 0) * (ref 1 - ideal 1) := by
  classical
  refine ⟨_, C35_value pts n ideal ref h samples, ?_⟩
  have hV : 0 ≤ (ref 0 - ideal 0) * (ref 1 - ideal 1) := mul_nonneg (sub_pos.2 (h 0 (by omega))).le (sub_pos.2 (h 1 (by omega))).le
  have hle : (dominatedCount pts n (samples.map (inBox ideal ref)) : K) ≤ (samples.length : K) := by
    have : dominatedCount pts n (samples.map (inBox ideal ref)) ≤ (samples.map (inBox ideal ref)).length := List.countP_le_length
    rw [List.length_map] at this
    exact_mod_cast this
  have h0 : (0 : K) ≤ (dominatedCount pts n (samples.map (inBox ideal ref)) : K) := Nat.cast_nonneg _
  have hl : (0 : K) ≤ (samples.length : K) := Nat.cast_nonneg _
  exact ⟨mul_nonneg hV (div_nonneg h0 hl), mul_le_of_le_one_right hV (div_le_one_of_le₀ hle hl)⟩

/-- **C35 (monotonicity).** For the same samples, if every point of `A` is weakly dominated by a point of `B`, the estimate for `A` is not larger than for `B`. -/
theorem C35_monotone (A B : ℕ → ℕ → K) (n m : ℕ) (ideal ref : ℕ → K) (h : ∀ d < 2, ideal d < ref d) (samples : List (K × K))
    (hdom : ∀ i < n, ∃ j < m, B j 0 ≤ A i 0 ∧ B j 1 ≤ A i 1) :
    ∃ a b, whvHypeSample A n ideal ref samples = some a ∧ whvHypeSample B m ideal ref samples = some b ∧ a ≤ b := by
  classical
  refine ⟨_, _, C35_value A n ideal ref h samples, C35_value B m ideal ref h samples, ?_⟩
  have hV : 0 ≤ (ref 0 - ideal 0) * (ref 1 - ideal 1) := mul_nonneg (sub_pos.2 (h 0 (by omega))).le (sub_pos.2 (h 1 (by omega))).le
  apply mul_le_mul_of_nonneg_left _ hV
  apply div_le_div_of_nonneg_right _ (Nat.cast_nonneg _)
  have : dominatedCount A n (samples.map (inBox ideal ref)) ≤ dominatedCount B m (samples.map (inBox ideal ref)) := by
    unfold dominatedCount
    apply List.countP_mono_left
    intro s _ hs
    rw [decide_eq_true_eq] at hs ⊢
    obtain ⟨i, hi, h1, h2⟩ := hs
    obtain ⟨j, hj, g1, g2⟩ := hdom i hi
    exact ⟨j, hj, g1.trans h1, g2.trans h2⟩
  exact_mod_cast this

theorem uniformSamples_spec (rng : Rng S K) (hr : ∀ s, 0 ≤ (rng.random s).1 ∧ (rng.random s).1 < 1) (n : ℕ) : ∀ s,
    (uniformSamples rng n s).length = n ∧ ∀ q ∈ uniformSamples rng n s, (0 ≤ q.1 ∧ q.1 < 1) ∧ (0 ≤ q.2 ∧ q.2 < 1) := by
  induction n with
  | zero => intro s; exact ⟨rfl, by simp [uniformSamples]⟩
  | succ n ih =>
    intro s
    unfold uniformSamples
    dsimp only
    obtain ⟨i1, i2⟩ := ih (rng.random (rng.random s).2).2
    refine ⟨by rw [List.length_cons, i1], ?_⟩
    intro q hq
    rcases List.mem_cons.1 hq with rfl | hq
    · simp only [zero_add, mul_one]
      exact ⟨hr _, hr _⟩
    · exact i2 q hq

/-- **C35 (uniform).** `whv_hype` with the uniform distribution returns the area of the box times the fraction of `nsamples` sample points of the box that are dominated;
every sample lies in the box, whatever the state of the generator. -/
theorem C35_uniform (rng : Rng S K) (hr : ∀ s, 0 ≤ (rng.random s).1 ∧ (rng.random s).1 < 1) (pts : ℕ → ℕ → K) (n : ℕ) (ideal ref : ℕ → K)
    (h : ∀ d < 2, ideal d < ref d) (nsamples : ℕ) (s : S) :
    ∃ places : List (K × K), places.length = nsamples ∧
      (∀ q ∈ places, (ideal 0 ≤ q.1 ∧ q.1 < ref 0) ∧ (ideal 1 ≤ q.2 ∧ q.2 < ref 1)) ∧
      whvHypeUnif rng pts n ideal ref nsamples s = some ((ref 0 - ideal 0) * (ref 1 - ideal 1) * ((dominatedCount pts n places : K) / (nsamples : K))) := by
  obtain ⟨h1, h2⟩ := uniformSamples_spec rng hr nsamples s
  refine ⟨(uniformSamples rng nsamples s).map (inBox ideal ref), by rw [List.length_map, h1], ?_, ?_⟩
  · intro q hq
    obtain ⟨u, hu, rfl⟩ := List.mem_map.1 hq
    obtain ⟨⟨a, b⟩, c, d⟩ := h2 u hu
    have e0 := sub_pos.2 (h 0 (by omega))
    have e1 := sub_pos.2 (h 1 (by omega))
    unfold inBox
    refine ⟨⟨?_, ?_⟩, ?_, ?_⟩
    · linarith [mul_nonneg a e0.le]
    · linarith [mul_lt_mul_of_pos_right b e0]
    · linarith [mul_nonneg c e1.le]
    · linarith [mul_lt_mul_of_pos_right d e1]
  · unfold whvHypeUnif
    rw [C35_value pts n ideal ref h, h1]

/-- Specification: a value that the generator can return. -/
def RngValue (rng : Rng S K) (x : K) : Prop := ∃ s, (rng.random s).1 = x

theorem expSamplesLoop_spec (rng : Rng S K) (lg : K → K) (mu : K) (flip : Bool) (hr : ∀ s, 0 < (rng.random s).1) (n : ℕ) : ∀ s,
    ∃ l s', expSamplesLoop rng lg mu flip n s = some (l, s') ∧ l.length = n ∧
      ∀ q ∈ l, ∃ x y, RngValue rng x ∧ RngValue rng y ∧ q = if flip then (y, -mu * lg x) else (-mu * lg x, y) := by
  induction n with
  | zero => intro s; exact ⟨[], s, rfl, rfl, by simp⟩
  | succ n ih =>
    intro s
    obtain ⟨l, s', h1, h2, h3⟩ := ih (rng.random (rng.random s).2).2
    cases flip
    · refine ⟨(0 - mu * lg (rng.random s).1, 0 + (rng.random (rng.random s).2).1 * 1) :: l, s', ?_, ?_, ?_⟩
      · unfold expSamplesLoop
        dsimp only
        rw [if_neg (by simp), if_neg (not_not.2 (hr _)), h1]
      · rw [List.length_cons, h2]
      · intro q hq
        rcases List.mem_cons.1 hq with rfl | hq
        · exact ⟨_, _, ⟨s, rfl⟩, ⟨(rng.random s).2, rfl⟩, by simp⟩
        · exact h3 q hq
    · refine ⟨(0 + (rng.random s).1 * 1, 0 - mu * lg (rng.random (rng.random s).2).1) :: l, s', ?_, ?_, ?_⟩
      · unfold expSamplesLoop
        dsimp only
        rw [if_pos rfl, if_neg (not_not.2 (hr _)), h1]
      · rw [List.length_cons, h2]
      · intro q hq
        rcases List.mem_cons.1 hq with rfl | hq
        · exact ⟨_, _, ⟨(rng.random s).2, rfl⟩, ⟨s, rfl⟩, by simp⟩
        · exact h3 q hq

/-- **C35 (exponential).** With the exponential distribution there are `nsamples` samples, too, provided that the generator never returns 0 (`rng_random` is documented as `[0, 1)`;
a zero fails an assertion), and the result is the area of the box times the fraction that is dominated.  In the first half of the samples the first coordinate is
`-mu log x` and the second is uniform (in units of the box), in the second half it is the other way round. -/
theorem C35_exponential (rng : Rng S K) (lg : K → K) (hr : ∀ s, 0 < (rng.random s).1) (pts : ℕ → ℕ → K) (n : ℕ) (ideal ref : ℕ → K)
    (h : ∀ d < 2, ideal d < ref d) (nsamples : ℕ) (s : S) (mu : K) :
    ∃ first second : List (K × K), first.length = nsamples / 2 ∧ first.length + second.length = nsamples ∧
      (∀ q ∈ first, ∃ x y, RngValue rng x ∧ RngValue rng y ∧ q = (-mu * lg x, y)) ∧
      (∀ q ∈ second, ∃ x y, RngValue rng x ∧ RngValue rng y ∧ q = (y, -mu * lg x)) ∧
      whvHypeExpo rng lg pts n ideal ref nsamples s mu =
        some ((ref 0 - ideal 0) * (ref 1 - ideal 1) * ((dominatedCount pts n ((first ++ second).map (inBox ideal ref)) : K) / (nsamples : K))) := by
  obtain ⟨l1, s1, h1, h1', h1''⟩ := expSamplesLoop_spec rng lg mu false hr (nsamples / 2) s
  obtain ⟨l2, s2, h2, h2', h2''⟩ := expSamplesLoop_spec rng lg mu true hr (nsamples - nsamples / 2) s1
  have hs : expSamples rng lg mu nsamples s = some (l1 ++ l2) := by
    unfold expSamples
    dsimp only
    rw [h1]
    dsimp only
    rw [h2]
  have hl : (l1 ++ l2).length = nsamples := by
    rw [List.length_append, h1', h2']; omega
  refine ⟨l1, l2, h1', by rw [← List.length_append]; exact hl, h1'', h2'', ?_⟩
  unfold whvHypeExpo
  rw [hs]
  dsimp only
  rw [C35_value pts n ideal ref h, hl]

/-- The assertion of the exponential distribution fails when the generator returns 0. -/
theorem C35_exponential_abort (rng : Rng S K) (lg : K → K) (pts : ℕ → ℕ → K) (n : ℕ) (ideal ref : ℕ → K) (s : S) (mu : K) (h0 : (rng.random s).1 = 0) :
    whvHypeExpo rng lg pts n ideal ref 2 s mu = none := by
  simp [whvHypeExpo, expSamples, expSamplesLoop, h0]

/-- **C35 (point).** With the distribution around a point `mu` every sample, placed in the box, has the form `mu + t * (ref - ideal)`: the two coordinates are fully correlated
(`rho = 1`), so that the samples lie on one line through `mu`, and the estimate is the area of the box times the fraction that is dominated. -/
theorem C35_point (rng : Rng S K) (sqrt : K → K) (hsqrt : sqrt 0 = 0) (pts : ℕ → ℕ → K) (n : ℕ) (ideal ref : ℕ → K)
    (h : ∀ d < 2, ideal d < ref d) (nsamples : ℕ) (s : S) (mu : ℕ → K) :
    ∃ places : List (K × K), places.length = nsamples ∧
      (∀ q ∈ places, ∃ t : K, q = (mu 0 + t * (ref 0 - ideal 0), mu 1 + t * (ref 1 - ideal 1))) ∧
      whvHypeGaus rng sqrt pts n ideal ref nsamples s mu = some ((ref 0 - ideal 0) * (ref 1 - ideal 1) * ((dominatedCount pts n places : K) / (nsamples : K))) := by
  have hsp : ∀ (m1 m2 : K) (k : ℕ) (s : S), (bivariateNormalFill rng sqrt m1 m2 (1 / 4) (1 / 4) 1 k s).length = k ∧
      ∀ q ∈ bivariateNormalFill rng sqrt m1 m2 (1 / 4) (1 / 4) 1 k s, ∃ t : K, q = (m1 + t, m2 + t) := by
    intro m1 m2 k
    induction k with
    | zero => intro s; exact ⟨rfl, by simp [bivariateNormalFill]⟩
    | succ k ih =>
      intro s
      unfold bivariateNormalFill
      dsimp only
      obtain ⟨i1, i2⟩ := ih (rng.normal (rng.normal s).2).2
      refine ⟨by rw [List.length_cons, i1], ?_⟩
      intro q hq
      rcases List.mem_cons.1 hq with rfl | hq
      · refine ⟨(rng.normal s).1 * (1 / 4), ?_⟩
        rw [mul_one, mul_one, sub_self, hsqrt, mul_zero, zero_mul, add_zero]
      · exact i2 q hq
  have hm : ∀ d < 2, normalise01 (fun _ => mu) 2 1 ideal ref 0 d = (mu d - ideal d) / (ref d - ideal d) :=
    fun d hd => normalise01_val (fun _ => mu) 1 ideal ref (by omega) hd (h d hd)
  obtain ⟨h1, h2⟩ := hsp ((mu 0 - ideal 0) / (ref 0 - ideal 0)) ((mu 1 - ideal 1) / (ref 1 - ideal 1)) nsamples s
  refine ⟨(bivariateNormalFill rng sqrt ((mu 0 - ideal 0) / (ref 0 - ideal 0)) ((mu 1 - ideal 1) / (ref 1 - ideal 1)) (1 / 4) (1 / 4) 1 nsamples s).map (inBox ideal ref),
    ?_, ?_, ?_⟩
  rotate_right
  · unfold whvHypeGaus gaussianSamples
    dsimp only
    rw [hm 0 (by omega), hm 1 (by omega), C35_value pts n ideal ref h, h1]
  · rw [List.length_map, h1]
  · intro q hq
    obtain ⟨u, hu, rfl⟩ := List.mem_map.1 hq
    obtain ⟨t, rfl⟩ := h2 u hu
    refine ⟨t, ?_⟩
    have e0 : ref 0 - ideal 0 ≠ 0 := sub_ne_zero.2 (h 0 (by omega)).ne'
    have e1 : ref 1 - ideal 1 ≠ 0 := sub_ne_zero.2 (h 1 (by omega)).ne'
    unfold inBox
    refine Prod.ext ?_ ?_
    · dsimp only; field_simp; ring
    · dsimp only; field_simp; ring

/-- The hypotheses are met: a generator with values in `(0, 1)`, a box and two points; one of the two samples is dominated. -/
example : ∃ rng : Rng ℕ ℚ, (∀ s, 0 < (rng.random s).1 ∧ 0 ≤ (rng.random s).1 ∧ (rng.random s).1 < 1) ∧
    (∀ d < 2, (fun _ : ℕ => (1 : ℚ)) d < (fun _ : ℕ => 3) d) ∧
    whvHypeUnif rng (fun _ _ => 2) 1 (fun _ => 1) (fun _ => 3) 2 0 = some 2 := by
  refine ⟨⟨fun s => (if s < 2 then 1 / 4 else 3 / 4, s + 1), fun s => (0, s)⟩, ?_, ?_, ?_⟩
  · intro s
    dsimp only
    split_ifs <;> norm_num
  · intro d _; norm_num
  · norm_num [whvHypeUnif, whvHypeSample, uniformSamples, estimateWhv, estimateWhvLoop, countDominators, addAlpha, isDominator, normalise01, normalise, normDiff,
      flipObjective, volumeBetween, List.range_succ]

/-- Specification: a point weakly dominates a sample when the objectives in `maximise` are maximised. -/
def SampleDominatedMax (maximise : ℕ → Bool) (pts : ℕ → ℕ → K) (n : ℕ) (s : K × K) : Prop :=
  ∃ j < n, (if maximise 0 then s.1 ≤ pts j 0 else pts j 0 ≤ s.1) ∧ (if maximise 1 then s.2 ≤ pts j 1 else pts j 1 ≤ s.2)

/-- **C49 (uniform, maximisation).** The Python function returns the area of the box between `ideal` and `ref` times the fraction of the samples of the box that are
dominated, with respect to the given directions. -/
theorem C49_uniform_maximise_partial (rng : Rng S K) (hr : ∀ s, 0 ≤ (rng.random s).1 ∧ (rng.random s).1 < 1) (pts : ℕ → ℕ → K) (n : ℕ) (ideal ref : ℕ → K) (maximise : ℕ → Bool)
    (h : ∀ d < 2, if maximise d then ref d < ideal d else ideal d < ref d) (nsamples : ℕ) (s : S) :
    ∃ (places : List (K × K)) (c : ℕ), places.length = nsamples ∧
      (∀ q ∈ places, (min (ideal 0) (ref 0) ≤ q.1 ∧ q.1 ≤ max (ideal 0) (ref 0)) ∧ (min (ideal 1) (ref 1) ≤ q.2 ∧ q.2 ≤ max (ideal 1) (ref 1))) ∧
      (∃ sub : List Bool, sub.length = nsamples ∧ sub.count true = c ∧ ∀ i (hi : i < places.length), sub[i]? = some true ↔ SampleDominatedMax maximise pts n places[i]) ∧
      pyWhvHypeUnif rng pts n ideal ref maximise nsamples s = some (|ref 0 - ideal 0| * |ref 1 - ideal 1| * ((c : K) / (nsamples : K))) := by
  classical
  have h' : ∀ d < 2, negMax maximise ideal d < negMax maximise ref d := by
    intro d hd
    have := h d hd
    unfold negMax
    split_ifs at this ⊢ with hm
    · exact neg_lt_neg this
    · exact this
  obtain ⟨pl, h1, h2, h3⟩ := C35_uniform rng hr (fun i => negMax maximise (pts i)) n (negMax maximise ideal) (negMax maximise ref) h' nsamples s
  have hback : ∀ q : K × K, SampleDominated (fun i => negMax maximise (pts i)) n q ↔
      SampleDominatedMax maximise pts n (if maximise 0 then -q.1 else q.1, if maximise 1 then -q.2 else q.2) := by
    intro q
    unfold SampleDominated SampleDominatedMax negMax
    refine exists_congr fun j => and_congr_right fun _ => and_congr ?_ ?_
    · beta_reduce
      rcases Bool.eq_false_or_eq_true (maximise 0) with hm | hm <;> simp only [hm, if_true, Bool.false_eq_true, if_false]
      constructor <;> intro h <;> linarith
    · beta_reduce
      rcases Bool.eq_false_or_eq_true (maximise 1) with hm | hm <;> simp only [hm, if_true, Bool.false_eq_true, if_false]
      constructor <;> intro h <;> linarith
  refine ⟨pl.map (fun q => (if maximise 0 then -q.1 else q.1, if maximise 1 then -q.2 else q.2)), dominatedCount (fun i => negMax maximise (pts i)) n pl, ?_, ?_, ?_, ?_⟩
  · rw [List.length_map, h1]
  · intro q hq
    obtain ⟨u, hu, rfl⟩ := List.mem_map.1 hq
    obtain ⟨⟨a, b⟩, c, d⟩ := h2 u hu
    have k0 := h 0 (by omega)
    have k1 := h 1 (by omega)
    unfold negMax at a b c d
    refine ⟨?_, ?_⟩
    · dsimp only
      split_ifs at a b k0 ⊢ with hm
      · rw [min_eq_right k0.le, max_eq_left k0.le]; exact ⟨by linarith, by linarith⟩
      · rw [min_eq_left k0.le, max_eq_right k0.le]; exact ⟨a, b.le⟩
    · dsimp only
      split_ifs at c d k1 ⊢ with hm
      · rw [min_eq_right k1.le, max_eq_left k1.le]; exact ⟨by linarith, by linarith⟩
      · rw [min_eq_left k1.le, max_eq_right k1.le]; exact ⟨c, d.le⟩
  · refine ⟨pl.map (fun q => decide (SampleDominated (fun i => negMax maximise (pts i)) n q)), by rw [List.length_map, h1], ?_, ?_⟩
    · unfold dominatedCount
      rw [List.count, List.countP_map]
      apply List.countP_congr
      intro q _
      simp
    · intro i hi
      rw [List.length_map] at hi
      rw [List.getElem?_map, List.getElem?_eq_getElem hi, List.getElem_map, ← hback]
      simp
  · unfold pyWhvHypeUnif
    rw [h3]
    have habs : ∀ d < 2, negMax maximise ref d - negMax maximise ideal d = |ref d - ideal d| := by
      intro d hd
      have := h d hd
      unfold negMax
      split_ifs at this ⊢ with hm
      · rw [abs_of_neg (by linarith)]; ring
      · rw [abs_of_pos (by linarith)]
    rw [habs 0 (by omega), habs 1 (by omega)]

/-- **C49 is false for `dist = "point"` with maximisation**: both objectives are maximised, the box is `[0, 4]²`, the only point is (1, 1) and all samples are drawn exactly at `mu = (2, 2)`
(the generator returns 0).  (2, 2) is not dominated by (1, 1), so the estimate should be 0, but the result is the whole area 16, because `mu` is not negated. -/
theorem C49_false_point_maximise :
    pyWhvHypePoint (S := Unit) ⟨fun _ => (1 / 2, ()), fun _ => (0, ())⟩ (fun _ => (0 : ℚ)) (fun _ _ => 1) 1 (fun _ => 4) (fun _ => 0) (fun _ => true) 1 () (fun _ => 2) = some 16 ∧
    ¬ SampleDominatedMax (fun _ => true) (fun _ _ => (1 : ℚ)) 1 (2, 2) := by
  constructor
  · norm_num [pyWhvHypePoint, whvHypeGaus, gaussianSamples, bivariateNormalFill, negMax, whvHypeSample, estimateWhv, estimateWhvLoop, countDominators, addAlpha, isDominator, normalise01,
      normalise, normDiff, flipObjective, volumeBetween, List.range_succ]
  · norm_num [SampleDominatedMax]

end Moo
