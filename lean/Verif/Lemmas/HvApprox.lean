import Verif.Model.HvApprox
import Verif.Spec.Hypervolume
import Verif.Lemmas.PolarGauss
import Mathlib.MeasureTheory.Constructions.BorelSpace.Order

/-! # Lemmas about `hv_approx` -/

set_option autoImplicit false

namespace Moo

open MeasureTheory

theorem lt_foldl_min (xs : List ℝ) (x t : ℝ) : t < xs.foldl min x ↔ t < x ∧ ∀ y ∈ xs, t < y := by
  induction xs generalizing x with
  | nil => simp
  | cons a as ih => simp [ih, and_assoc]

theorem lt_foldl_max (xs : List ℝ) (x t : ℝ) : t < xs.foldl max x ↔ t < x ∨ ∃ y ∈ xs, t < y := by
  induction xs generalizing x with
  | nil => simp
  | cons a as ih => simp [ih, or_assoc]

theorem npMin_ne_none {l : List ℝ} (h : l ≠ []) : ∃ v, npMin l = some v ∧ ∀ t, t < v ↔ ∀ y ∈ l, t < y := by
  cases l with
  | nil => exact absurd rfl h
  | cons x xs => exact ⟨_, rfl, fun t => by rw [lt_foldl_min]; simp⟩

theorem npMax_ne_none {l : List ℝ} (h : l ≠ []) : ∃ v, npMax l = some v ∧ ∀ t, t < v ↔ ∃ y ∈ l, t < y := by
  cases l with
  | nil => exact absurd rfl h
  | cons x xs => exact ⟨_, rfl, fun t => by rw [lt_foldl_max]; simp⟩

theorem mapM_some_eq {α β : Type*} (f : α → Option β) (g : α → β) (l : List α) (h : ∀ a ∈ l, f a = some (g a)) :
    l.mapM f = some (l.map g) := by
  induction l with
  | nil => rfl
  | cons a as ih =>
    rw [List.mapM_cons, h a (by simp), ih (fun b hb => h b (by simp [hb]))]; rfl

theorem mapM_none_of {α β : Type*} (f : α → Option β) (l : List α) (a : α) (ha : a ∈ l) (h : f a = none) : l.mapM f = none := by
  induction l with
  | nil => simp at ha
  | cons b bs ih =>
    rw [List.mapM_cons]
    rcases List.mem_cons.mp ha with e | e
    · subst e; rw [h]; rfl
    · rw [ih e]; cases f b <;> rfl

/-- The value of one sample: the largest `t` with `t w` below a row. -/
theorem hvaSample_spec (nobj : ℕ) (hn : 0 < nobj) (rows : List (ℕ → ℝ)) (hr : rows ≠ []) (z : ℕ → ℝ) (hz : ∀ k < nobj, z k ≠ 0) :
    ∃ v, hvaSample nobj rows z = some v ∧ ∀ t, t < v ↔ ∃ y ∈ rows, ∀ k < nobj, t < y k / hvaDir nobj z k := by
  have h0 : ((List.range nobj).any (fun k => decide (z k = 0))) = false := by
    rw [List.any_eq_false]; intro k hk; simpa using hz k (List.mem_range.mp hk)
  have hmin : ∀ y : ℕ → ℝ, ∃ v, npMin ((List.range nobj).map (fun k => y k / hvaDir nobj z k)) = some v ∧
      ∀ t, t < v ↔ ∀ k < nobj, t < y k / hvaDir nobj z k := by
    intro y
    obtain ⟨v, h1, h2⟩ := npMin_ne_none (l := (List.range nobj).map (fun k => y k / hvaDir nobj z k)) (by simp; omega)
    exact ⟨v, h1, fun t => by rw [h2]; simp⟩
  choose g hg1 hg2 using hmin
  obtain ⟨v, h1, h2⟩ := npMax_ne_none (l := rows.map g) (by simpa using hr)
  refine ⟨v, ?_, fun t => ?_⟩
  · unfold hvaSample
    rw [h0, mapM_some_eq _ g rows (fun y _ => hg1 y)]
    simpa using h1
  · rw [h2]; simp [hg2]

theorem hvaSample_congr (nobj : ℕ) (rows : List (ℕ → ℝ)) (z z' : ℕ → ℝ) (h : ∀ k < nobj, z k = z' k) :
    hvaSample nobj rows z = hvaSample nobj rows z' := by
  have h1 : ((List.range nobj).any (fun k => decide (z k = 0))) = ((List.range nobj).any (fun k => decide (z' k = 0))) := by
    rw [Bool.eq_iff_iff]; simp only [List.any_eq_true, List.mem_range, decide_eq_true_eq]
    constructor <;> rintro ⟨k, hk, e⟩ <;> exact ⟨k, hk, by rw [← e, h k hk]⟩
  have h2 : ∀ k < nobj, hvaDir nobj z k = hvaDir nobj z' k := by
    intro k hk
    unfold hvaDir
    rw [h k hk, List.map_congr_left (g := fun j => |z' j| ^ 2) (fun j hj => by rw [h j (List.mem_range.mp hj)])]
  unfold hvaSample
  rw [h1]
  have : (fun y : ℕ → ℝ => npMin ((List.range nobj).map (fun k => y k / hvaDir nobj z k)))
      = (fun y : ℕ → ℝ => npMin ((List.range nobj).map (fun k => y k / hvaDir nobj z' k))) := by
    funext y
    rw [List.map_congr_left (fun k hk => by rw [h2 k (List.mem_range.mp hk)])]
  rw [this]

/-- Extension of a vector with `m` entries by zeros. -/
noncomputable def extVec {m : ℕ} (z : Fin m → ℝ) (k : ℕ) : ℝ := if h : k < m then z ⟨k, h⟩ else 0

theorem extVec_fin {m : ℕ} (z : Fin m → ℝ) (k : Fin m) : extVec z k = z k := by simp [extVec]

theorem list_range_sum (m : ℕ) (f : ℕ → ℝ) : ((List.range m).map f).sum = ∑ j ∈ Finset.range m, f j := by
  simp [Finset.sum, Finset.range, Multiset.range]

theorem hvaDir_extVec {m : ℕ} (z : Fin m → ℝ) (k : Fin m) : hvaDir m (extVec z) k = |z k| / √(∑ j, z j ^ 2) := by
  unfold hvaDir
  rw [list_range_sum, Finset.sum_range, extVec_fin]
  simp [extVec_fin]

/-- The radius in the direction of `z`. -/
noncomputable def hvaRho (m : ℕ) (rows : List (ℕ → ℝ)) (z : Fin m → ℝ) : ℝ := (hvaSample m rows (extVec z)).getD 0

theorem hvaRho_zero {m : ℕ} (rows : List (ℕ → ℝ)) (z : Fin m → ℝ) (h : ∃ k, z k = 0) : hvaRho m rows z = 0 := by
  obtain ⟨k, hk⟩ := h
  unfold hvaRho hvaSample
  rw [if_pos]
  · rfl
  · rw [List.any_eq_true]; exact ⟨k, by simp, by simp [extVec_fin, hk]⟩

theorem lt_hvaRho {m : ℕ} (hm : 0 < m) (rows : List (ℕ → ℝ)) (hr : rows ≠ []) (z : Fin m → ℝ) (h : ∀ k, z k ≠ 0) (t : ℝ) :
    t < hvaRho m rows z ↔ ∃ y ∈ rows, ∀ k : Fin m, t < y k / (|z k| / √(∑ j, z j ^ 2)) := by
  obtain ⟨v, h1, h2⟩ := hvaSample_spec m hm rows hr (extVec z) (fun k hk => by simpa [extVec, hk] using h ⟨k, hk⟩)
  unfold hvaRho
  rw [h1, Option.getD_some, h2]
  constructor
  · rintro ⟨y, hy, H⟩; exact ⟨y, hy, fun k => by rw [← hvaDir_extVec]; exact H k k.2⟩
  · rintro ⟨y, hy, H⟩; exact ⟨y, hy, fun k hk => by have := H ⟨k, hk⟩; rw [← hvaDir_extVec] at this; exact this⟩

theorem sqrt_sum_sq_pos {m : ℕ} (hm : 0 < m) (z : Fin m → ℝ) (h : ∀ k, z k ≠ 0) : 0 < √(∑ j, z j ^ 2) := by
  apply Real.sqrt_pos.mpr
  have : Nonempty (Fin m) := ⟨⟨0, hm⟩⟩
  exact Finset.sum_pos (fun k _ => by have := h k; positivity) Finset.univ_nonempty

theorem measurable_hvaRho {m : ℕ} (hm : 0 < m) (rows : List (ℕ → ℝ)) (hr : rows ≠ []) : Measurable (hvaRho m rows) := by
  refine measurable_of_Ioi (fun t => ?_)
  have hset : (hvaRho m rows) ⁻¹' (Set.Ioi t) =
      ({z | ∃ k, z k = 0} ∩ {_z | t < 0}) ∪
      ({z | ∃ k, z k = 0}ᶜ ∩ ⋃ y ∈ {y | y ∈ rows}, ⋂ k : Fin m, {z : Fin m → ℝ | t < y k / (|z k| / √(∑ j, z j ^ 2))}) := by
    ext z
    by_cases hz : ∃ k, z k = 0
    · simp [hvaRho_zero rows z hz, hz]
    · have hz' : ∀ k, z k ≠ 0 := by simpa using hz
      simp only [Set.mem_preimage, Set.mem_Ioi, lt_hvaRho hm rows hr z hz', Set.mem_union, Set.mem_inter_iff, Set.mem_ofPred_eq, hz,
        false_and, Set.mem_compl_iff, not_false_eq_true, true_and, false_or, Set.mem_iUnion, Set.mem_iInter, exists_prop]
  rw [hset]
  have hz : MeasurableSet {z : Fin m → ℝ | ∃ k, z k = 0} := by
    have : {z : Fin m → ℝ | ∃ k, z k = 0} = ⋃ k, {z | z k = 0} := by ext z; simp
    rw [this]
    exact MeasurableSet.iUnion (fun k => measurableSet_eq_fun (measurable_pi_apply k) measurable_const)
  refine (hz.inter (MeasurableSet.const _)).union (hz.compl.inter ?_)
  refine MeasurableSet.biUnion (List.finite_toSet rows).countable (fun y _ => MeasurableSet.iInter (fun k => ?_))
  exact measurableSet_lt measurable_const (by fun_prop)

theorem hvaRho_nonneg {m : ℕ} (hm : 0 < m) (rows : List (ℕ → ℝ)) (hr : rows ≠ []) (hpos : ∀ y ∈ rows, ∀ k < m, 0 < y k)
    (z : Fin m → ℝ) : 0 ≤ hvaRho m rows z := by
  by_cases hz : ∃ k, z k = 0
  · rw [hvaRho_zero rows z hz]
  · have hz' : ∀ k, z k ≠ 0 := by simpa using hz
    refine le_of_lt ((lt_hvaRho hm rows hr z hz' 0).mpr ?_)
    obtain ⟨y, hy⟩ := List.exists_mem_of_ne_nil _ hr
    have hs := sqrt_sum_sq_pos hm z hz'
    exact ⟨y, hy, fun k => div_pos (hpos y hy k k.2) (div_pos (abs_pos.mpr (hz' k)) hs)⟩

theorem hvaRho_smul {m : ℕ} (hm : 0 < m) (rows : List (ℕ → ℝ)) (hr : rows ≠ []) (r : ℝ) (z : Fin m → ℝ) (h : 0 < r) :
    hvaRho m rows (r • z) = hvaRho m rows z := by
  by_cases hz : ∃ k, z k = 0
  · have : ∃ k, (r • z) k = 0 := by obtain ⟨k, hk⟩ := hz; exact ⟨k, by simp [hk]⟩
    rw [hvaRho_zero rows z hz, hvaRho_zero rows _ this]
  · have hz' : ∀ k, z k ≠ 0 := by simpa using hz
    have hz2 : ∀ k, (r • z) k ≠ 0 := fun k => by simp [h.ne', hz' k]
    have hs := sqrt_sum_sq_pos hm z hz'
    have e : √(∑ j, (r • z) j ^ 2) = r * √(∑ j, z j ^ 2) := by
      simp only [Pi.smul_apply, smul_eq_mul, mul_pow, ← Finset.mul_sum]
      rw [Real.sqrt_mul (sq_nonneg r), Real.sqrt_sq h.le]
    refine eq_of_forall_lt_iff (fun t => ?_)
    rw [lt_hvaRho hm rows hr _ hz2, lt_hvaRho hm rows hr _ hz', e]
    have : ∀ k, |(r • z) k| / (r * √(∑ j, z j ^ 2)) = |z k| / √(∑ j, z j ^ 2) := by
      intro k
      simp only [Pi.smul_apply, smul_eq_mul, abs_mul, abs_of_pos h]
      field_simp
    simp only [this]

/-- Up to a null set, the star-shaped set is the reflected union of the boxes. -/
theorem hvaRho_star {m : ℕ} (hm : 0 < m) (rows : List (ℕ → ℝ)) (hr : rows ≠ []) :
    volume {x : Fin m → ℝ | √(∑ k, x k ^ 2) < hvaRho m rows x} =
      2 ^ m * volume ({y : Fin m → ℝ | ∃ r ∈ rows, ∀ k : Fin m, y k < r k} ∩ Set.univ.pi (fun _ => Set.Ici (0 : ℝ))) := by
  have hD : MeasurableSet {y : Fin m → ℝ | ∃ r ∈ rows, ∀ k : Fin m, y k < r k} := by
    have : {y : Fin m → ℝ | ∃ r ∈ rows, ∀ k : Fin m, y k < r k} = ⋃ r ∈ {r | r ∈ rows}, ⋂ k : Fin m, {y | y k < r k} := by
      ext y; simp
    rw [this]
    exact MeasurableSet.biUnion (List.finite_toSet rows).countable (fun y _ => MeasurableSet.iInter (fun k =>
      measurableSet_lt (measurable_pi_apply k) measurable_const))
  rw [← volume_abs_preimage m _ hD]
  refine measure_congr ?_
  have hne : ∀ᵐ x : Fin m → ℝ, ∀ k, x k ≠ 0 := ae_all_iff.mpr (fun k => Measure.ae_eval_ne (μ := fun _ : Fin m => (volume : Measure ℝ)) k 0)
  filter_upwards [hne] with x hx
  have hs := sqrt_sum_sq_pos hm x hx
  refine propext ?_
  show √(∑ k, x k ^ 2) < hvaRho m rows x ↔ ∃ r ∈ rows, ∀ k : Fin m, |x k| < r k
  rw [lt_hvaRho hm rows hr x hx]
  refine exists_congr (fun y => and_congr_right (fun _ => forall_congr' (fun k => ?_)))
  have hk := abs_pos.mpr (hx k)
  rw [lt_div_iff₀ (div_pos hk hs), mul_div_assoc', mul_comm, mul_div_assoc, div_self hs.ne', mul_one]

theorem mem_hvaRows (data : ℕ → ℕ → ℝ) (nobj n : ℕ) (ref : ℕ → ℝ) (maximise : ℕ → Bool) (y : ℕ → ℝ) :
    y ∈ hvaRows data nobj n ref maximise ↔ (∃ i < n, y = hvaShift maximise ref (data i)) ∧ ∀ k < nobj, 0 < y k := by
  unfold hvaRows
  rw [List.mem_filter, List.mem_map, List.all_eq_true]
  refine and_congr ⟨?_, ?_⟩ (by simp)
  · rintro ⟨i, hi, rfl⟩; exact ⟨i, List.mem_range.mp hi, rfl⟩
  · rintro ⟨i, hi, rfl⟩; exact ⟨i, List.mem_range.mpr hi, rfl⟩

theorem hvaShift_eq (maximise : ℕ → Bool) (ref p : ℕ → ℝ) (k : ℕ) :
    hvaShift maximise ref p k = (if maximise k then -ref k else ref k) - (if maximise k then -p k else p k) := by
  unfold hvaShift; split <;> ring

/-- The volume of the boxes seen from the reference point is the hypervolume. -/
theorem hvaRows_volume (data : ℕ → ℕ → ℝ) (nobj n : ℕ) (ref : ℕ → ℝ) (maximise : ℕ → Bool) :
    volume ({y : Fin nobj → ℝ | ∃ r ∈ hvaRows data nobj n ref maximise, ∀ k : Fin nobj, y k < r k} ∩ Set.univ.pi (fun _ => Set.Ici (0 : ℝ)))
      = volume (dominatedRegion nobj n (fun i k => if maximise k then -data i k else data i k) (fun k => if maximise k then -ref k else ref k)) := by
  set sd : ℕ → ℕ → ℝ := fun i k => if maximise k then -data i k else data i k with hsd
  set sr : ℕ → ℝ := fun k => if maximise k then -ref k else ref k with hsr
  have hshift : ∀ i k, hvaShift maximise ref (data i) k = sr k - sd i k := fun i k => hvaShift_eq _ _ _ _
  have hmp := Measure.measurePreserving_sub_left (volume : Measure (Fin nobj → ℝ)) (fun k : Fin nobj => sr k)
  have hmeas : MeasurableSet (dominatedRegion nobj n sd sr) := by
    have : dominatedRegion nobj n sd sr =
        (⋃ i ∈ {i | i < n}, ⋂ k : Fin nobj, {y : Fin nobj → ℝ | sd i k ≤ y k}) ∩ ⋂ k : Fin nobj, {y : Fin nobj → ℝ | y k ≤ sr k} := by
      ext y; simp [dominatedRegion]
    rw [this]
    refine MeasurableSet.inter (MeasurableSet.biUnion (Set.to_countable _) (fun i _ => MeasurableSet.iInter (fun k => ?_)))
      (MeasurableSet.iInter (fun k => ?_))
    · exact measurableSet_le measurable_const (measurable_pi_apply k)
    · exact measurableSet_le (measurable_pi_apply k) measurable_const
  rw [← hmp.measure_preimage hmeas.nullMeasurableSet]
  refine measure_congr ?_
  have hne : ∀ᵐ y : Fin nobj → ℝ, ∀ k, y k ≠ 0 ∧ ∀ i, y k ≠ sr k - sd i k := by
    refine ae_all_iff.mpr (fun k => (Measure.ae_eval_ne (μ := fun _ : Fin nobj => (volume : Measure ℝ)) k 0).and (ae_all_iff.mpr (fun i => ?_)))
    exact Measure.ae_eval_ne (μ := fun _ : Fin nobj => (volume : Measure ℝ)) k _
  filter_upwards [hne] with y hy
  refine propext ?_
  show ((∃ r ∈ hvaRows data nobj n ref maximise, ∀ k : Fin nobj, y k < r k) ∧ y ∈ Set.univ.pi (fun _ => Set.Ici (0 : ℝ))) ↔
    (∃ i < n, ∀ k : Fin nobj, sd i k ≤ sr k - y k) ∧ ∀ k : Fin nobj, sr k - y k ≤ sr k
  simp only [Set.mem_univ_pi, Set.mem_Ici]
  constructor
  · rintro ⟨⟨r, hr, h1⟩, h2⟩
    rw [mem_hvaRows] at hr
    obtain ⟨⟨i, hi, rfl⟩, _⟩ := hr
    refine ⟨⟨i, hi, fun k => ?_⟩, fun k => by linarith [h2 k]⟩
    have := h1 k
    rw [hshift] at this; linarith
  · rintro ⟨⟨i, hi, h1⟩, h2⟩
    have h0 : ∀ k : Fin nobj, 0 ≤ y k := fun k => by linarith [h2 k]
    have h3 : ∀ k : Fin nobj, y k < sr k - sd i k := fun k => lt_of_le_of_ne (by linarith [h1 k]) ((hy k).2 i)
    refine ⟨⟨_, (mem_hvaRows data nobj n ref maximise _).mpr ⟨⟨i, hi, rfl⟩, fun k hk => ?_⟩, fun k => by rw [hshift]; exact h3 k⟩, h0⟩
    rw [hshift]
    exact lt_of_le_of_lt (h0 ⟨k, hk⟩) (h3 ⟨k, hk⟩)

theorem dominatedRegion_lt_top (d n : ℕ) (pts : ℕ → ℕ → ℝ) (ref : ℕ → ℝ) : volume (dominatedRegion d n pts ref) < ⊤ := by
  have hsub : dominatedRegion d n pts ref ⊆ ⋃ i ∈ Finset.range n, Set.Icc (fun k : Fin d => pts i k) (fun k : Fin d => ref k) := by
    rintro y ⟨⟨i, hi, h1⟩, h2⟩
    simp only [Set.mem_iUnion]
    exact ⟨i, Finset.mem_range.mpr hi, fun k => h1 k, fun k => h2 k⟩
  refine lt_of_le_of_lt (measure_mono hsub) ?_
  exact measure_biUnion_lt_top (Finset.finite_toSet _) (fun i _ => isCompact_Icc.measure_lt_top)

theorem hvaConst_eq (m : ℕ) : hvaConst m * 2 ^ m = √Real.pi ^ m / Real.Gamma ((m : ℝ) / 2 + 1) := by
  unfold hvaConst
  have h : Real.pi ^ ((m : ℝ) / 2) = √Real.pi ^ m := by
    rw [Real.sqrt_eq_rpow, ← Real.rpow_natCast, ← Real.rpow_mul Real.pi_pos.le]
    congr 1; ring
  have hG : 0 < Real.Gamma ((m : ℝ) / 2 + 1) := Real.Gamma_pos_of_pos (by positivity)
  rw [h]; field_simp

theorem hvaConst_pos (m : ℕ) : 0 < hvaConst m := by
  unfold hvaConst
  have hG : 0 < Real.Gamma ((m : ℝ) / 2 + 1) := Real.Gamma_pos_of_pos (by positivity)
  have := Real.pi_pos
  positivity

/-- The mean of one sample. -/
theorem hvaRho_mean (data : ℕ → ℕ → ℝ) (nobj n : ℕ) (hm : 0 < nobj) (ref : ℕ → ℝ) (maximise : ℕ → Bool)
    (hr : hvaRows data nobj n ref maximise ≠ []) :
    Integrable (fun z => hvaRho nobj (hvaRows data nobj n ref maximise) z ^ nobj) (stdNormal nobj) ∧
    hvaConst nobj * ∫ z, hvaRho nobj (hvaRows data nobj n ref maximise) z ^ nobj ∂(stdNormal nobj) =
      vol (dominatedRegion nobj n (fun i k => if maximise k then -data i k else data i k) (fun k => if maximise k then -ref k else ref k)) := by
  set rows := hvaRows data nobj n ref maximise with hrows
  set V := volume (dominatedRegion nobj n (fun i k => if maximise k then -data i k else data i k)
    (fun k => if maximise k then -ref k else ref k)) with hV
  have hpos : ∀ y ∈ rows, ∀ k < nobj, 0 < y k := fun y hy => ((mem_hvaRows _ _ _ _ _ _).mp hy).2
  have hmeas := measurable_hvaRho hm rows hr
  have h0 := hvaRho_nonneg hm rows hr hpos
  have key := volume_star_normal nobj hm (hvaRho nobj rows) hmeas h0 (fun r x h => hvaRho_smul hm rows hr r x h)
  rw [hvaRho_star hm rows hr, hvaRows_volume, ← hV, ← hvaConst_eq] at key
  set L := ∫⁻ z, ENNReal.ofReal (hvaRho nobj rows z) ^ nobj ∂(stdNormal nobj) with hL
  have hVt : V ≠ ⊤ := (dominatedRegion_lt_top _ _ _ _).ne
  have hc := hvaConst_pos nobj
  have hLt : L ≠ ⊤ := by
    intro h
    rw [h, ENNReal.mul_top (by rw [ne_eq, ENNReal.ofReal_eq_zero]; push Not; positivity)] at key
    exact absurd key (ENNReal.mul_ne_top (by finiteness) hVt)
  have hLe : L = ∫⁻ z, ENNReal.ofReal (hvaRho nobj rows z ^ nobj) ∂(stdNormal nobj) := by
    rw [hL]; exact lintegral_congr (fun z => (ENNReal.ofReal_pow (h0 z) nobj).symm)
  have hint : Integrable (fun z => hvaRho nobj rows z ^ nobj) (stdNormal nobj) := by
    refine ⟨(hmeas.pow_const _).aestronglyMeasurable, ?_⟩
    rw [hasFiniteIntegral_iff_ofReal (Filter.Eventually.of_forall (fun z => pow_nonneg (h0 z) _)), ← hLe]
    exact lt_top_iff_ne_top.mpr hLt
  refine ⟨hint, ?_⟩
  rw [integral_eq_lintegral_of_nonneg_ae (Filter.Eventually.of_forall (fun z => pow_nonneg (h0 z) _)) (hmeas.pow_const _).aestronglyMeasurable,
    ← hLe]
  have h2 := congrArg ENNReal.toReal key
  rw [ENNReal.toReal_mul, ENNReal.toReal_mul, ENNReal.toReal_ofReal (by positivity)] at h2
  have h3 : ((2 : ENNReal) ^ nobj).toReal = (2 : ℝ) ^ nobj := by simp
  rw [h3] at h2
  have h4 : (2 : ℝ) ^ nobj ≠ 0 := by positivity
  unfold vol
  rw [← hV]
  apply mul_left_cancel₀ h4
  rw [h2]; ring

/-- Mirroring some objectives does not change the volume of a set. -/
theorem volume_mirror (d : ℕ) (mx : ℕ → Bool) (S : Set (Fin d → ℝ)) :
    volume {y : Fin d → ℝ | (fun k : Fin d => if mx k then -y k else y k) ∈ S} = volume S := by
  have hf : ∀ k : Fin d, MeasurePreserving (fun x : ℝ => if mx k then -x else x) volume volume := by
    intro k
    by_cases h : mx k
    · simp only [h, if_true]; exact Measure.measurePreserving_neg volume
    · simp only [h]; exact MeasurePreserving.id volume
  have hmp := volume_preserving_pi hf
  have he : MeasurableEmbedding (fun (x : Fin d → ℝ) (k : Fin d) => if mx k then -x k else x k) := by
    have hinv : Function.Involutive (fun (x : Fin d → ℝ) (k : Fin d) => if mx k then -x k else x k) := by
      intro x; funext k; simp only; split <;> simp
    have := (MeasurableEquiv.ofInvolutive _ hinv hmp.measurable).measurableEmbedding
    exact this
  exact hmp.measure_preimage_emb he S

/-- Mirroring the maximised objectives does not change the volume. -/
theorem vol_dominatedRegionMx (d n : ℕ) (mx : ℕ → Bool) (pts : ℕ → ℕ → ℝ) (ref : ℕ → ℝ) :
    vol (dominatedRegionMx d n mx pts ref) =
      vol (dominatedRegion d n (fun i k => if mx k then -pts i k else pts i k) (fun k => if mx k then -ref k else ref k)) := by
  unfold vol
  rw [← volume_mirror d mx (dominatedRegionMx d n mx pts ref)]
  congr 2
  ext y
  simp only [dominatedRegionMx, dominatedRegion, Set.mem_ofPred_eq, AtLeastAsGood]
  refine and_congr (exists_congr (fun i => and_congr_right (fun _ => forall_congr' (fun k => ?_)))) (forall_congr' (fun k => ?_))
  · by_cases h : mx k
    · simp only [h, if_true]; exact neg_le
    · simp [h]
  · by_cases h : mx k
    · simp only [h, if_true]; exact le_neg
    · simp [h]

end Moo
