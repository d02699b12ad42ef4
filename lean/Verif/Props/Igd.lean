import Verif.Lemmas.Igd
import Verif.Spec.Sets
import Mathlib.Tactic.NormNum

set_option autoImplicit false

/-!
# Properties of IGD, GD, IGD+ and the averaged Hausdorff distance (`c/igd.h`)

Exact real arithmetic. `IsNearest f A n m`: `m` is the least of `f (A 0), ..., f (A (n-1))`.
-/

namespace Moo

theorem sqrt_gdDist_euclid (dim : ℕ) (mx : ℕ → Bool) (pa pr : ℕ → ℝ) :
    Real.sqrt (gdDist dim (minmaxFromBool mx) false pa pr) = euclid dim pa pr := by
  unfold euclid
  rw [gdDist_eq]
  congr 1
  refine Finset.sum_congr rfl fun d _ => ?_
  have : minmaxFromBool mx d ≠ 0 := by
    unfold minmaxFromBool AGREE_MAXIMISE AGREE_MINIMISE; split <;> omega
  rw [if_neg this]
  simp only [gdDiff, Bool.not_false, if_true]
  ring

theorem sqrt_gdDist_plus (dim : ℕ) (mx : ℕ → Bool) (pr pa : ℕ → ℝ) :
    Real.sqrt (gdDist dim (minmaxFromBool mx) true pr pa) = distPlus dim mx pa pr := by
  unfold distPlus
  rw [gdDist_eq]
  congr 1
  refine Finset.sum_congr rfl fun d _ => ?_
  unfold minmaxFromBool AGREE_MAXIMISE AGREE_MINIMISE lack gdDiff
  rcases Bool.eq_false_or_eq_true (mx d) with h | h <;> simp [h, cMax_eq]

theorem euclid_comm (dim : ℕ) (p q : ℕ → ℝ) : euclid dim p q = euclid dim q p := by
  unfold euclid; congr 1; exact Finset.sum_congr rfl fun d _ => by ring

/-- **C20 (IGD).** `IGD(A, R)` is the mean over the rows of `R` of the Euclidean distance to the nearest row of `A`. -/
theorem C20_igd_mean_nearest (A R : ℕ → ℕ → ℝ) (nobj nA nR : ℕ) (mx : ℕ → Bool) (hA : 0 < nA) (hR : 0 < nR) :
    ∃ m : ℕ → ℝ, (∀ r < nR, IsNearest (fun a => euclid nobj a (R r)) A nA (m r)) ∧
      igd A nobj nA R nR mx = (((∑ r ∈ Finset.range nR, m r) / nR : ℝ) : WithTop ℝ) := by
  obtain ⟨m, h, e⟩ := gdCommon_spec nobj (minmaxFromBool mx) R nR A nA false false 1 hR hA
  refine ⟨m, fun r _ => ?_, by simpa [igd, igdMinmax] using e⟩
  have := h r
  simp only [sqrt_gdDist_euclid] at this
  simp only [euclid_comm nobj (R r)] at this
  exact this

/-- **C20 (GD).** `GD(A, R)` is the mean over the rows of `A` of the distance to the nearest row of `R`. -/
theorem C20_gd_mean_nearest (A R : ℕ → ℕ → ℝ) (nobj nA nR : ℕ) (mx : ℕ → Bool) (hA : 0 < nA) (hR : 0 < nR) :
    ∃ m : ℕ → ℝ, (∀ a < nA, IsNearest (fun r => euclid nobj (A a) r) R nR (m a)) ∧
      gdMinmax nobj (minmaxFromBool mx) A nA R nR = (((∑ a ∈ Finset.range nA, m a) / nA : ℝ) : WithTop ℝ) := by
  obtain ⟨m, h, e⟩ := gdCommon_spec nobj (minmaxFromBool mx) A nA R nR false false 1 hA hR
  refine ⟨m, fun a _ => ?_, by simpa [gdMinmax] using e⟩
  have := h a
  simp only [sqrt_gdDist_euclid] at this
  exact this

/-- **C20 (averaged Hausdorff).** For every `p ≥ 1` the result is the larger of the two `p`-averages of nearest
distances. -/
theorem C20_avg_hausdorff (A R : ℕ → ℕ → ℝ) (nobj nA nR p : ℕ) (mx : ℕ → Bool) (hA : 0 < nA) (hR : 0 < nR)
    (hp : 1 ≤ p) :
    ∃ mA mR : ℕ → ℝ,
      (∀ a < nA, IsNearest (fun r => euclid nobj (A a) r) R nR (mA a)) ∧
      (∀ r < nR, IsNearest (fun a => euclid nobj a (R r)) A nA (mR r)) ∧
      avgHausdorffDist A nobj nA R nR mx p =
        ((max (((∑ a ∈ Finset.range nA, mA a ^ p) / nA) ^ ((1 : ℝ) / p))
              (((∑ r ∈ Finset.range nR, mR r ^ p) / nR) ^ ((1 : ℝ) / p)) : ℝ) : WithTop ℝ) := by
  obtain ⟨mA, h1, e1⟩ := gdCommon_spec nobj (minmaxFromBool mx) A nA R nR false true p hA hR
  obtain ⟨mR, h2, e2⟩ := gdCommon_spec nobj (minmaxFromBool mx) R nR A nA false true p hR hA
  refine ⟨mA, mR, fun a _ => ?_, fun r _ => ?_, ?_⟩
  · have := h1 a
    simp only [sqrt_gdDist_euclid] at this
    exact this
  · have := h2 r
    simp only [sqrt_gdDist_euclid] at this
    simp only [euclid_comm nobj (R r)] at this
    exact this
  · unfold avgHausdorffDist avgHausdorffMinmax
    rw [e1, e2, cMax_eq]
    by_cases hp1 : p = 1
    · subst hp1
      simp only [if_true, pow_one, Nat.cast_one, div_one, Real.rpow_one]
      norm_cast
    · simp only [hp1, if_false, if_true]
      norm_cast

/-- **C20 (symmetry).** -/
theorem C20_avg_hausdorff_symm (A R : ℕ → ℕ → ℝ) (nobj nA nR p : ℕ) (mx : ℕ → Bool) :
    avgHausdorffDist A nobj nA R nR mx p = avgHausdorffDist R nobj nR A nA mx p := by
  unfold avgHausdorffDist avgHausdorffMinmax
  rw [cMax_eq, cMax_eq, max_comm]

theorem euclid_eq_zero (dim : ℕ) (p q : ℕ → ℝ) : euclid dim p q = 0 ↔ SameVec dim p q := by
  unfold euclid SameVec
  rw [Real.sqrt_eq_zero (Finset.sum_nonneg fun d _ => sq_nonneg _),
    Finset.sum_eq_zero_iff_of_nonneg (fun d _ => sq_nonneg _)]
  simp [sub_eq_zero]

theorem IsNearest.nonneg {f : (ℕ → ℝ) → ℝ} {A : ℕ → ℕ → ℝ} {n : ℕ} {m : ℝ} (h : IsNearest f A n m)
    (hf : ∀ p, 0 ≤ f p) : 0 ≤ m := by
  obtain ⟨⟨a, _, e⟩, _⟩ := h; rw [e]; exact hf _

theorem IsNearest.eq_zero_iff {f : (ℕ → ℝ) → ℝ} {A : ℕ → ℕ → ℝ} {n : ℕ} {m : ℝ} (h : IsNearest f A n m)
    (hf : ∀ p, 0 ≤ f p) : m = 0 ↔ ∃ a < n, f (A a) = 0 := by
  obtain ⟨⟨a, ha, e⟩, h2⟩ := h
  constructor
  · intro hm; exact ⟨a, ha, by rw [← e, hm]⟩
  · rintro ⟨b, hb, hz⟩
    exact le_antisymm (hz ▸ h2 b hb) (e ▸ hf _)

theorem mean_eq_zero_iff (n : ℕ) (hn : 0 < n) (m : ℕ → ℝ) (hm : ∀ r < n, 0 ≤ m r) :
    (∑ r ∈ Finset.range n, m r) / n = 0 ↔ ∀ r < n, m r = 0 := by
  have : (n : ℝ) ≠ 0 := by positivity
  rw [div_eq_zero_iff, or_iff_left this,
    Finset.sum_eq_zero_iff_of_nonneg (fun d hd => hm d (Finset.mem_range.1 hd))]
  simp

/-- **C20.** IGD is never negative, and 0 iff every reference row occurs in `A`. -/
theorem C20_igd_nonneg_zero_iff (A R : ℕ → ℕ → ℝ) (nobj nA nR : ℕ) (mx : ℕ → Bool) (hA : 0 < nA) (hR : 0 < nR) :
    0 ≤ igd A nobj nA R nR mx ∧
    (igd A nobj nA R nR mx = 0 ↔ ∀ r < nR, ∃ a < nA, SameVec nobj (A a) (R r)) := by
  obtain ⟨m, h, e⟩ := C20_igd_mean_nearest A R nobj nA nR mx hA hR
  have hm : ∀ r < nR, 0 ≤ m r := fun r hr => (h r hr).nonneg fun _ => Real.sqrt_nonneg _
  rw [e]
  constructor
  · have : 0 ≤ (∑ r ∈ Finset.range nR, m r) / nR :=
      div_nonneg (Finset.sum_nonneg fun r hr => hm r (Finset.mem_range.1 hr)) (Nat.cast_nonneg _)
    exact_mod_cast this
  · rw [show ((((∑ r ∈ Finset.range nR, m r) / nR : ℝ) : WithTop ℝ) = 0 ↔
      (∑ r ∈ Finset.range nR, m r) / nR = 0) by norm_cast, mean_eq_zero_iff nR hR m hm]
    refine forall_congr' fun r => forall_congr' fun hr => ?_
    rw [(h r hr).eq_zero_iff fun _ => Real.sqrt_nonneg _]
    simp only [euclid_eq_zero]

/-- **C21 (value).** `IGD_plus(A, R)` is the mean over the rows of `R` of the least modified distance. -/
theorem C21_igd_plus_mean_nearest (A R : ℕ → ℕ → ℝ) (nobj nA nR : ℕ) (mx : ℕ → Bool) (hA : 0 < nA) (hR : 0 < nR) :
    ∃ m : ℕ → ℝ, (∀ r < nR, IsNearest (fun a => distPlus nobj mx a (R r)) A nA (m r)) ∧
      igdPlus A nobj nA R nR mx = (((∑ r ∈ Finset.range nR, m r) / nR : ℝ) : WithTop ℝ) := by
  obtain ⟨m, h, e⟩ := gdCommon_spec nobj (minmaxFromBool mx) R nR A nA true true 1 hR hA
  refine ⟨m, fun r _ => ?_, by simpa [igdPlus, igdPlusMinmax] using e⟩
  have := h r
  simp only [sqrt_gdDist_plus] at this
  exact this

theorem lack_nonneg (mx : Bool) (a r : ℝ) : 0 ≤ lack mx a r := by
  unfold lack; split <;> exact le_max_right _ _

theorem lack_eq_zero (mx : Bool) (a r : ℝ) : lack mx a r = 0 ↔ AtLeastAsGood mx a r := by
  unfold lack AtLeastAsGood
  cases mx <;> simp

theorem lack_mono (mx : Bool) {a b : ℝ} (r : ℝ) (h : AtLeastAsGood mx a b) : lack mx a r ≤ lack mx b r := by
  unfold lack; unfold AtLeastAsGood at h
  cases mx
  · exact max_le_max (by simp only [Bool.false_eq_true, if_false] at h; linarith) le_rfl
  · exact max_le_max (by simp only [if_true] at h; linarith) le_rfl

theorem distPlus_eq_zero (dim : ℕ) (mx : ℕ → Bool) (a r : ℕ → ℝ) :
    distPlus dim mx a r = 0 ↔ WeakDom dim mx a r := by
  unfold distPlus WeakDom
  rw [Real.sqrt_eq_zero (Finset.sum_nonneg fun d _ => sq_nonneg _),
    Finset.sum_eq_zero_iff_of_nonneg (fun d _ => sq_nonneg _)]
  simp [lack_eq_zero]

theorem distPlus_mono (dim : ℕ) (mx : ℕ → Bool) {a b : ℕ → ℝ} (r : ℕ → ℝ) (h : WeakDom dim mx a b) :
    distPlus dim mx a r ≤ distPlus dim mx b r := by
  unfold distPlus
  refine Real.sqrt_le_sqrt (Finset.sum_le_sum fun d hd => ?_)
  exact pow_le_pow_left₀ (lack_nonneg _ _ _) (lack_mono _ _ (h d (Finset.mem_range.1 hd))) 2

/-- **C21.** IGD+ is weakly Pareto-compliant: if `A` weakly dominates `B` as a set then `A` has no larger IGD+. -/
theorem C21_igd_plus_compliant (A B R : ℕ → ℕ → ℝ) (nobj nA nB nR : ℕ) (mx : ℕ → Bool)
    (hA : 0 < nA) (hB : 0 < nB) (hR : 0 < nR) (h : SetWeakDom nobj mx A nA B nB) :
    igdPlus A nobj nA R nR mx ≤ igdPlus B nobj nB R nR mx := by
  obtain ⟨m, h1, e1⟩ := C21_igd_plus_mean_nearest A R nobj nA nR mx hA hR
  obtain ⟨m', h2, e2⟩ := C21_igd_plus_mean_nearest B R nobj nB nR mx hB hR
  rw [e1, e2]
  have : (∑ r ∈ Finset.range nR, m r) / nR ≤ (∑ r ∈ Finset.range nR, m' r) / nR := by
    refine div_le_div_of_nonneg_right (Finset.sum_le_sum fun r hr => ?_) (Nat.cast_nonneg _)
    have hr' := Finset.mem_range.1 hr
    obtain ⟨⟨b, hb, e⟩, _⟩ := h2 r hr'
    obtain ⟨a, ha, hw⟩ := h b hb
    rw [e]
    exact ((h1 r hr').2 a ha).trans (distPlus_mono nobj mx (R r) hw)
  exact_mod_cast this

/-- **C21.** IGD+ is 0 iff every reference row is weakly dominated by a row of `A`. -/
theorem C21_igd_plus_zero_iff (A R : ℕ → ℕ → ℝ) (nobj nA nR : ℕ) (mx : ℕ → Bool) (hA : 0 < nA) (hR : 0 < nR) :
    igdPlus A nobj nA R nR mx = 0 ↔ SetWeakDom nobj mx A nA R nR := by
  obtain ⟨m, h, e⟩ := C21_igd_plus_mean_nearest A R nobj nA nR mx hA hR
  have hm : ∀ r < nR, 0 ≤ m r := fun r hr => (h r hr).nonneg fun _ => Real.sqrt_nonneg _
  rw [e, show ((((∑ r ∈ Finset.range nR, m r) / nR : ℝ) : WithTop ℝ) = 0 ↔
      (∑ r ∈ Finset.range nR, m r) / nR = 0) by norm_cast, mean_eq_zero_iff nR hR m hm]
  unfold SetWeakDom
  refine forall_congr' fun r => forall_congr' fun hr => ?_
  rw [(h r hr).eq_zero_iff fun _ => Real.sqrt_nonneg _]
  simp only [distPlus_eq_zero]

/-- An empty set of points: IGD and GD are infinite. -/
theorem C20_igd_empty (A R : ℕ → ℕ → ℝ) (nobj nA : ℕ) (mx : ℕ → Bool) :
    igd A nobj nA R 0 mx = ⊤ ∧ gdMinmax nobj (minmaxFromBool mx) A 0 R nA = ⊤ := ⟨rfl, rfl⟩

/-- Non-vacuity: a set that weakly dominates another one without being equal, with a mixed direction vector. -/
example : ∃ (A B : ℕ → ℕ → ℝ) (mx : ℕ → Bool), SetWeakDom 2 mx A 2 B 3 ∧ ¬ SetWeakDom 2 mx B 3 A 2 := by
  refine ⟨fun i _ => i, fun i d => if d = 1 then (i : ℝ) - 1 else i, fun d => d = 1, ?_, ?_⟩
  · intro b hb
    by_cases h0 : b = 0
    · subst h0
      refine ⟨0, by omega, fun d hd => ?_⟩
      rcases d with _ | _ | d <;> simp [AtLeastAsGood]
    · refine ⟨1, by omega, fun d hd => ?_⟩
      have h1 : (1 : ℝ) ≤ b := by exact_mod_cast Nat.one_le_iff_ne_zero.2 h0
      have h2 : (b : ℝ) ≤ 2 := by exact_mod_cast (by omega : b ≤ 2)
      rcases d with _ | _ | d <;> simp [AtLeastAsGood]
      · exact Nat.one_le_iff_ne_zero.2 h0
      · linarith
      · exact Nat.one_le_iff_ne_zero.2 h0
  · intro h
    obtain ⟨b, hb, h⟩ := h 0 (by omega)
    have h0 := h 0 (by omega)
    have h1 := h 1 (by omega)
    simp [AtLeastAsGood] at h0 h1
    subst h0
    norm_num at h1

end Moo
