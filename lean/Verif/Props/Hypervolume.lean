import Verif.Lemmas.HvSetup
import Verif.Lemmas.Qsort
import Verif.Model.HvContrib
import Verif.Props.Hv2d
import Mathlib.Algebra.Order.Ring.Int

/-!
# C12–C16, C47: the hypervolume
-/

set_option autoImplicit false

namespace Moo

open MeasureTheory

/-- Value of `fpli_hv` for two or more objectives. -/
theorem fpliHv_eq_HV (d n : ℕ) (hd : 2 ≤ d) (pts : ℕ → ℕ → ℝ) (ref : ℕ → ℝ) (env : HvEnv ℝ) (henv : HvEnvOk pts d n env)
    (hties : TiesConsistent (nodeTable pts) d env.ords) :
    fpliHv pts d n ref env = HV d pts (List.range n) ref := by
  unfold fpliHv
  by_cases hn : n = 0
  · rw [if_pos hn, hn, List.range_zero, HV_nil]
  rw [if_neg hn]
  by_cases h2 : d = 2
  · rw [if_pos h2]
    subst h2
    have hq := henv.1 rfl
    rw [hv2d_eq_HV env.ps hq.2]
    exact HV_congr_mem (fun p => hq.1.mem_iff)
  · rw [if_neg h2, fpliHvN_eq (by omega) n env.ords env.b0 env.mem (henv.2.1 h2) hties, HV_nodeTable]
    intro p h1 hp k hk
    exact henv.2.2 (p - 1) (by omega) k hk

/-- With at most three objectives the order of ties does not matter. -/
theorem tiesConsistent_of_le_three (x : ℕ → ℕ → ℝ) (d : ℕ) (hd : d ≤ 3) (ords : ℕ → List ℕ) : TiesConsistent x d ords := by
  intro j h2 hj; omega

/-- **C12.** For every set of `n` points with three objectives, every reference point, every order of ties produced by `qsort`
and every content of uninitialised memory, `fpli_hv` returns the volume of the region dominated by the points and bounded by the reference point. -/
theorem C12_hv3d_is_volume (n : ℕ) (pts : ℕ → ℕ → ℝ) (ref : ℕ → ℝ) (env : HvEnv ℝ) (henv : HvEnvOk pts 3 n env) :
    0 ≤ fpliHv pts 3 n ref env ∧ volume (dominatedRegion 3 n pts ref) = ENNReal.ofReal (fpliHv pts 3 n ref env) := by
  rw [fpliHv_eq_HV 3 n (by omega) pts ref env henv (tiesConsistent_of_le_three _ 3 (le_refl _) _), volume_dominatedRegion]
  exact ⟨HV_nonneg, rfl⟩

/-- **C13 (partial).** `fpli_hv` returns the volume of the dominated region in any number of objectives, provided that ties are ordered alike by
successive calls of `qsort` in the dimensions `2, …, d - 2`.  Missing: other tie orders, for which the claim is false (`C13_false_for_unstable_sort`). -/
theorem C13_hv_is_volume_partial (d n : ℕ) (hd : 2 ≤ d) (pts : ℕ → ℕ → ℝ) (ref : ℕ → ℝ) (env : HvEnv ℝ)
    (henv : HvEnvOk pts d n env) (hties : TiesConsistent (nodeTable pts) d env.ords) :
    0 ≤ fpliHv pts d n ref env ∧ volume (dominatedRegion d n pts ref) = ENNReal.ofReal (fpliHv pts d n ref env) := by
  rw [fpliHv_eq_HV d n hd pts ref env henv hties, volume_dominatedRegion]
  exact ⟨HV_nonneg, rfl⟩

/-- A stable sort: `qsort` which also keeps the order of elements that compare equal. -/
def StableQsort {β : Type*} (cmp : β → β → ℤ) (input output : List β) : Prop :=
  Qsort cmp input output ∧ ∀ a b, [a, b].Sublist input → cmp a b = 0 → [a, b].Sublist output

theorem tiesConsistent_of_stable (x : ℕ → ℕ → ℝ) (d : ℕ) (ords : ℕ → List ℕ)
    (h : ∀ j, j + 1 < d → StableQsort (compareNode x j) (ords (j + 1)) (ords j)) : TiesConsistent x d ords := by
  intro j _ hj a b hab he
  refine (h j hj).2 a b hab ?_
  unfold compareNode
  rw [he, if_neg (lt_irrefl _), if_neg (lt_irrefl _)]

/-- **C47.** With a stable `qsort`, `fpli_hv` returns the volume of the dominated region for every number `d ≥ 2` of objectives, all
points and all reference points. -/
theorem C47_hv_is_volume_stable_sort (d n : ℕ) (hd : 2 ≤ d) (pts : ℕ → ℕ → ℝ) (ref : ℕ → ℝ) (env : HvEnv ℝ)
    (henv : HvEnvOk pts d n env)
    (hstable : ∀ j, j + 1 < d → StableQsort (compareNode (nodeTable pts) j) (env.ords (j + 1)) (env.ords j)) :
    0 ≤ fpliHv pts d n ref env ∧ volume (dominatedRegion d n pts ref) = ENNReal.ofReal (fpliHv pts d n ref env) :=
  C13_hv_is_volume_partial d n hd pts ref env henv (tiesConsistent_of_stable _ _ _ hstable)

/-- **C47.** The same with any `qsort` if no two points agree in an objective (other than the first, second and last). -/
theorem C47_hv_is_volume_no_ties (d n : ℕ) (hd : 2 ≤ d) (pts : ℕ → ℕ → ℝ) (ref : ℕ → ℝ) (env : HvEnv ℝ)
    (henv : HvEnvOk pts d n env)
    (hnoties : ∀ k, 2 ≤ k → k + 1 < d → ∀ i < n, ∀ i' < n, pts i k = pts i' k → i = i') :
    0 ≤ fpliHv pts d n ref env ∧ volume (dominatedRegion d n pts ref) = ENNReal.ofReal (fpliHv pts d n ref env) := by
  refine C13_hv_is_volume_partial d n hd pts ref env henv ?_
  intro j h2 hj a b hab he
  exfalso
  have hord := henv.2.1 (by omega)
  have hperm := hvOrders_perm hord (j + 1) hj
  have hnd : (env.ords (j + 1)).Nodup := hperm.nodup_iff.2 List.nodup_range'
  obtain ⟨ha, hb, hlt⟩ := (sublist_pair_iff hnd).1 hab
  have ha' := List.mem_range'_1.1 (hperm.mem_iff.1 ha)
  have hb' := List.mem_range'_1.1 (hperm.mem_iff.1 hb)
  have := hnoties j h2 hj (a - 1) (by omega) (b - 1) (by omega) he
  have hab' : a = b := by omega
  rw [hab'] at hlt
  omega

/-! ### The counterexample for unstable sorting -/

/-- Three points with four objectives; the first and the last are equal. -/
def cexPts : ℕ → ℕ → ℤ := fun i k => ([[1, 0, 1, 1], [0, 3, 0, 3], [1, 0, 1, 1]].getD i []).getD k 0

/-- A possible environment: the equal points are swapped by the sort for the third objective. -/
def cexEnv : HvEnv ℤ where
  ps := []
  ords := fun j => [[2, 3, 1], [3, 1, 2], [2, 3, 1], [1, 3, 2]].getD j []
  b0 := -1000
  mem := ⟨fun _ _ => 0, fun _ _ => 0, fun _ => 0, fun _ _ => 0, fun _ _ => 0, fun _ => 0, AvlHeap.empty⟩

theorem cexEnv_ok : HvEnvOk cexPts 4 3 cexEnv := by
  refine ⟨fun h => absurd h (by decide), fun _ => ⟨⟨by decide, by decide⟩, ?_⟩, ?_⟩
  · intro j hj
    have : j = 0 ∨ j = 1 ∨ j = 2 := by omega
    rcases this with rfl | rfl | rfl <;> exact ⟨by decide, by decide⟩
  · intro i hi k hk
    have h1 : i = 0 ∨ i = 1 ∨ i = 2 := by omega
    have h2 : k = 0 ∨ k = 1 ∨ k = 2 ∨ k = 3 := by omega
    rcases h1 with rfl | rfl | rfl <;> rcases h2 with rfl | rfl | rfl | rfl <;> decide

/-- The volume of the region dominated by the points of the counterexample. -/
theorem cex_volume : volume (dominatedRegion 4 3 (fun i k => (cexPts i k : ℝ)) (fun _ => 4)) = ENNReal.ofReal 115 := by
  set p : ℕ → ℕ → ℝ := fun i k => (cexPts i k : ℝ) with hp
  set ref : ℕ → ℝ := fun _ => 4 with href
  rw [volume_dominatedRegion]
  congr 1
  have h1 : HV 4 p (List.range 3) ref = HV 4 p [0, 1] ref := by
    apply HV_eq_of_dom
    · intro a ha; simp at ha; rcases ha with rfl | rfl <;> decide
    · intro a ha
      have : a = 0 ∨ a = 1 ∨ a = 2 := by have := List.mem_range.1 ha; omega
      rcases this with rfl | rfl | rfl
      · exact ⟨0, by simp, fun _ _ => le_rfl⟩
      · exact ⟨1, by simp, fun _ _ => le_rfl⟩
      · exact ⟨0, by simp, fun _ _ => le_rfl⟩
  rw [h1, HV_cons]
  have hA : ∀ k : Fin 4, p 0 k ≤ ref k := by intro k; fin_cases k <;> norm_num [hp, href, cexPts]
  have hB : ∀ k : Fin 4, p 1 k ≤ ref k := by intro k; fin_cases k <;> norm_num [hp, href, cexPts]
  have hBv : HV 4 p [1] ref = 16 := by
    rw [HV_singleton 1 hB, Fin.prod_univ_four]
    norm_num [hp, href, cexPts]
  have hAv : (volume (hvBox 4 p 0 ref)).toReal = 108 := by
    have := HV_singleton 0 hA
    unfold HV at this
    rw [hvSet_singleton] at this
    rw [this, Fin.prod_univ_four]
    norm_num [hp, href, cexPts]
  -- the intersection of the two boxes
  set q : ℕ → ℕ → ℝ := fun _ k => max (p 0 k) (p 1 k) with hq
  have hI : hvBox 4 p 0 ref ∩ hvSet 4 p [1] ref = hvBox 4 q 0 ref := by
    rw [hvSet_singleton]
    ext y
    simp only [hvBox, Set.mem_inter_iff, Set.mem_ofPred_eq, hq, max_le_iff]
    constructor
    · rintro ⟨h1, h2⟩ k; exact ⟨⟨(h1 k).1, (h2 k).1⟩, (h1 k).2⟩
    · intro h; exact ⟨fun k => ⟨(h k).1.1, (h k).2⟩, fun k => ⟨(h k).1.2, (h k).2⟩⟩
  have hIv : (volume (hvBox 4 q 0 ref)).toReal = 9 := by
    have := HV_singleton (x := q) (ref := ref) (d := 4) 0 (by intro k; exact max_le (hA k) (hB k))
    unfold HV at this
    rw [hvSet_singleton] at this
    rw [this, Fin.prod_univ_four]
    norm_num [hq, hp, href, cexPts]
  have hdiff : (volume (hvBox 4 p 0 ref \ hvSet 4 p [1] ref)).toReal = 99 := by
    have hm := measure_inter_add_sdiff (μ := volume) (hvBox 4 p 0 ref) (hvSet_measurable (d := 4) (x := p) (A := [1]) (ref := ref))
    have hfin : volume (hvBox 4 p 0 ref \ hvSet 4 p [1] ref) ≠ ⊤ :=
      ne_top_of_le_ne_top (hvBox_ne_top 0) (measure_mono Set.sdiff_subset)
    have h2 := congrArg ENNReal.toReal hm
    rw [hI, ENNReal.toReal_add (hvBox_ne_top 0) hfin, hIv, hAv] at h2
    linarith
  rw [hBv, hdiff]
  norm_num

/-- **C13 is false for some tie orders that the C standard allows `qsort` to produce**: for the three points above the result is 88, but the volume of the dominated
region is 115. -/
theorem C13_false_for_unstable_sort : HvEnvOk cexPts 4 3 cexEnv ∧ fpliHv cexPts 4 3 (fun _ => 4) cexEnv = 88 ∧
    volume (dominatedRegion 4 3 (fun i k => (cexPts i k : ℝ)) (fun _ => 4)) = ENNReal.ofReal 115 :=
  ⟨cexEnv_ok, by decide, cex_volume⟩

/-! ### C14, C15: consequences -/

/-- **C14.** `fpli_hv` gives the same value for two point sets if every point of one set that is strictly better than the reference
point is weakly dominated by a point of the other set, and conversely.  (For `d ≥ 4` under the condition of C13 on the order of ties.) -/
theorem C14_hv_equal_of_equivalent_sets_partial (d n n' : ℕ) (hd : 2 ≤ d) (pts pts' : ℕ → ℕ → ℝ) (ref : ℕ → ℝ) (env env' : HvEnv ℝ)
    (henv : HvEnvOk pts d n env) (henv' : HvEnvOk pts' d n' env')
    (hties : d ≤ 3 ∨ TiesConsistent (nodeTable pts) d env.ords ∧ TiesConsistent (nodeTable pts') d env'.ords)
    (h : ∀ i < n, (∀ k < d, pts i k < ref k) → ∃ j < n', ∀ k < d, pts' j k ≤ pts i k)
    (h' : ∀ j < n', (∀ k < d, pts' j k < ref k) → ∃ i < n, ∀ k < d, pts i k ≤ pts' j k) :
    fpliHv pts d n ref env = fpliHv pts' d n' ref env' := by
  have ht : TiesConsistent (nodeTable pts) d env.ords := hties.elim (fun h => tiesConsistent_of_le_three _ d h _) (fun h => h.1)
  have ht' : TiesConsistent (nodeTable pts') d env'.ords := hties.elim (fun h => tiesConsistent_of_le_three _ d h _) (fun h => h.2)
  rw [fpliHv_eq_HV d n hd pts ref env henv ht, fpliHv_eq_HV d n' hd pts' ref env' henv' ht']
  unfold HV
  congr 2
  ext y
  constructor
  · rintro ⟨i, hi, hy⟩
    obtain ⟨j, hj, hle⟩ := h i (List.mem_range.1 hi) (fun k hk => lt_of_le_of_lt (hy ⟨k, hk⟩).1 (hy ⟨k, hk⟩).2)
    exact ⟨j, List.mem_range.2 hj, fun k => ⟨(hle k k.2).trans (hy k).1, (hy k).2⟩⟩
  · rintro ⟨j, hj, hy⟩
    obtain ⟨i, hi, hle⟩ := h' j (List.mem_range.1 hj) (fun k hk => lt_of_le_of_lt (hy ⟨k, hk⟩).1 (hy ⟨k, hk⟩).2)
    exact ⟨i, List.mem_range.2 hi, fun k => ⟨(hle k k.2).trans (hy k).1, (hy k).2⟩⟩

/-- **C14**, permuted and repeated rows: two tables with the same set of rows have the same hypervolume. -/
theorem C14_hv_same_rows_partial (d n n' : ℕ) (hd : 2 ≤ d) (pts pts' : ℕ → ℕ → ℝ) (ref : ℕ → ℝ) (env env' : HvEnv ℝ)
    (henv : HvEnvOk pts d n env) (henv' : HvEnvOk pts' d n' env')
    (hties : d ≤ 3 ∨ TiesConsistent (nodeTable pts) d env.ords ∧ TiesConsistent (nodeTable pts') d env'.ords)
    (h : ∀ i < n, ∃ j < n', ∀ k < d, pts' j k = pts i k) (h' : ∀ j < n', ∃ i < n, ∀ k < d, pts i k = pts' j k) :
    fpliHv pts d n ref env = fpliHv pts' d n' ref env' := by
  refine C14_hv_equal_of_equivalent_sets_partial d n n' hd pts pts' ref env env' henv henv' hties ?_ ?_
  · intro i hi _
    obtain ⟨j, hj, he⟩ := h i hi
    exact ⟨j, hj, fun k hk => (he k hk).le⟩
  · intro j hj _
    obtain ⟨i, hi, he⟩ := h' j hj
    exact ⟨i, hi, fun k hk => (he k hk).le⟩

/-- **C14**, extra rows at the end that are dominated, or that are not strictly better than the reference point. -/
theorem C14_hv_extra_rows_partial (d n m : ℕ) (hd : 2 ≤ d) (pts : ℕ → ℕ → ℝ) (ref : ℕ → ℝ) (env env' : HvEnv ℝ)
    (henv : HvEnvOk pts d n env) (henv' : HvEnvOk pts d (n + m) env')
    (hties : d ≤ 3 ∨ TiesConsistent (nodeTable pts) d env.ords ∧ TiesConsistent (nodeTable pts) d env'.ords)
    (h : ∀ j, n ≤ j → j < n + m → (∃ k < d, ref k ≤ pts j k) ∨ ∃ i < n, ∀ k < d, pts i k ≤ pts j k) :
    fpliHv pts d n ref env = fpliHv pts d (n + m) ref env' := by
  refine C14_hv_equal_of_equivalent_sets_partial d n (n + m) hd pts pts ref env env' henv henv' hties ?_ ?_
  · intro i hi _; exact ⟨i, by omega, fun _ _ => le_rfl⟩
  · intro j hj hlt
    by_cases hjn : j < n
    · exact ⟨j, hjn, fun _ _ => le_rfl⟩
    · rcases h j (by omega) hj with ⟨k, hk, hle⟩ | hdom
      · exact absurd (hlt k hk) (not_lt.2 hle)
      · exact hdom

/-- **C15.** If every row of `B` is weakly dominated by a row of `A`, then `hv(A) ≥ hv(B)`. -/
theorem C15_hv_monotone_partial (d n n' : ℕ) (hd : 2 ≤ d) (A B : ℕ → ℕ → ℝ) (ref : ℕ → ℝ) (env env' : HvEnv ℝ)
    (henv : HvEnvOk A d n env) (henv' : HvEnvOk B d n' env')
    (hties : d ≤ 3 ∨ TiesConsistent (nodeTable A) d env.ords ∧ TiesConsistent (nodeTable B) d env'.ords)
    (h : ∀ j < n', ∃ i < n, ∀ k < d, A i k ≤ B j k) : fpliHv B d n' ref env' ≤ fpliHv A d n ref env := by
  have ht : TiesConsistent (nodeTable A) d env.ords := hties.elim (fun h => tiesConsistent_of_le_three _ d h _) (fun h => h.1)
  have ht' : TiesConsistent (nodeTable B) d env'.ords := hties.elim (fun h => tiesConsistent_of_le_three _ d h _) (fun h => h.2)
  rw [fpliHv_eq_HV d n hd A ref env henv ht, fpliHv_eq_HV d n' hd B ref env' henv' ht']
  refine ENNReal.toReal_mono hvSet_ne_top (measure_mono ?_)
  rintro y ⟨j, hj, hy⟩
  obtain ⟨i, hi, hle⟩ := h j (List.mem_range.1 hj)
  exact ⟨i, List.mem_range.2 hi, fun k => ⟨(hle k k.2).trans (hy k).1, (hy k).2⟩⟩

/-- **C15.** If moreover some row of `A` that is strictly better than the reference point is not weakly dominated by any row of `B`, then
`hv(A) > hv(B)`. -/
theorem C15_hv_strictly_monotone_partial (d n n' : ℕ) (hd : 2 ≤ d) (A B : ℕ → ℕ → ℝ) (ref : ℕ → ℝ) (env env' : HvEnv ℝ)
    (henv : HvEnvOk A d n env) (henv' : HvEnvOk B d n' env')
    (hties : d ≤ 3 ∨ TiesConsistent (nodeTable A) d env.ords ∧ TiesConsistent (nodeTable B) d env'.ords)
    (h : ∀ j < n', ∃ i < n, ∀ k < d, A i k ≤ B j k) (i₀ : ℕ) (hi₀ : i₀ < n) (hlt : ∀ k < d, A i₀ k < ref k)
    (hnew : ∀ j < n', ¬ ∀ k < d, B j k ≤ A i₀ k) : fpliHv B d n' ref env' < fpliHv A d n ref env := by
  have ht : TiesConsistent (nodeTable A) d env.ords := hties.elim (fun h => tiesConsistent_of_le_three _ d h _) (fun h => h.1)
  have ht' : TiesConsistent (nodeTable B) d env'.ords := hties.elim (fun h => tiesConsistent_of_le_three _ d h _) (fun h => h.2)
  rw [fpliHv_eq_HV d n hd A ref env henv ht, fpliHv_eq_HV d n' hd B ref env' henv' ht']
  -- a common table: row 0 is the new point, rows `1 + j` are those of `B`
  set x : ℕ → ℕ → ℝ := fun p => if p = 0 then A i₀ else B (p - 1) with hx
  have hB : HV d B (List.range n') ref = HV d x (List.range' 1 n') ref := by
    rw [← HV_nodeTable]
    apply HV_congr_table
    intro p hp k _
    rw [List.mem_range'_1] at hp
    simp only [hx, nodeTable]
    rw [if_neg (by omega)]
  have hne : HV d B (List.range n') ref < HV d x (0 :: List.range' 1 n') ref := by
    rw [hB]
    by_contra hcon
    obtain ⟨q, hq, hqd⟩ := exists_dom_of_HV_le 0 (fun k hk => by simp only [hx, if_true]; exact hlt k hk) (not_lt.1 hcon)
    rw [List.mem_range'_1] at hq
    apply hnew (q - 1) (by omega)
    intro k hk
    have := hqd k hk
    simp only [hx, if_true] at this
    rw [if_neg (by omega)] at this
    exact this
  refine lt_of_lt_of_le hne (ENNReal.toReal_mono hvSet_ne_top (measure_mono ?_))
  rintro y ⟨p, hp, hy⟩
  rcases List.mem_cons.1 hp with rfl | hp
  · simp only [hx, if_true] at hy
    exact ⟨i₀, List.mem_range.2 hi₀, hy⟩
  · rw [List.mem_range'_1] at hp
    obtain ⟨i, hi, hle⟩ := h (p - 1) (by omega)
    refine ⟨i, List.mem_range.2 hi, fun k => ?_⟩
    have := hy k
    simp only [hx] at this
    rw [if_neg (by omega)] at this
    exact ⟨(hle k k.2).trans this.1, this.2⟩

/-- **C15.** The hypervolume is zero exactly if no row is strictly better than the reference point in all objectives. -/
theorem C15_hv_zero_iff_partial (d n : ℕ) (hd : 2 ≤ d) (pts : ℕ → ℕ → ℝ) (ref : ℕ → ℝ) (env : HvEnv ℝ)
    (henv : HvEnvOk pts d n env) (hties : d ≤ 3 ∨ TiesConsistent (nodeTable pts) d env.ords) :
    fpliHv pts d n ref env = 0 ↔ ¬ ∃ i < n, ∀ k < d, pts i k < ref k := by
  have ht : TiesConsistent (nodeTable pts) d env.ords := hties.elim (fun h => tiesConsistent_of_le_three _ d h _) id
  rw [fpliHv_eq_HV d n hd pts ref env henv ht]
  constructor
  · rintro h0 ⟨i, hi, hlt⟩
    have h1 : HV d pts (i :: []) ref ≤ HV d pts [] ref := by
      rw [HV_nil, ← h0]
      exact HV_le_of_subset (by intro a ha; simp at ha; subst ha; exact List.mem_range.2 hi)
    obtain ⟨q, hq, _⟩ := exists_dom_of_HV_le i hlt h1
    simp at hq
  · intro h
    rw [HV_drop [] (by simp), HV_nil]
    intro p hp
    right
    by_contra hcon
    push Not at hcon
    exact h ⟨p, List.mem_range.1 hp, hcon⟩

/-! ### C16: contributions -/

theorem hvContribution_value (d n i : ℕ) (hd : 2 ≤ d) (pts : ℕ → ℕ → ℝ) (ref : ℕ → ℝ) (env : HvEnv ℝ)
    (henv : HvEnvOk (replaceRow pts ref i) d n env) (hties : d ≤ 3 ∨ TiesConsistent (nodeTable (replaceRow pts ref i)) d env.ords) :
    hvOnePointDiff pts d n ref env i = vol (dominatedRegionWithout d n pts ref i) := by
  have ht := hties.elim (fun h => tiesConsistent_of_le_three (nodeTable (replaceRow pts ref i)) d h env.ords) id
  unfold hvOnePointDiff
  rw [fpliHv_eq_HV d n hd _ ref env henv ht, vol_dominatedRegionWithout]
  have h1 : HV d (replaceRow pts ref i) (List.range n) ref =
      HV d (replaceRow pts ref i) ((List.range n).filter (fun r => decide (r ≠ i))) ref := by
    apply HV_drop
    · intro p hp; exact List.mem_of_mem_filter hp
    · intro p hp
      by_cases hpi : p = i
      · right
        refine ⟨0, by omega, ?_⟩
        unfold replaceRow
        rw [hpi, upd_same]
      · left
        exact List.mem_filter.2 ⟨hp, by simpa using hpi⟩
  rw [h1]
  apply HV_congr_table
  intro p hp k _
  have : p ≠ i := by simpa using (List.mem_filter.1 hp).2
  unfold replaceRow
  rw [upd_ne _ _ this]

/-- **C16.** `hv_contributions` stores for row `i` the volume that only this row dominates, or zero if this is smaller than the tolerance. -/
theorem C16_contribution_is_exclusive_volume_partial (d n : ℕ) (hd : 2 ≤ d) (pts : ℕ → ℕ → ℝ) (ref : ℕ → ℝ) (tol : ℝ)
    (env : HvEnv ℝ) (envs : ℕ → HvEnv ℝ) (henv : HvEnvOk pts d n env)
    (henvs : ∀ i < n, HvEnvOk (replaceRow pts ref i) d n (envs i))
    (hties : d ≤ 3 ∨ TiesConsistent (nodeTable pts) d env.ords ∧
      ∀ i < n, TiesConsistent (nodeTable (replaceRow pts ref i)) d (envs i).ords) (i : ℕ) (hi : i < n) :
    hvContribution pts d n ref tol env envs i =
      (if vol (dominatedRegion d n pts ref) - vol (dominatedRegionWithout d n pts ref i) ≥ tol
        then vol (dominatedRegion d n pts ref) - vol (dominatedRegionWithout d n pts ref i) else 0) ∧
    0 ≤ hvContribution pts d n ref tol env envs i := by
  have ht : TiesConsistent (nodeTable pts) d env.ords := hties.elim (fun h => tiesConsistent_of_le_three _ d h _) (fun h => h.1)
  have h1 : fpliHv pts d n ref env = vol (dominatedRegion d n pts ref) := by
    rw [fpliHv_eq_HV d n hd pts ref env henv ht, vol_dominatedRegion]
  have h2 := hvContribution_value d n i hd pts ref (envs i) (henvs i hi) (hties.imp id (fun h => h.2 i hi))
  have hnn : 0 ≤ vol (dominatedRegion d n pts ref) - vol (dominatedRegionWithout d n pts ref i) := by
    rw [vol_dominatedRegion, vol_dominatedRegionWithout, sub_nonneg]
    exact HV_le_of_subset (fun p hp => List.mem_of_mem_filter hp)
  have hval : hvContribution pts d n ref tol env envs i =
      (if vol (dominatedRegion d n pts ref) - vol (dominatedRegionWithout d n pts ref i) ≥ tol
        then vol (dominatedRegion d n pts ref) - vol (dominatedRegionWithout d n pts ref i) else 0) := by
    unfold hvContribution
    simp only [h1, h2, abs_of_nonneg hnn]
  refine ⟨hval, ?_⟩
  rw [hval]
  split
  · exact hnn
  · exact le_rfl

/-- **C16.** The contribution of a row that is weakly dominated by another row (for example a repeated row) is zero. -/
theorem C16_contribution_zero_of_dominated_partial (d n : ℕ) (hd : 2 ≤ d) (pts : ℕ → ℕ → ℝ) (ref : ℕ → ℝ) (tol : ℝ)
    (env : HvEnv ℝ) (envs : ℕ → HvEnv ℝ) (henv : HvEnvOk pts d n env)
    (henvs : ∀ i < n, HvEnvOk (replaceRow pts ref i) d n (envs i))
    (hties : d ≤ 3 ∨ TiesConsistent (nodeTable pts) d env.ords ∧
      ∀ i < n, TiesConsistent (nodeTable (replaceRow pts ref i)) d (envs i).ords) (i : ℕ) (hi : i < n)
    (j : ℕ) (hj : j < n) (hji : j ≠ i) (hdom : ∀ k < d, pts j k ≤ pts i k) :
    hvContribution pts d n ref tol env envs i = 0 := by
  rw [(C16_contribution_is_exclusive_volume_partial d n hd pts ref tol env envs henv henvs hties i hi).1]
  have : vol (dominatedRegion d n pts ref) = vol (dominatedRegionWithout d n pts ref i) := by
    rw [vol_dominatedRegion, vol_dominatedRegionWithout]
    apply HV_eq_of_dom
    · exact fun p hp => List.mem_of_mem_filter hp
    · intro p hp
      by_cases hpi : p = i
      · subst hpi
        exact ⟨j, List.mem_filter.2 ⟨List.mem_range.2 hj, by simpa using hji⟩, hdom⟩
      · exact ⟨p, List.mem_filter.2 ⟨hp, by simpa using hpi⟩, fun _ _ => le_rfl⟩
  rw [this, sub_self]
  split <;> rfl

/-! ### The hypotheses can be met for every input -/

/-- Merge sort by coordinate `j`. -/
noncomputable def sortBy (x : ℕ → ℕ → ℝ) (j : ℕ) (l : List ℕ) : List ℕ := l.mergeSort (fun a b => decide (x a j ≤ x b j))

theorem sortBy_stable (x : ℕ → ℕ → ℝ) (j : ℕ) (l : List ℕ) : StableQsort (compareNode x j) l (sortBy x j l) := by
  have ht : ∀ a b c : ℕ, decide (x a j ≤ x b j) = true → decide (x b j ≤ x c j) = true → decide (x a j ≤ x c j) = true := by
    intro a b c h1 h2
    simp only [decide_eq_true_eq] at *
    exact h1.trans h2
  have hto : ∀ a b : ℕ, (decide (x a j ≤ x b j) || decide (x b j ≤ x a j)) = true := by
    intro a b
    simp only [Bool.or_eq_true, decide_eq_true_eq]
    exact le_total _ _
  refine ⟨⟨List.mergeSort_perm _ _, ?_⟩, ?_⟩
  · refine (List.pairwise_mergeSort ht hto l).imp ?_
    intro a b h
    rw [decide_eq_true_eq] at h
    unfold compareNode
    split
    · omega
    · rw [if_neg (not_lt.2 h)]
  · intro a b hab h0
    refine List.pair_sublist_mergeSort ht hto ?_ hab
    rw [decide_eq_true_eq]
    by_contra hcon
    push Not at hcon
    unfold compareNode at h0
    rw [if_neg (not_lt.2 hcon.le), if_pos hcon] at h0
    omega

/-- The orders after `m + 1` sorts. -/
noncomputable def sortMany (x : ℕ → ℕ → ℝ) (d n : ℕ) : ℕ → List ℕ
  | 0 => sortBy x (d - 1) (List.range' 1 n)
  | m + 1 => sortBy x (d - 1 - (m + 1)) (sortMany x d n m)

/-- Non-vacuity of C12–C16 and C47: for every input there is an environment that meets all hypotheses, including stability. -/
theorem exists_stable_env (d n : ℕ) (pts : ℕ → ℕ → ℝ) : ∃ env : HvEnv ℝ, HvEnvOk pts d n env ∧
    (∀ j, j + 1 < d → StableQsort (compareNode (nodeTable pts) j) (env.ords (j + 1)) (env.ords j)) ∧
    TiesConsistent (nodeTable pts) d env.ords := by
  obtain ⟨b, hb⟩ : ∃ b : ℝ, ∀ i < n, ∀ k < d, b ≤ pts i k := by
    have hne : ((Finset.range n ×ˢ Finset.range d).image (fun q : ℕ × ℕ => pts q.1 q.2) : Set ℝ).Finite := Finset.finite_toSet _
    obtain ⟨b, hb⟩ := hne.bddBelow
    refine ⟨b, fun i hi k hk => hb ?_⟩
    rw [Finset.mem_coe, Finset.mem_image]
    exact ⟨(i, k), by simp [hi, hk], rfl⟩
  obtain ⟨ps, hps⟩ : ∃ ps, Qsort (compareXAscYAsc pts) (List.range n) ps := by
    have hiff : ∀ a b, compareXAscYAsc pts a b ≤ 0 ↔ pts a 0 < pts b 0 ∨ pts a 0 = pts b 0 ∧ pts a 1 ≤ pts b 1 := by
      intro a b
      unfold compareXAscYAsc
      rcases lt_trichotomy (pts a 0) (pts b 0) with h | h | h
      · simp [h]
      · rcases lt_trichotomy (pts a 1) (pts b 1) with h' | h' | h'
        · simp [h, h', h'.le]
        · simp [h, h']
        · simp [h, h', not_lt.2 h'.le]
      · simp [h, not_lt.2 h.le, h.ne']
    refine exists_qsort _ ?_ ?_ _
    · intro a b c h1 h2
      rw [hiff] at *
      rcases h1 with h1 | ⟨h1, h1'⟩ <;> rcases h2 with h2 | ⟨h2, h2'⟩
      · exact Or.inl (h1.trans h2)
      · exact Or.inl (h2 ▸ h1)
      · exact Or.inl (h1 ▸ h2)
      · exact Or.inr ⟨h1.trans h2, h1'.trans h2'⟩
    · intro a b
      rw [hiff, hiff]
      rcases lt_trichotomy (pts a 0) (pts b 0) with h | h | h
      · exact Or.inl (Or.inl h)
      · rcases le_total (pts a 1) (pts b 1) with h' | h'
        · exact Or.inl (Or.inr ⟨h, h'⟩)
        · exact Or.inr (Or.inr ⟨h.symm, h'⟩)
      · exact Or.inr (Or.inl h)
  set x := nodeTable pts with hx
  have hstep : ∀ j, j + 1 < d → StableQsort (compareNode x j) (sortMany x d n (d - 1 - (j + 1))) (sortMany x d n (d - 1 - j)) := by
    intro j hj
    obtain ⟨m, hm⟩ : ∃ m, d - 1 - j = m + 1 := ⟨d - 2 - j, by omega⟩
    have h1 : d - 1 - (j + 1) = m := by omega
    have h2 : d - 1 - (m + 1) = j := by omega
    rw [hm, h1]
    have := sortBy_stable x (d - 1 - (m + 1)) (sortMany x d n m)
    rw [h2] at this
    rw [sortMany, h2]
    exact this
  refine ⟨⟨ps, fun j => sortMany x d n (d - 1 - j), b, ⟨fun _ _ => 0, fun _ _ => 0, fun _ => 0, fun _ _ => 0, fun _ _ => 0, fun _ => 0, AvlHeap.empty⟩⟩, ⟨fun _ => hps, fun _ => ⟨?_, fun j hj => (hstep j hj).1⟩, hb⟩, hstep, tiesConsistent_of_stable _ _ _ hstep⟩
  dsimp only
  rw [Nat.sub_self]
  exact (sortBy_stable x (d - 1) _).1

/-! ### A concrete case -/

/-- Points on a line with four objectives: rows `(i, -i, i, -i)`. -/
def linePts : ℕ → ℕ → ℝ := fun i k => if k % 2 = 0 then i else -i

/-- An environment for two such points. -/
noncomputable def lineEnv : HvEnv ℝ where
  ps := [0, 1]
  ords := fun j => if j % 2 = 0 then [1, 2] else [2, 1]
  b0 := -10
  mem := ⟨fun _ _ => 0, fun _ _ => 0, fun _ => 0, fun _ _ => 0, fun _ _ => 0, fun _ => 0, AvlHeap.empty⟩

/-- Non-vacuity of C13–C15 and C47: this environment is allowed and stable, for two points and any number of objectives up to four. -/
example : HvEnvOk linePts 4 2 lineEnv ∧ TiesConsistent (nodeTable linePts) 4 lineEnv.ords ∧
    ∀ k, 2 ≤ k → k + 1 < 4 → ∀ i < 2, ∀ i' < 2, linePts i k = linePts i' k → i = i' := by
  have hcmp : ∀ j, Qsort (compareNode (nodeTable linePts) j) [1, 2] (lineEnv.ords j) := by
    intro j
    by_cases hj : j % 2 = 0
    · simp only [lineEnv, hj, if_true]
      refine ⟨List.Perm.refl _, ?_⟩
      simp [compareNode, nodeTable, linePts, hj]
    · simp only [lineEnv, hj, if_false]
      refine ⟨by decide, ?_⟩
      simp [compareNode, nodeTable, linePts, hj]
  have hperm : ∀ j, (lineEnv.ords j).Perm [1, 2] := fun j => (hcmp j).1
  have hnoties : ∀ k, ∀ i < 2, ∀ i' < 2, linePts i k = linePts i' k → i = i' := by
    intro k i hi i' hi' h
    unfold linePts at h
    split at h
    · exact_mod_cast h
    · have := neg_inj.1 h; exact_mod_cast this
  refine ⟨⟨by omega, fun _ => ⟨hcmp 3, fun j _ => ?_⟩, ?_⟩, ?_, fun k _ _ => hnoties k⟩
  · exact ⟨(hperm j).trans (hperm (j + 1)).symm, (hcmp j).2⟩
  · intro i hi k hk
    have h1 : i = 0 ∨ i = 1 := by omega
    simp only [lineEnv, linePts]
    rcases h1 with rfl | rfl <;> split <;> norm_num
  · intro j h2 hj a b hab he
    exfalso
    have hsub := hab.subset
    have ha := (hperm _).mem_iff.1 (hsub (by simp : a ∈ [a, b]))
    have hb := (hperm _).mem_iff.1 (hsub (by simp : b ∈ [a, b]))
    have hnd : (lineEnv.ords (j + 1)).Nodup := (hperm _).nodup_iff.2 (by decide)
    have hne : a ≠ b := by
      intro h
      have := (sublist_pair_iff hnd).1 hab
      rw [h] at this; omega
    simp at ha hb
    have := hnoties j (a - 1) (by omega) (b - 1) (by omega) he
    omega

end Moo
