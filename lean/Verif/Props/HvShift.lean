import Verif.Model.HvShift
import Verif.Props.HvWrappers
import Mathlib.MeasureTheory.Group.Measure

/-!
# C66: the hypervolume with the reference point moved to zero
-/

set_option autoImplicit false
set_option linter.unusedSectionVars false

namespace Moo

open MeasureTheory

/-! ### The functions without reference point are those with reference point zero -/

section zero

variable {K : Type*} [CommRing K] [LinearOrder K]

theorem hv3dPopZ_eq (x : ℕ → ℕ → K) (pp : ℕ) (nxt0 : K) : ∀ (rest : List ℕ) (t : ℕ) (hypera : K),
    hv3dPopZ x pp nxt0 (t :: rest) hypera =
      ((hv3dPop x (fun _ => 0) pp nxt0 (t :: rest) hypera).1,
        (hv3dPop x (fun _ => 0) pp nxt0 (t :: rest) hypera).2.1 +
          ((hv3dPop x (fun _ => 0) pp nxt0 (t :: rest) hypera).2.2 - x pp 1) * (nxt0 - x pp 0)) := by
  intro rest
  induction rest with
  | nil => intro t hypera; simp [hv3dPopZ, hv3dPop]
  | cons s rest ih =>
    intro t hypera
    rw [hv3dPopZ, hv3dPop]
    by_cases h : x s 0 < x pp 0
    · rw [if_pos h, if_pos h]
    · rw [if_neg h, if_neg h]; exact ih s _

theorem nextXZ_eq (x : ℕ → ℕ → K) (l : List ℕ) : nextXZ x l = nextX x (fun _ => 0) l := by
  cases l <;> rfl

theorem hv3dUpdateZ_eq (x : ℕ → ℕ → K) (T : List ℕ) (pp : ℕ) (hypera : K) :
    hv3dUpdateZ x T pp hypera = hv3dUpdate x (fun _ => 0) T pp hypera := by
  unfold hv3dUpdateZ hv3dUpdate
  dsimp only
  rw [nextXZ_eq]
  split_ifs
  · cases (List.takeWhile (fun t => decide (0 < compareTreeAsc (x pp) (x t))) T).reverse with
    | nil => simp
    | cons t rest =>
      dsimp only
      split_ifs
      · rw [hv3dPopZ_eq]
      · rfl
  · rfl

theorem hv3dLoopZ_eq (x : ℕ → ℕ → K) : ∀ (fuel pp : ℕ) (T : List ℕ) (hypera hyperv : K) (S : HvState K),
    hv3dLoopZ x fuel pp T hypera hyperv S = hv3dLoop x (fun _ => 0) fuel pp T hypera hyperv S := by
  intro fuel
  induction fuel with
  | zero => intros; rfl
  | succ fuel ih =>
    intro pp T hypera hyperv S
    rw [hv3dLoopZ, hv3dLoop]
    rw [hv3dUpdateZ_eq, zero_sub]
    simp only [ih]
    rfl

theorem hv3dZ_eq (x : ℕ → ℕ → K) (c : ℕ) (S : HvState K) : hv3dZ x c S = hv3dRef x (fun _ => 0) c S := by
  unfold hv3dZ hv3dRef
  dsimp only
  simp only [zero_sub, neg_mul_neg, hv3dLoopZ_eq]

theorem hvAreaInitZ_eq (x : ℕ → ℕ → K) (p1 : ℕ) : ∀ (m : ℕ) (S : HvState K),
    hvAreaInitZ x p1 m S = hvAreaInit x (fun _ => 0) p1 m S := by
  intro m
  induction m with
  | zero => intro S; rfl
  | succ m ih => intro S; rw [hvAreaInitZ, hvAreaInit]; rw [ih, zero_sub]

theorem hvLevelZ_eq (rec : ℕ → HvState K → K × HvState K) (x : ℕ → ℕ → K) (dim c : ℕ) (S : HvState K) :
    hvLevelZ rec x dim c S = hvLevel rec x (fun _ => 0) dim c S := by
  unfold hvLevelZ hvLevel
  dsimp only
  simp only [hvAreaInitZ_eq, zero_sub]

theorem hvRecZ_eq (x : ℕ → ℕ → K) : ∀ (k c : ℕ) (S : HvState K), hvRecZ x k c S = hvRec x (fun _ => 0) k c S := by
  intro k
  induction k with
  | zero => intro c S; exact hv3dZ_eq x c S
  | succ k ih =>
    intro c S
    rw [hvRecZ, hvRec, hvLevelZ_eq]
    congr 1
    funext c S
    exact ih c S

theorem filterDimZ_eq (x : ℕ → ℕ → K) (d i : ℕ) : ∀ (np aux n : ℕ) (S : HvState K),
    filterDimZ x d i np aux n S = filterDim x (fun _ => 0) d i np aux n S := by
  intro np
  induction np with
  | zero => intros; rfl
  | succ np ih => intro aux n S; rw [filterDimZ, filterDim]; dsimp only; rw [ih]

theorem filterZ_eq (x : ℕ → ℕ → K) (d : ℕ) : ∀ (m n : ℕ) (S : HvState K), filterZ x d m n S = filterRef x (fun _ => 0) d m n S := by
  intro m
  induction m with
  | zero => intros; rfl
  | succ m ih => intro n S; rw [filterZ, filterRef]; rw [ih, filterDimZ_eq]

theorem boxProductZ_eq (x : ℕ → ℕ → K) (p : ℕ) : ∀ m, boxProductZ x p m = boxProduct x (fun _ => 0) p m := by
  intro m
  induction m with
  | zero => rfl
  | succ m ih => rw [boxProductZ, boxProduct, ih, zero_sub]

theorem fpliHvShiftN_eq (x : ℕ → ℕ → K) (d n : ℕ) (hd : 3 ≤ d) (ords : ℕ → List ℕ) (b0 : K) (mem : HvState K) :
    fpliHvShiftN x d n ords b0 mem = fpliHvN x d n (fun _ => 0) ords b0 mem := by
  unfold fpliHvShiftN fpliHvN
  dsimp only
  rw [filterZ_eq, boxProductZ_eq, if_neg (show d ≠ 1 by omega), hvRecZ_eq, hv3dZ_eq]
  by_cases h3 : d = 3
  · subst h3; rw [if_pos rfl]; rfl
  · rw [if_neg h3]

end zero

/-! ### One objective -/

theorem fpliHvShiftN_one (x : ℕ → ℕ → ℝ) (n : ℕ) (ords : ℕ → List ℕ) (b0 : ℝ) (mem : HvState ℝ) (hord : HvOrders x 1 n ords) :
    fpliHvShiftN x 1 n ords b0 mem = HV 1 x (List.range' 1 n) (fun _ => 0) := by
  set N := List.range' 1 n with hNdef
  have hNnd : N.Nodup := by rw [hNdef]; exact List.nodup_range'
  have hN0 : 0 ∉ N := by rw [hNdef, List.mem_range'_1]; omega
  set pos : ℕ → ℕ → ℕ := fun i p => (ords i).idxOf p with hpos
  have hperm : ∀ i < 1, (ords i).Perm N := fun i hi => hvOrders_perm hord i hi
  have hnd : ∀ i < 1, (ords i).Nodup := fun i hi => (hperm i hi).nodup_iff.2 hNnd
  have hmem : ∀ i < 1, ∀ p, p ∈ ords i ↔ p ∈ N := fun i hi p => (hperm i hi).mem_iff
  have hsort : ∀ i < 1, ∀ p ∈ N, ∀ q ∈ N, pos i p < pos i q → x p i ≤ x q i := by
    intro i hi p hp q hq hlt
    exact pairwise_of_idxOf (hvOrders_sorted hord i hi) ((hmem i hi p).2 hp) ((hmem i hi q).2 hq) hlt
  set S0 := setupCdllist ords 1 b0 mem with hS0
  obtain ⟨s1, _, _, _, _⟩ := linkAll_spec ords 1
    { mem with
      ignore := fun _ => 0
      area := fun i p => if p = 0 ∧ i < 1 then 0 else mem.area i p
      bound := fun _ => b0 } (fun i hi => ⟨hnd i hi, fun h => hN0 ((hmem i hi 0).1 h)⟩)
  have hls0 : ∀ k < 1, LinkedSet (S0.next k) (S0.prev k) (pos k) N :=
    fun k hk => ⟨ords k, hmem k hk, pairwise_idxOf (hnd k hk), s1 k hk⟩
  obtain ⟨A, S1, f1, f2, f3, f4, _, _, _⟩ := filterRef_spec (ref := fun _ => 0) hsort hN0 hNnd S0 hls0 1 (le_refl _)
  have hNlen : N.length = n := by rw [hNdef, List.length_range']
  rw [hNlen] at f1
  have hdrop : HV 1 x N (fun _ => 0) = HV 1 x A (fun _ => 0) := by
    apply HV_drop
    · intro p hp; exact ((f3 p).1 hp).1
    · intro p hp
      by_cases h : p ∈ A
      · exact Or.inl h
      · right
        by_contra hcon
        push Not at hcon
        exact h ((f3 p).2 ⟨hp, hcon⟩)
  unfold fpliHvShiftN
  rw [← hS0]
  dsimp only
  rw [filterZ_eq, f1, hdrop]
  dsimp only
  by_cases hA0 : A.length = 0
  · rw [if_pos hA0, List.length_eq_zero_iff.1 hA0, HV_nil]
  rw [if_neg hA0]
  obtain ⟨l, h1, h2, h3⟩ := f4 0 (by omega)
  cases l with
  | nil =>
    exfalso
    apply hA0
    rw [List.length_eq_zero_iff, List.eq_nil_iff_forall_not_mem]
    intro p hp
    exact absurd ((h1 p).2 hp) (by simp)
  | cons p l =>
    have hnext : S1.next 0 0 = p := h3.1
    have hpA : p ∈ A := (h1 p).1 (by simp)
    have hval : HV 1 x A (fun _ => 0) = -x p 0 := by
      rw [HV_eq_of_dom (B := [p]) (by intro q hq; rw [List.mem_singleton.1 hq]; exact hpA), HV_singleton]
      · simp
      · intro k
        have : (k : ℕ) = 0 := by omega
        rw [this]
        exact (((f3 p).1 hpA).2 0 (by omega)).le
      · intro q hq
        refine ⟨p, by simp, fun k hk => ?_⟩
        have : k = 0 := by omega
        subst this
        rcases List.mem_cons.1 ((h1 q).2 hq) with rfl | hq'
        · exact le_rfl
        · exact hsort 0 (by omega) p ((f3 p).1 hpA).1 q ((f3 q).1 hq).1 ((List.pairwise_cons.1 h2).1 q hq')
    rw [hnext, hval]
    split_ifs
    · simp [boxProductZ]
    · omega
    · rfl
    · omega

/-! ### Translation -/

theorem HV_sub_ref (d : ℕ) (x : ℕ → ℕ → ℝ) (A : List ℕ) (ref : ℕ → ℝ) :
    HV d (fun p k => x p k - ref k) A (fun _ => 0) = HV d x A ref := by
  unfold HV
  congr 1
  have h : hvSet d (fun p k => x p k - ref k) A (fun _ => 0) = (fun y : Fin d → ℝ => (fun k : Fin d => ref k) + y) ⁻¹' hvSet d x A ref := by
    ext y
    simp only [hvSet, Set.mem_preimage, Set.mem_ofPred_eq, Pi.add_apply]
    constructor
    · rintro ⟨p, hp, hy⟩
      exact ⟨p, hp, fun k => ⟨by have := (hy k).1; linarith, by have := (hy k).2; linarith⟩⟩
    · rintro ⟨p, hp, hy⟩
      exact ⟨p, hp, fun k => ⟨by have := (hy k).1; linarith, by have := (hy k).2; linarith⟩⟩
  rw [h, measure_preimage_add]

/-- The data that `fpli_hv_shift` sorts: for two objectives the data themselves, otherwise the shifted data. -/
def shiftSorted (pts : ℕ → ℕ → ℝ) (d n : ℕ) (ref : ℕ → ℝ) : ℕ → ℕ → ℝ := fun i k => if d = 2 then pts i k else if i < n ∧ k < d then pts i k - ref k else pts i k

/-- **C66.** For every number `d ≥ 1` of objectives, every set of `n` points and every reference point, `fpli_hv_shift` returns the volume of the region dominated by the points and
bounded by the reference point (for four or more objectives with a stable `qsort`).  The array of the caller is left as it was if there are two objectives or no points; otherwise the reference point
has been subtracted from each of the `n` points, and nothing else has changed. -/
theorem C66_hv_shift (d n : ℕ) (hd : 1 ≤ d) (pts : ℕ → ℕ → ℝ) (ref : ℕ → ℝ) (env : HvEnv ℝ)
    (henv : HvEnvOk (shiftSorted pts d n ref) d n env)
    (hstable : 3 < d → ∀ j, j + 1 < d → StableQsort (compareNode (nodeTable (shiftSorted pts d n ref)) j) (env.ords (j + 1)) (env.ords j)) :
    (fpliHvShift pts d n ref env).1 = vol (dominatedRegion d n pts ref) ∧
    ∀ i k, (fpliHvShift pts d n ref env).2 i k = if d ≠ 2 ∧ i < n ∧ k < d then pts i k - ref k else pts i k := by
  have hsh : d ≠ 2 → shiftSorted pts d n ref = shiftReference pts d n ref := by
    intro h2; funext i k; unfold shiftSorted shiftReference; rw [if_neg h2]
  constructor
  · rw [vol_dominatedRegion]
    unfold fpliHvShift
    by_cases hn : n = 0
    · rw [if_pos hn, hn, List.range_zero, HV_nil]
    rw [if_neg hn]
    by_cases h2 : d = 2
    · rw [if_pos h2]
      subst h2
      have e : shiftSorted pts 2 n ref = pts := by funext i k; unfold shiftSorted; rw [if_pos rfl]
      rw [e] at henv
      have hq := henv.1 rfl
      dsimp only
      rw [hv2d_eq_HV env.ps hq.2]
      exact HV_congr_mem (fun p => hq.1.mem_iff)
    · rw [if_neg h2]
      dsimp only
      rw [hsh h2] at henv hstable
      have hlast : HV d (nodeTable (shiftReference pts d n ref)) (List.range' 1 n) (fun _ => 0) = HV d pts (List.range n) ref := by
        rw [HV_nodeTable, ← HV_sub_ref d pts]
        apply HV_congr_table
        intro p hp k hk
        unfold shiftReference
        rw [if_pos ⟨List.mem_range.1 hp, hk⟩]
      by_cases h1 : d = 1
      · subst h1
        rw [fpliHvShiftN_one _ n _ _ _ (henv.2.1 h2), hlast]
      · have hties : TiesConsistent (nodeTable (shiftReference pts d n ref)) d env.ords := by
          by_cases h3 : d ≤ 3
          · exact tiesConsistent_of_le_three _ d h3 _
          · exact tiesConsistent_of_stable _ _ _ (hstable (by omega))
        rw [fpliHvShiftN_eq _ d n (by omega), fpliHvN_eq (by omega) n env.ords env.b0 env.mem (henv.2.1 h2) hties, hlast]
        intro p h1 hp k hk
        exact henv.2.2 (p - 1) (by omega) k hk
  · intro i k
    unfold fpliHvShift
    by_cases hn : n = 0
    · subst hn; simp
    by_cases h2 : d = 2
    · simp [hn, h2]
    · simp [hn, h2, shiftReference]

/-- **C66.** `fpli_hv_shift` and `fpli_hv` return the same value, whatever the calls of `qsort` do with ties in either (with stability for four or more objectives). -/
theorem C66_hv_shift_eq_hv (d n : ℕ) (hd : 2 ≤ d) (pts : ℕ → ℕ → ℝ) (ref : ℕ → ℝ) (lib : HvLib ℝ) (hlib : HvLibOk lib) :
    (fpliHvShift pts d n ref (lib (shiftSorted pts d n ref) d n)).1 = fpliHv pts d n ref (lib pts d n) := by
  rw [(C66_hv_shift d n (by omega) pts ref _ (hlib _ d n).1 (hlib _ d n).2).1, fpliHv_vol hlib pts d n hd]

/-- Four objectives: a library that meets the hypotheses exists. -/
example : ∃ env : HvEnv ℝ, (fpliHvShift (fun i k => (i + k : ℝ)) 4 3 (fun _ => 7) env).1 =
    vol (dominatedRegion 4 3 (fun i k => (i + k : ℝ)) (fun _ => 7)) := by
  obtain ⟨lib, hlib⟩ := exists_hvLib
  exact ⟨_, (C66_hv_shift 4 3 (by omega) _ (fun _ => 7) _ (hlib _ 4 3).1 (hlib _ 4 3).2).1⟩

/-- One objective, over the integers: points 5, 3, 9 and reference 7. -/
example : (fpliHvShift (K := ℤ) (fun i _ => [5, 3, 9].getD i 0) 1 3 (fun _ => 7)
    ⟨[], fun _ => [2, 1, 3], -1000, ⟨fun _ _ => 0, fun _ _ => 0, fun _ => 0, fun _ _ => 0, fun _ _ => 0, fun _ => 0, AvlHeap.empty⟩⟩).1 = 4 := by decide

end Moo
