import Verif.Model.HvShiftTree
import Verif.Props.HvShift
import Verif.Props.HvTree

/-!
# C82: the balanced tree of the hypervolume code with the reference point moved to zero
-/

set_option autoImplicit false
set_option linter.unusedSectionVars false

namespace Moo

open MeasureTheory

section zero

variable {K : Type*} [CommRing K] [LinearOrder K]

theorem hv3dTreePopZ_eq (tf : ℕ) (x : ℕ → ℕ → K) (pp : ℕ) (nxt : ℕ → K) : ∀ (fuel : ℕ) (v : HvPopVars K),
    hv3dTreePopZ tf x pp (nxt 0) fuel v = hv3dTreePop tf x pp nxt fuel v
  | 0, _ => rfl
  | fuel + 1, v => by
    rw [hv3dTreePopZ, hv3dTreePop]
    dsimp only
    rw [hv3dTreePopZ_eq tf x pp nxt fuel]

theorem hv3dTreeUpdateZ_eq (tf : ℕ) (x : ℕ → ℕ → K) (h : AvlHeap) (pp : ℕ) (hypera : K) :
    hv3dTreeUpdateZ tf x h pp hypera = hv3dTreeUpdate tf x (fun _ => 0) h pp hypera := by
  unfold hv3dTreeUpdateZ hv3dTreeUpdate
  dsimp only
  generalize (avlSearchClosest tf h (fun n => compareTreeAsc (x pp) (x n))).getD (0, 0) = s
  by_cases hs : s.2 ≤ 0
  · rw [if_pos hs, if_pos hs]
    simp only [hv3dTreePopZ_eq tf x pp (x s.1)]
    by_cases h1 : (x s.1) 0 > x pp 0
    · rw [if_pos h1, if_pos h1]
      by_cases h2 : h.prev s.1 ≠ 0
      · rw [if_pos h2, if_pos h2]
        by_cases h3 : x (h.prev s.1) 0 > x pp 0
        · rw [if_pos h3, if_pos h3]
          split_ifs <;> simp
        · rw [if_neg h3, if_neg h3]
      · rw [if_neg h2, if_neg h2]; simp
    · rw [if_neg h1, if_neg h1]
  · rw [if_neg hs, if_neg hs]
    by_cases hn : h.next s.1 ≠ 0
    · rw [if_pos hn, if_pos hn]
      simp only [hv3dTreePopZ_eq tf x pp (x (h.next s.1))]
      by_cases h1 : (x (h.next s.1)) 0 > x pp 0
      · rw [if_pos h1, if_pos h1]
        by_cases h2 : s.1 ≠ 0
        · rw [if_pos h2, if_pos h2]
          by_cases h3 : x (s.1) 0 > x pp 0
          · rw [if_pos h3, if_pos h3]
            split_ifs <;> simp
          · rw [if_neg h3, if_neg h3]
        · rw [if_neg h2, if_neg h2]; simp
      · rw [if_neg h1, if_neg h1]
    · rw [if_neg hn, if_neg hn]
      have e := hv3dTreePopZ_eq tf x pp (fun _ => (0 : K))
      simp only [e]
      by_cases h1 : (0 : K) > x pp 0
      · rw [if_pos h1, if_pos h1]
        by_cases h2 : s.1 ≠ 0
        · rw [if_pos h2, if_pos h2]
          by_cases h3 : x s.1 0 > x pp 0
          · rw [if_pos h3, if_pos h3]
            split_ifs <;> simp
          · rw [if_neg h3, if_neg h3]
        · rw [if_neg h2, if_neg h2]; simp
      · rw [if_neg h1, if_neg h1]

theorem hv3dTreeLoopZ_eq (tf : ℕ) (x : ℕ → ℕ → K) : ∀ (fuel pp : ℕ) (hypera hyperv : K) (S : HvState K),
    hv3dTreeLoopZ tf x fuel pp hypera hyperv S = hv3dTreeLoop tf x (fun _ => 0) fuel pp hypera hyperv S := by
  intro fuel
  induction fuel with
  | zero => intros; rfl
  | succ fuel ih =>
    intro pp hypera hyperv S
    rw [hv3dTreeLoopZ, hv3dTreeLoop]
    rw [hv3dTreeUpdateZ_eq, zero_sub]
    simp only [ih]
    rfl

theorem hv3dTreeZ_eq (tf : ℕ) (x : ℕ → ℕ → K) (c : ℕ) (S : HvState K) : hv3dTreeZ tf x c S = hv3dTreeRef tf x (fun _ => 0) c S := by
  unfold hv3dTreeZ hv3dTreeRef
  dsimp only
  simp only [zero_sub, neg_mul_neg, hv3dTreeLoopZ_eq]

theorem hvTreeRecZ_eq (tf : ℕ) (x : ℕ → ℕ → K) : ∀ (k c : ℕ) (S : HvState K), hvTreeRecZ tf x k c S = hvTreeRec tf x (fun _ => 0) k c S := by
  intro k
  induction k with
  | zero => intro c S; exact hv3dTreeZ_eq tf x c S
  | succ k ih =>
    intro c S
    rw [hvTreeRecZ, hvTreeRec, hvLevelZ_eq]
    congr 1
    funext c S
    exact ih c S

theorem fpliHvShiftTreeN_eq (tf : ℕ) (x : ℕ → ℕ → K) (d n : ℕ) (hd : 3 ≤ d) (ords : ℕ → List ℕ) (b0 : K) (mem : HvState K) :
    fpliHvShiftTreeN tf x d n ords b0 mem = fpliHvTreeN tf x d n (fun _ => 0) ords b0 mem := by
  unfold fpliHvShiftTreeN fpliHvTreeN
  dsimp only
  rw [filterZ_eq, boxProductZ_eq, if_neg (show d ≠ 1 by omega), hvTreeRecZ_eq, hv3dTreeZ_eq]
  by_cases h3 : d = 3
  · subst h3; rw [if_pos rfl]; rfl
  · rw [if_neg h3]

end zero

/-- **C82.** `fpli_hv_shift`, run on the nodes of its balanced tree (search from the root, insertion, removal, rotations), returns the same value, and leaves the same
data in the array of its caller, as the computation in which the tree is the plain sequence of its items: for every number of objectives, every set of fewer than `2^125` points, every
reference point, every order of ties produced by `qsort` and every content of uninitialised memory. -/
theorem C82_shift_tree_same (d n : ℕ) (hd : 1 ≤ d) (hn : n < 2 ^ 125) (pts : ℕ → ℕ → ℝ) (ref : ℕ → ℝ) (env : HvEnv ℝ)
    (henv : HvEnvOk (shiftSorted pts d n ref) d n env) : fpliHvShiftTree pts d n ref env = fpliHvShift pts d n ref env := by
  unfold fpliHvShiftTree fpliHvShift
  by_cases h0 : n = 0
  · rw [if_pos h0, if_pos h0]
  rw [if_neg h0, if_neg h0]
  by_cases h2 : d = 2
  · rw [if_pos h2, if_pos h2]
  rw [if_neg h2, if_neg h2]
  have hsh : shiftSorted pts d n ref = shiftReference pts d n ref := by
    funext i k; unfold shiftSorted shiftReference; rw [if_neg h2]
  rw [hsh] at henv
  dsimp only
  by_cases h1 : d = 1
  · subst h1
    have e2 : fpliHvShiftTreeN (n + 3) (nodeTable (shiftReference pts 1 n ref)) 1 n env.ords env.b0 env.mem =
        fpliHvShiftN (nodeTable (shiftReference pts 1 n ref)) 1 n env.ords env.b0 { env.mem with tree := avlClearTree env.mem.tree } := rfl
    rw [e2, fpliHvShiftN_one _ n _ _ _ (henv.2.1 (by omega)), fpliHvShiftN_one _ n _ _ _ (henv.2.1 (by omega))]
  · rw [fpliHvShiftTreeN_eq _ _ d n (by omega), fpliHvShiftN_eq _ d n (by omega),
      fpliHvTreeN_same (n + 3) (by omega) n hn (by omega) env.ords env.b0 env.mem (henv.2.1 h2)]

/-- **C82.** The value computed on the nodes of the tree is the volume of the region dominated by the points and bounded by the reference point (for four or more objectives
with a stable `qsort`, see C13). -/
theorem C82_shift_tree_is_volume (d n : ℕ) (hd : 1 ≤ d) (hn : n < 2 ^ 125) (pts : ℕ → ℕ → ℝ) (ref : ℕ → ℝ) (env : HvEnv ℝ)
    (henv : HvEnvOk (shiftSorted pts d n ref) d n env)
    (hstable : 3 < d → ∀ j, j + 1 < d → StableQsort (compareNode (nodeTable (shiftSorted pts d n ref)) j) (env.ords (j + 1)) (env.ords j)) :
    (fpliHvShiftTree pts d n ref env).1 = vol (dominatedRegion d n pts ref) ∧
    ∀ i k, (fpliHvShiftTree pts d n ref env).2 i k = if d ≠ 2 ∧ i < n ∧ k < d then pts i k - ref k else pts i k := by
  rw [C82_shift_tree_same d n hd hn pts ref env henv]
  exact C66_hv_shift d n hd pts ref env henv hstable

/-- **C82.** The two variants of the computation, both on the nodes of their trees, return the same value. -/
theorem C82_shift_tree_eq_hv_tree (d n : ℕ) (hd : 2 ≤ d) (hn : n < 2 ^ 125) (pts : ℕ → ℕ → ℝ) (ref : ℕ → ℝ) (lib : HvLib ℝ) (hlib : HvLibOk lib) :
    (fpliHvShiftTree pts d n ref (lib (shiftSorted pts d n ref) d n)).1 = fpliHvTree pts d n ref (lib pts d n) := by
  rw [C82_shift_tree_same d n (by omega) hn pts ref _ (hlib _ d n).1, C80_tree_same_value d n hd hn pts ref _ (hlib _ d n).1,
    C66_hv_shift_eq_hv d n hd pts ref lib hlib]

/-! ### Concrete cases -/

/-- The six points of C80: the same value, computed on the nodes of the tree. -/
example : (fpliHvShiftTree treePts 3 6 (fun _ => 10) treeEnv).1 = 305 ∧ (fpliHvShiftTree treePts 3 6 (fun _ => 10) treeEnv).2 5 2 = -5 := by decide +kernel

/-- The hypotheses are met for these points: subtracting the reference point does not change the orders of the coordinates. -/
example : HvEnvOk (fun i k => if i < 6 ∧ k < 3 then treePts i k - 10 else treePts i k) 3 6 treeEnv := by
  refine ⟨fun h => absurd h (by decide), fun _ => ⟨⟨by decide, by decide⟩, ?_⟩, ?_⟩
  · intro j hj
    have : j = 0 ∨ j = 1 := by omega
    rcases this with rfl | rfl <;> exact ⟨by decide, by decide⟩
  · decide

/-- Four objectives: a library that meets the hypotheses exists. -/
example : ∃ env : HvEnv ℝ, (fpliHvShiftTree (fun i k => (i + k : ℝ)) 4 3 (fun _ => 7) env).1 =
    vol (dominatedRegion 4 3 (fun i k => (i + k : ℝ)) (fun _ => 7)) := by
  obtain ⟨lib, hlib⟩ := exists_hvLib
  exact ⟨_, (C82_shift_tree_is_volume 4 3 (by omega) (by norm_num) _ (fun _ => 7) _ (hlib _ 4 3).1 (hlib _ 4 3).2).1⟩

end Moo
