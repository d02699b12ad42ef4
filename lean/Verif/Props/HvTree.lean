import Verif.Lemmas.HvTreeRec
import Verif.Props.Hypervolume

/-!
# C80: the balanced tree of the hypervolume code
-/

set_option autoImplicit false
set_option linter.unusedSectionVars false

namespace Moo

open MeasureTheory

theorem hv3dPop_removed (x : ℕ → ℕ → ℝ) (ref : ℕ → ℝ) (pp : ℕ) (nxt0 : ℝ) : ∀ (l : List ℕ) (cur : ℕ) (hypera : ℝ), x pp 0 ≤ x cur 0 →
    ∀ t ∈ cur :: l, t ∉ (hv3dPop x ref pp nxt0 (cur :: l) hypera).1 → x pp 0 ≤ x t 0
  | [], cur, hypera, hc, t, ht, _ => by
    simp at ht; subst ht; exact hc
  | prv :: rest, cur, hypera, hc, t, ht, hn => by
    rw [hv3dPop] at hn
    rcases List.mem_cons.1 ht with rfl | ht
    · exact hc
    · by_cases hp : x prv 0 < x pp 0
      · rw [if_pos hp] at hn
        exact absurd ht hn
      · rw [if_neg hp] at hn
        exact hv3dPop_removed x ref pp nxt0 rest prv _ (not_lt.1 hp) t ht hn

theorem hv3dUpdate_members (x : ℕ → ℕ → ℝ) (ref : ℕ → ℝ) (T : List ℕ) (pp : ℕ) (hypera : ℝ) (r : List ℕ × ℝ)
    (hu : hv3dUpdate x ref T pp hypera = some r) : pp ∈ r.1 ∧ ∀ t ∈ T, t ∉ r.1 → x pp 0 ≤ x t 0 ∧ x pp 1 ≤ x t 1 := by
  have hT := List.takeWhile_append_dropWhile (p := fun t => decide (0 < compareTreeAsc (x pp) (x t))) (l := T)
  have hpos : ∀ t ∈ T.takeWhile (fun t => decide (0 < compareTreeAsc (x pp) (x t))), x pp 1 ≤ x t 1 := by
    intro t ht
    have := List.mem_takeWhile_imp ht
    rcases compareTreeAsc_pos.1 (of_decide_eq_true this) with h | h
    · exact h.le
    · exact h.1.le
  unfold hv3dUpdate at hu
  dsimp only at hu
  generalize T.takeWhile (fun t => decide (0 < compareTreeAsc (x pp) (x t))) = A at hu hT hpos
  generalize T.dropWhile (fun t => decide (0 < compareTreeAsc (x pp) (x t))) = B at hu hT
  subst hT
  split at hu
  · split at hu
    · rename_i hA
      have hA' : A = [] := by simpa using hA
      obtain rfl := Option.some.inj hu
      subst hA'
      exact ⟨by simp, fun t ht hn => absurd (List.mem_cons_of_mem _ ht) hn⟩
    · rename_i t0 rest hA
      split at hu
      · rename_i hgt
        obtain rfl := Option.some.inj hu
        refine ⟨by simp, fun t ht hn => ?_⟩
        rcases List.mem_append.1 ht with ht | ht
        · refine ⟨?_, hpos t ht⟩
          refine hv3dPop_removed x ref pp (nextX x ref B) rest t0 hypera (le_of_lt hgt) t ?_ (fun hm => hn ?_)
          · rw [← hA]; exact List.mem_reverse.2 ht
          · exact List.mem_append_left _ (List.mem_reverse.2 hm)
        · exact absurd (List.mem_append_right _ (List.mem_cons_of_mem _ ht)) hn
      · obtain rfl := Option.some.inj hu
        refine ⟨by simp, fun t ht hn => absurd ?_ hn⟩
        rcases List.mem_append.1 ht with ht | ht
        · exact List.mem_append_left _ ht
        · exact List.mem_append_right _ (List.mem_cons_of_mem _ ht)
  · exact absurd hu (by simp)

/-- **C80.** The whole of `fpli_hv`, run on the nodes of its balanced tree (search from the root, insertion, removal, rotations), returns
the same value as the computation in which the tree is the plain sequence of its items, for every number of objectives, every set of fewer than `2^125`
points, every reference point, every order of ties produced by `qsort` and every content of uninitialised memory. -/
theorem C80_tree_same_value (d n : ℕ) (hd : 2 ≤ d) (hn : n < 2 ^ 125) (pts : ℕ → ℕ → ℝ) (ref : ℕ → ℝ) (env : HvEnv ℝ)
    (henv : HvEnvOk pts d n env) : fpliHvTree pts d n ref env = fpliHv pts d n ref env := by
  unfold fpliHvTree fpliHv
  by_cases h0 : n = 0
  · rw [if_pos h0, if_pos h0]
  · rw [if_neg h0, if_neg h0]
    by_cases h2 : d = 2
    · rw [if_pos h2, if_pos h2]
    · rw [if_neg h2, if_neg h2]
      exact fpliHvTreeN_same (n + 3) (by omega) n hn (by omega) env.ords env.b0 env.mem (henv.2.1 h2)

/-- **C80**, three objectives: the value computed on the nodes of the tree is the volume of the dominated region. -/
theorem C80_tree_is_volume (n : ℕ) (hn : n < 2 ^ 125) (pts : ℕ → ℕ → ℝ) (ref : ℕ → ℝ) (env : HvEnv ℝ) (henv : HvEnvOk pts 3 n env) :
    0 ≤ fpliHvTree pts 3 n ref env ∧ volume (dominatedRegion 3 n pts ref) = ENNReal.ofReal (fpliHvTree pts 3 n ref env) := by
  rw [C80_tree_same_value 3 n (by omega) hn pts ref env henv]
  exact C12_hv3d_is_volume n pts ref env henv

/-- **C80**, one point of the sweep (c/hv.c:948-993): from a correct balanced tree with the nodes `T` in the order of the comparison function, the code reaches
a correct balanced tree again, in the same order, made of nodes of `T` and the new node, and never a broken one. -/
theorem C80_update_keeps_tree (tf : ℕ) (x : ℕ → ℕ → ℝ) (ref : ℕ → ℝ) (h : AvlHeap) (T : List ℕ) (pp : ℕ) (hypera : ℝ) (hi : AvlInv h T)
    (hs : T.Pairwise (fun a b => x b 1 < x a 1 ∨ x a 1 = x b 1 ∧ x b 0 ≤ x a 0)) (hne : T ≠ []) (hpp : pp ∉ T) (hpp0 : pp ≠ 0)
    (hlen : T.length + 1 < 2 ^ 125) (htf : T.length + 1 < tf) (h' : AvlHeap) (a' : ℝ) (hu : hv3dTreeUpdate tf x ref h pp hypera = some (h', a')) :
    ∃ T' : List ℕ, AvlInv h' T' ∧ pp ∈ T' ∧ (∀ t ∈ T', t = pp ∨ t ∈ T) ∧
      T'.Pairwise (fun a b => x b 1 < x a 1 ∨ x a 1 = x b 1 ∧ x b 0 ≤ x a 0) ∧ (∀ t ∈ T, t ∉ T' → x pp 0 ≤ x t 0 ∧ x pp 1 ≤ x t 1) := by
  have hsim := hv3dTreeUpdate_spec tf x ref h T pp hypera hi hs hne hpp hpp0 hlen htf
  rw [hu] at hsim
  cases hv : hv3dUpdate x ref T pp hypera with
  | none => rw [hv] at hsim; exact absurd hsim (by simp [HvTreeSim])
  | some r =>
    rw [hv] at hsim
    obtain ⟨-, g1, g2, -, g4, -⟩ := hsim
    exact ⟨r.1, g1, (hv3dUpdate_members x ref T pp hypera r hv).1, g4, g2, (hv3dUpdate_members x ref T pp hypera r hv).2⟩

/-- **C80**: the call `fpli_hv3d_ref` on two or more points leaves the tree empty, so that the next call of the recursion starts with an empty tree. -/
theorem C80_tree_cleared (tf : ℕ) (x : ℕ → ℕ → ℝ) (ref : ℕ → ℝ) (l : List ℕ) (hl : l.Nodup) (h0 : 0 ∉ l) (hlne : l ≠ []) (S : HvState ℝ)
    (hlink : Linked (S.next 2) (S.prev 2) l) (hlen : l.length < 2 ^ 125) (htf : l.length < tf) (hS : AvlInv S.tree []) :
    AvlInv (hv3dTreeRef tf x ref l.length S).2.tree [] := by
  obtain ⟨h', e, hi⟩ := hv3dTreeRef_eq tf x ref hl h0 hlne S S.tree hlink hlen htf
  have e' : hv3dTreeRef tf x ref l.length S = _ := e
  rw [e']
  exact hi hS

/-! ### Concrete cases -/

/-- Six points with three objectives; the first five are mutually nondominated in the first two objectives, the last one removes two of them. -/
def treePts : ℕ → ℕ → ℤ := fun i k => ([[1, 9, 0], [2, 8, 1], [3, 7, 2], [4, 6, 3], [5, 5, 4], [3, 5, 5]].getD i []).getD k 0

def treeEnv : HvEnv ℤ where
  ps := []
  ords := fun j => [[1, 2, 3, 6, 4, 5], [5, 6, 4, 3, 2, 1], [1, 2, 3, 4, 5, 6]].getD j []
  b0 := -1000
  mem := ⟨fun _ _ => 0, fun _ _ => 0, fun _ => 0, fun _ _ => 0, fun _ _ => 0, fun _ => 0, AvlHeap.empty⟩

theorem treeEnv_ok : HvEnvOk treePts 3 6 treeEnv := by
  refine ⟨fun h => absurd h (by decide), fun _ => ⟨⟨by decide, by decide⟩, ?_⟩, ?_⟩
  · intro j hj
    have : j = 0 ∨ j = 1 := by omega
    rcases this with rfl | rfl <;> exact ⟨by decide, by decide⟩
  · decide

example : fpliHvTree treePts 3 6 (fun _ => 10) treeEnv = 305 ∧ fpliHv treePts 3 6 (fun _ => 10) treeEnv = 305 := by decide +kernel

/-- The tree after the first three points has been rotated: its root is the second point. -/
example : (((hv3dTreeUpdate 9 (nodeTable treePts) (fun _ => 10) (avlInsertTop AvlHeap.empty 1) 2 0).bind
    (fun r => hv3dTreeUpdate 9 (nodeTable treePts) (fun _ => 10) r.1 3 r.2)).map (fun r => (r.1.top, r.1.left 2, r.1.right 2, r.1.head, r.1.tail))) =
    some (2, 1, 3, 1, 3) := by decide +kernel

/-- The counterexample to C13 is one of the computation on the nodes of the tree too. -/
theorem C80_counterexample_with_tree : HvEnvOk cexPts 4 3 cexEnv ∧ fpliHvTree cexPts 4 3 (fun _ => 4) cexEnv = 88 ∧
    volume (dominatedRegion 4 3 (fun i k => (cexPts i k : ℝ)) (fun _ => 4)) = ENNReal.ofReal 115 :=
  ⟨cexEnv_ok, by decide +kernel, cex_volume⟩

end Moo
