import Verif.Lemmas.HvCostRec
import Verif.Props.Hypervolume

/-!
# C97: running time of the hypervolume computation

The documentation of `hypervolume` promises `O(n log n)` for two and three objectives and `O(n^(d-2) log n)` for `d ≥ 4`.  `Runs m a B` says that the run `m` ends with the
result `a` after at most `B` steps, where a step is one iteration of a loop or one call of a recursive function (Verif/Model/HvCost.lean), and the calls of `qsort`
(one for two objectives, otherwise `d`, on `n` pointers) are not counted.  `tf` is the fuel of the functions of the tree; any number larger than `n` will do, so it is no restriction.
-/

set_option autoImplicit false
set_option linter.unusedSectionVars false

namespace Moo

theorem hv2dLoopT_runs {K : Type} [CommRing K] [LinearOrder K] (pts : ℕ → ℕ → K) (ref : ℕ → K) : ∀ (ps : List ℕ) (b : Bool) (pj hv : K),
    Runs (hv2dLoopT pts ref b ps pj hv) (hv2dLoop pts ref b ps pj hv) ps.length
  | [], _, _, _ => Runs.ret _
  | p :: ps, b, pj, hv => by
    rw [hv2dLoopT, hv2dLoop]
    refine Runs.tickB (B := ps.length) ?_ (by simp)
    split_ifs
    · exact (Runs.ret _).mono (by omega)
    · exact hv2dLoopT_runs pts ref ps _ _ _
    · exact (Runs.ret _).mono (by omega)
    · exact hv2dLoopT_runs pts ref ps _ _ _

/-- C97 for two objectives: after sorting, at most `2 n` steps. -/
theorem C97_two_objectives (n tf : ℕ) (pts : ℕ → ℕ → ℝ) (ref : ℕ → ℝ) (env : HvEnv ℝ) (henv : HvEnvOk pts 2 n env) :
    Runs (fpliHvSteps tf pts 2 n ref env) (fpliHv pts 2 n ref env) (2 * n) := by
  unfold fpliHvSteps fpliHv
  by_cases hn : n = 0
  · rw [if_pos hn, if_pos hn]
    exact (Runs.ret _).mono (by omega)
  · rw [if_neg hn, if_neg hn, if_pos rfl, if_pos rfl]
    have hl : env.ps.length = n := by
      have := (henv.1 rfl).1.length_eq
      simpa using this
    have := hv2dLoopT_runs pts ref env.ps false (ref 1) 0
    rw [hl] at this
    exact Runs.ticksB (B := n) this (by omega)

/-- **C97**, for `d ≥ 3` objectives: at most `n^(d-2) (8 log n + 3 d² + 22)` steps, where the logarithm is to base 2, rounded down.  The result is the value of the model
of the computation without a count (C12, C13, C80, C88). -/
theorem C97_steps (d n : ℕ) (hd : 3 ≤ d) (hn : n < 2 ^ 125) (tf : ℕ) (htf : n < tf) (pts : ℕ → ℕ → ℝ) (ref : ℕ → ℝ) (env : HvEnv ℝ)
    (henv : HvEnvOk pts d n env) :
    Runs (fpliHvSteps tf pts d n ref env) (fpliHv pts d n ref env) (n ^ (d - 2) * (8 * Nat.log 2 n + 3 * d ^ 2 + 22)) := by
  unfold fpliHvSteps fpliHv
  by_cases h0 : n = 0
  · rw [if_pos h0, if_pos h0]
    exact (Runs.ret _).mono (by omega)
  · rw [if_neg h0, if_neg h0, if_neg (by omega), if_neg (by omega)]
    refine (fpliHvT_runs hd (by omega) hn tf (Nat.log 2 n + 1) htf (lt_two_pow_log n).le env.ords env.b0 env.mem (henv.2.1 (by omega)) ?_ env.mem.tree).mono ?_
    · intro p h1 h2 k hk
      exact henv.2.2 (p - 1) (by omega) k hk
    · exact Nat.mul_le_mul_left _ (by omega)

/-- **C97** for three objectives: `O(n log n)`. -/
theorem C97_three_objectives (n : ℕ) (hn : n < 2 ^ 125) (tf : ℕ) (htf : n < tf) (pts : ℕ → ℕ → ℝ) (ref : ℕ → ℝ) (env : HvEnv ℝ) (henv : HvEnvOk pts 3 n env) :
    Runs (fpliHvSteps tf pts 3 n ref env) (fpliHv pts 3 n ref env) (n * (8 * Nat.log 2 n + 49)) :=
  (C97_steps 3 n (le_refl _) hn tf htf pts ref env henv).mono (by rw [show 3 - 2 = 1 by rfl, pow_one]; exact Nat.mul_le_mul_left _ (by omega))

/-- The constant in `O(n^(d-2) log n)` can be taken quadratic in `d`: for at least two points there are at most `14 d² n^(d-2) log n` steps. -/
theorem C97_big_O (d n : ℕ) (hd : 3 ≤ d) (hn2 : 2 ≤ n) (hn : n < 2 ^ 125) (tf : ℕ) (htf : n < tf) (pts : ℕ → ℕ → ℝ) (ref : ℕ → ℝ) (env : HvEnv ℝ)
    (henv : HvEnvOk pts d n env) :
    Runs (fpliHvSteps tf pts d n ref env) (fpliHv pts d n ref env) (14 * d ^ 2 * n ^ (d - 2) * Nat.log 2 n) := by
  refine (C97_steps d n hd hn tf htf pts ref env henv).mono ?_
  have hl : 1 ≤ Nat.log 2 n := Nat.log_pos (by omega) hn2
  rw [show 14 * d ^ 2 * n ^ (d - 2) * Nat.log 2 n = n ^ (d - 2) * (14 * d ^ 2 * Nat.log 2 n) by ring]
  refine Nat.mul_le_mul_left _ ?_
  have h9 : 9 ≤ d ^ 2 := by nlinarith
  nlinarith

/-! ### The hypotheses can be met -/

/-- Any set of points has an order for each objective, so the hypotheses can be met for every input: 1000 points of three objectives take at most 121000 steps. -/
example (pts : ℕ → ℕ → ℝ) (ref : ℕ → ℝ) : ∃ env : HvEnv ℝ, Runs (fpliHvSteps 1001 pts 3 1000 ref env) (fpliHv pts 3 1000 ref env) 121000 := by
  obtain ⟨env, h, -⟩ := exists_stable_env 3 1000 pts
  refine ⟨env, (C97_three_objectives 1000 (by norm_num) 1001 (by omega) pts ref env h).mono ?_⟩
  rw [show Nat.log 2 1000 = 9 from (Nat.log_eq_iff (by omega)).2 ⟨by norm_num, by norm_num⟩]

/-- A complete run on six points, with rotations and removals: 109 steps. -/
example : HvEnvOk treePts 3 6 treeEnv ∧ (fpliHvSteps 9 treePts 3 6 (fun _ => 10) treeEnv).map id = some (305, 109) :=
  ⟨treeEnv_ok, by decide +kernel⟩

end Moo
