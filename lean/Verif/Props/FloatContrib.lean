import Verif.Props.FloatHv
import Verif.Props.FloatHv2d

/-!
# C91: hypervolume contributions in double precision
-/

set_option autoImplicit false

namespace Moo

variable {rnd : ℝ → ℝ}

/-- All assertions hold if and only if no value is negative. -/
theorem hvContributionsF_eq_some (pts : ℕ → ℕ → ℝ) (d n : ℕ) (ref : ℕ → ℝ) (env : HvEnv ℝ) (envs : ℕ → HvEnv ℝ)
    (h : ∀ i < n, 0 ≤ hvContributionF rnd pts d n ref env envs i) :
    hvContributionsF rnd pts d n ref env envs = some ((List.range n).map (hvContributionF rnd pts d n ref env envs)) := by
  unfold hvContributionsF
  have : ∀ L : List ℕ, (∀ i ∈ L, i < n) → (L.mapM fun i =>
      if hvContributionF rnd pts d n ref env envs i ≥ 0 then some (hvContributionF rnd pts d n ref env envs i) else none) =
      some (L.map (hvContributionF rnd pts d n ref env envs)) := by
    intro L
    induction L with
    | nil => intro _; rfl
    | cons i L ih =>
      intro hL
      rw [List.mapM_cons, if_pos (h i (hL i (by simp))), ih (fun j hj => hL j (by simp [hj]))]
      rfl
  exact this _ (fun i hi => List.mem_range.1 hi)

theorem hvContributionsF_eq_none (pts : ℕ → ℕ → ℝ) (d n : ℕ) (ref : ℕ → ℝ) (env : HvEnv ℝ) (envs : ℕ → HvEnv ℝ)
    (h : ∃ i < n, hvContributionF rnd pts d n ref env envs i < 0) : hvContributionsF rnd pts d n ref env envs = none := by
  unfold hvContributionsF
  obtain ⟨i, hi, hneg⟩ := h
  have : ∀ L : List ℕ, i ∈ L → (L.mapM fun i =>
      if hvContributionF rnd pts d n ref env envs i ≥ 0 then some (hvContributionF rnd pts d n ref env envs i) else none) = none := by
    intro L
    induction L with
    | nil => intro h; simp at h
    | cons j L ih =>
      intro hL
      rw [List.mapM_cons]
      by_cases hj : hvContributionF rnd pts d n ref env envs j ≥ 0
      · rw [if_pos hj]
        have hij : i ≠ j := by rintro rfl; exact absurd hj (not_le.2 hneg)
        rw [ih ((List.mem_cons.1 hL).resolve_left hij)]
        rfl
      · rw [if_neg hj]; rfl
  exact this _ (List.mem_range.2 hi)

theorem exclusive_nonneg (d n : ℕ) (pts : ℕ → ℕ → ℝ) (ref : ℕ → ℝ) (i : ℕ) :
    0 ≤ vol (dominatedRegion d n pts ref) - vol (dominatedRegionWithout d n pts ref i) := by
  rw [vol_dominatedRegion, vol_dominatedRegionWithout, sub_nonneg]
  exact HV_mono (hvSet_subset (fun p hp => ⟨p, List.mem_of_mem_filter hp, fun _ _ => le_refl _⟩))

/-- **C91 (grid data).** For the data of C89, `hv_contributions` makes no rounding error: each value is the one of exact arithmetic, for every way in which
the calls of `qsort` may order ties. -/
theorem C91_contributions_exact_on_grid (hr : Nearest binary64 rnd) (d n : ℕ) (hd : 2 ≤ d) (pts : ℕ → ℕ → ℝ) (ref low : ℕ → ℝ) (e : ℕ → ℤ)
    (env : HvEnv ℝ) (envs : ℕ → HvEnv ℝ) (henv : HvEnvOk pts d n env) (henvs : ∀ i < n, HvEnvOk (replaceRow pts ref i) d n (envs i))
    (hp : ∀ i < n, ∀ k < d, ∃ m : ℤ, pts i k = m * (2 : ℝ) ^ e k) (href : ∀ k < d, ∃ m : ℤ, ref k = m * (2 : ℝ) ^ e k)
    (he1 : ∀ k < d, -1074 ≤ e k) (he2 : ∀ i ≤ d, -1074 ≤ ∑ k ∈ Finset.range i, e k)
    (hlow : ∀ i < n, (∀ k < d, pts i k < ref k) → ∀ k < d, low k ≤ pts i k)
    (hV : ∏ k ∈ Finset.range d, (ref k - low k) ≤ 2 ^ 53 * (2 : ℝ) ^ (∑ k ∈ Finset.range d, e k)) (i : ℕ) (hi : i < n) :
    hvContributionF rnd pts d n ref env envs i = hvContribution pts d n ref ((2 : ℝ) ^ (-26 : ℤ)) env envs i ∧
    ∃ m : ℤ, hvContribution pts d n ref ((2 : ℝ) ^ (-26 : ℤ)) env envs i = m * (2 : ℝ) ^ (∑ k ∈ Finset.range d, e k) := by
  obtain ⟨a1, a2, a3, a4⟩ := fpliHvF_grid hr hd pts env henv hp href he1 he2 hlow hV
  obtain ⟨b1, b2, b3, b4⟩ := fpliHvF_grid (low := low) (e := e) hr hd (replaceRow pts ref i) (envs i) (henvs i hi)
    (fun j hj k hk => by
      unfold replaceRow upd
      split
      · exact href k hk
      · exact hp j hj k hk) href he1 he2
    (fun j hj h k hk => by
      unfold replaceRow upd at h ⊢
      split at h
      · exact absurd (h k hk) (lt_irrefl _)
      · rename_i hne
        rw [if_neg hne]
        exact hlow j hj h k hk) hV
  have hg : OnGrid (gE e d) (fpliHv pts d n ref env - fpliHv (replaceRow pts ref i) d n ref (envs i)) := a2.sub b2
  have hrnd : rnd (fpliHv pts d n ref env - fpliHv (replaceRow pts ref i) d n ref (envs i)) =
      fpliHv pts d n ref env - fpliHv (replaceRow pts ref i) d n ref (envs i) :=
    hg.rnd_eq hr (he2 d (le_refl _)) (abs_le.2 ⟨by linarith, by linarith⟩)
  unfold hvContributionF hvContribution hvOnePointDiff
  dsimp only
  rw [a1, b1, hrnd]
  refine ⟨rfl, ?_⟩
  split
  · exact hg
  · exact ⟨0, by simp⟩

/-- **C91 (integers).** For integer data whose box has a volume of at most `2 ^ 53`, and a stable `qsort` (any `qsort` for two or three objectives), the
assertion of `hv_contributions` holds and the values are exactly the exclusive volumes. -/
theorem C91_contributions_exact_integers (hr : Nearest binary64 rnd) (d n : ℕ) (hd : 2 ≤ d) (pts : ℕ → ℕ → ℝ) (ref low : ℕ → ℝ)
    (env : HvEnv ℝ) (envs : ℕ → HvEnv ℝ) (henv : HvEnvOk pts d n env) (henvs : ∀ i < n, HvEnvOk (replaceRow pts ref i) d n (envs i))
    (hstable : d ≤ 3 ∨ (∀ j, j + 1 < d → StableQsort (compareNode (nodeTable pts) j) (env.ords (j + 1)) (env.ords j)) ∧
      ∀ i < n, ∀ j, j + 1 < d → StableQsort (compareNode (nodeTable (replaceRow pts ref i)) j) ((envs i).ords (j + 1)) ((envs i).ords j))
    (hp : ∀ i < n, ∀ k < d, ∃ m : ℤ, pts i k = m) (href : ∀ k < d, ∃ m : ℤ, ref k = m)
    (hlow : ∀ i < n, (∀ k < d, pts i k < ref k) → ∀ k < d, low k ≤ pts i k) (hV : ∏ k ∈ Finset.range d, (ref k - low k) ≤ 2 ^ 53) :
    hvContributionsF rnd pts d n ref env envs =
      some ((List.range n).map fun i => vol (dominatedRegion d n pts ref) - vol (dominatedRegionWithout d n pts ref i)) := by
  have hties : d ≤ 3 ∨ TiesConsistent (nodeTable pts) d env.ords ∧ ∀ i < n, TiesConsistent (nodeTable (replaceRow pts ref i)) d (envs i).ords :=
    hstable.imp id (fun h => ⟨tiesConsistent_of_stable _ _ _ h.1, fun i hi => tiesConsistent_of_stable _ _ _ (h.2 i hi)⟩)
  have key : ∀ i < n, hvContributionF rnd pts d n ref env envs i =
      vol (dominatedRegion d n pts ref) - vol (dominatedRegionWithout d n pts ref i) ∧ 0 ≤ hvContributionF rnd pts d n ref env envs i := by
    intro i hi
    have hg : ∀ tol : ℝ, _ := fun tol => C16_contribution_is_exclusive_volume_partial d n hd pts ref tol env envs henv henvs hties i hi
    have hf := (C91_contributions_exact_on_grid hr d n hd pts ref low (fun _ => 0) env envs henv henvs (fun i hi k hk => by simpa using hp i hi k hk)
      (fun k hk => by simpa using href k hk) (fun _ _ => by norm_num) (fun i _ => by simp) hlow (by simpa using hV) i hi).1
    rw [hf]
    refine ⟨?_, (hg _).2⟩
    -- the exact difference is an integer
    obtain ⟨m, hm⟩ : ∃ m : ℤ, vol (dominatedRegion d n pts ref) - vol (dominatedRegionWithout d n pts ref i) = m := by
      obtain ⟨-, a2, -⟩ := fpliHvF_grid (low := low) (e := fun _ => 0) hr hd pts env henv (fun i hi k hk => by simpa [OnGrid] using hp i hi k hk)
        (fun k hk => by simpa [OnGrid] using href k hk) (fun _ _ => by norm_num) (fun i _ => by simp) hlow (by simpa using hV)
      obtain ⟨-, b2, -⟩ := fpliHvF_grid (low := low) (e := fun _ => 0) hr hd (replaceRow pts ref i) (envs i) (henvs i hi)
        (fun j hj k hk => by
          unfold replaceRow upd
          split
          · simpa [OnGrid] using href k hk
          · simpa [OnGrid] using hp j hj k hk) (fun k hk => by simpa [OnGrid] using href k hk) (fun _ _ => by norm_num) (fun i _ => by simp)
        (fun j hj h k hk => by
          unfold replaceRow upd at h ⊢
          split at h
          · exact absurd (h k hk) (lt_irrefl _)
          · rename_i hne
            rw [if_neg hne]
            exact hlow j hj h k hk) (by simpa using hV)
      have h0 := hg 0
      rw [hvContribution] at h0
      have h1 := h0.1
      rw [if_pos (abs_nonneg _)] at h1
      have h2 := h0.2
      rw [if_pos (abs_nonneg _), h1] at h2
      obtain ⟨m, hm⟩ := a2.sub b2
      refine ⟨m, ?_⟩
      unfold hvOnePointDiff at h1
      rw [hm] at h1
      have hge : 0 ≤ vol (dominatedRegion d n pts ref) - vol (dominatedRegionWithout d n pts ref i) := by
        exact exclusive_nonneg d n pts ref i
      rw [if_pos hge] at h1
      rw [← h1]
      simp [gE]
    rw [(hg _).1, hm]
    split
    · rfl
    · rename_i hlt
      push Not at hlt
      have hge : (0 : ℝ) ≤ m := by
        rw [← hm]; exact exclusive_nonneg d n pts ref i
      have h1 : (m : ℝ) < 1 := hlt.trans (zpow_lt_one_of_neg₀ (by norm_num) (by norm_num))
      have h2 : m = 0 := by
        have : m < 1 := by exact_mod_cast h1
        have : 0 ≤ m := by exact_mod_cast hge
        omega
      rw [h2]; simp
  rw [hvContributionsF_eq_some _ _ _ _ _ _ (fun i hi => (key i hi).2)]
  congr 1
  exact List.map_congr_left (fun i hi => (key i (List.mem_range.1 hi)).1)

/-- **C91 (three objectives).** With the notation of C90, each value differs from the exclusive volume by at most
`2 ((1 + 2 ^ -53) ^ (11 n + 1) - 1) V + 2 ^ -26`; the last term comes from the replacement of small values by zero. -/
theorem C91_contribution3d_error (hr : Nearest binary64 rnd) (n : ℕ) (pts : ℕ → ℕ → ℝ) (ref low : ℕ → ℝ) (env : HvEnv ℝ) (envs : ℕ → HvEnv ℝ)
    (henv : HvEnvOk pts 3 n env) (henvs : ∀ i < n, HvEnvOk (replaceRow pts ref i) 3 n (envs i))
    (hp : ∀ i < n, ∀ k < 3, pts i k ∈ binary64) (href : ∀ k < 3, ref k ∈ binary64)
    (hlow : ∀ i < n, (∀ k < 3, pts i k < ref k) → ∀ k < 3, low k ≤ pts i k) (hA : (2 : ℝ) ^ (-1022 : ℤ) ≤ (ref 0 - low 0) * (ref 1 - low 1))
    (hV : (2 : ℝ) ^ (-1022 : ℤ) ≤ (ref 0 - low 0) * (ref 1 - low 1) * (ref 2 - low 2)) (i : ℕ) (hi : i < n) :
    |hvContributionF rnd pts 3 n ref env envs i - (vol (dominatedRegion 3 n pts ref) - vol (dominatedRegionWithout 3 n pts ref i))| ≤
      2 * ((1 + (2 : ℝ) ^ (-53 : ℤ)) ^ (11 * n + 1) - 1) * ((ref 0 - low 0) * (ref 1 - low 1) * (ref 2 - low 2)) + (2 : ℝ) ^ (-26 : ℤ) := by
  set V := (ref 0 - low 0) * (ref 1 - low 1) * (ref 2 - low 2) with hVd
  have h1 := C90_hv3d_float_error hr n pts ref low env henv hp href hlow hA hV
  have h2 := C90_hv3d_float_error hr n (replaceRow pts ref i) ref low (envs i) (henvs i hi)
    (fun j hj k hk => by
      unfold replaceRow upd
      split
      · exact href k hk
      · exact hp j hj k hk) href
    (fun j hj h k hk => by
      unfold replaceRow upd at h ⊢
      split at h
      · exact absurd (h k hk) (lt_irrefl _)
      · rename_i hne
        rw [if_neg hne]
        exact hlow j hj h k hk) hA hV
  have h3 : vol (dominatedRegion 3 n (replaceRow pts ref i) ref) = vol (dominatedRegionWithout 3 n pts ref i) := by
    rw [← hvContribution_value 3 n i (by norm_num) pts ref (envs i) (henvs i hi) (Or.inl (by norm_num)), hvOnePointDiff]
    obtain ⟨h0, hv⟩ := C12_hv3d_is_volume n (replaceRow pts ref i) ref (envs i) (henvs i hi)
    unfold vol
    rw [hv, ENNReal.toReal_ofReal h0]
  rw [h3] at h2
  have h4 := exclusive_nonneg 3 n pts ref i
  have h5 : vol (dominatedRegion 3 n pts ref) ≤ V := by
    rw [vol_dominatedRegion]
    obtain ⟨N, hN⟩ : ∃ N : List ℕ, ∀ p, p ∈ N ↔ p < n ∧ ∀ k < 3, pts p k < ref k := by
      classical exact ⟨(List.range n).filter (fun p => ∀ k < 3, pts p k < ref k), fun p => by rw [List.mem_filter, List.mem_range]; simp⟩
    have hsub : hvSet 3 pts (List.range n) ref ⊆ hvSet 3 pts N ref := by
      rintro y ⟨p, hpn, hy⟩
      exact ⟨p, (hN p).2 ⟨List.mem_range.1 hpn, fun k hk => (hy ⟨k, hk⟩).1.trans_lt (hy ⟨k, hk⟩).2⟩, hy⟩
    refine (HV_mono hsub).trans ?_
    by_cases hne : N = []
    · rw [hne]
      have : HV 3 pts [] ref = 0 := by unfold HV hvSet; simp
      rw [this]
      exact (zpow_nonneg (by norm_num) _).trans hV
    · obtain ⟨p, hpN⟩ := List.exists_mem_of_ne_nil N hne
      have := HV_le_box (x := pts) (ref := ref) (low := low) 3 N (fun q hq => hlow q ((hN q).1 hq).1 ((hN q).1 hq).2)
        (fun k hk => (hlow p ((hN p).1 hpN).1 ((hN p).1 hpN).2 k hk).trans (((hN p).1 hpN).2 k hk).le)
      rw [Fin.prod_univ_three] at this
      exact this
  have h6 : 0 ≤ vol (dominatedRegionWithout 3 n pts ref i) := ENNReal.toReal_nonneg
  set q := (1 + (2 : ℝ) ^ (-53 : ℤ)) ^ (11 * n) with hq
  set a := vol (dominatedRegion 3 n pts ref)
  set b := vol (dominatedRegionWithout 3 n pts ref i)
  set a' := fpliHvF rnd pts 3 n ref env with ha'
  set b' := fpliHvF rnd (replaceRow pts ref i) 3 n ref (envs i) with hb'
  have h7 := hr.err (a' - b')
  have hab : |a' - b'| ≤ V + 2 * ((q - 1) * V) := by
    rw [abs_le] at h1 h2 ⊢
    constructor <;> linarith [h1.1, h1.2, h2.1, h2.2]
  have hu : (0 : ℝ) < ulpU := ulpU_pos
  have h8 : |rnd (a' - b') - (a' - b')| ≤ ulpU * (V + 2 * ((q - 1) * V)) + ulpU * V :=
    h7.trans (add_le_add (mul_le_mul_of_nonneg_left hab hu.le) (mul_le_mul_of_nonneg_left hV hu.le))
  have h9 : |rnd (a' - b') - (a - b)| ≤ 2 * (q * (1 + ulpU) - 1) * V := by
    have e1 : 2 * (q * (1 + ulpU) - 1) * V = (q - 1) * V + (q - 1) * V + (ulpU * (V + 2 * ((q - 1) * V)) + ulpU * V) := by ring
    rw [e1]
    rw [abs_le] at h1 h2 h8 ⊢
    constructor <;> linarith [h1.1, h1.2, h2.1, h2.2, h8.1, h8.2]
  have ht : (0 : ℝ) < (2 : ℝ) ^ (-26 : ℤ) := zpow_pos (by norm_num) _
  rw [pow_succ, ← hq, show (1 + (2 : ℝ) ^ (-53 : ℤ)) = 1 + ulpU from rfl]
  unfold hvContributionF
  dsimp only
  rw [← ha', ← hb']
  split
  · linarith
  · rename_i hlt
    push Not at hlt
    rw [abs_le] at h9 ⊢
    rw [abs_lt] at hlt
    constructor <;> linarith [h9.1, h9.2, hlt.1, hlt.2]


/-- **C91 (dominated points, two objectives).** With two objectives the value of a weakly dominated point is exactly zero. -/
theorem C91_contribution2d_dominated (hr : Nearest binary64 rnd) (n : ℕ) (pts : ℕ → ℕ → ℝ) (ref : ℕ → ℝ) (env : HvEnv ℝ) (envs : ℕ → HvEnv ℝ)
    (henv : HvEnvOk pts 2 n env) (i : ℕ) (hi : i < n) (henvs : HvEnvOk (replaceRow pts ref i) 2 n (envs i)) (j : ℕ) (hj : j < n) (hji : j ≠ i)
    (hdom : ∀ k < 2, pts j k ≤ pts i k) : hvContributionF rnd pts 2 n ref env envs i = 0 := by
  obtain ⟨m, rfl⟩ : ∃ m, n = m + 1 := ⟨n - 1, by omega⟩
  set σ : ℕ → ℕ := fun p => Equiv.swap i m p with hσ
  have hσm : σ m = i := Equiv.swap_apply_right i m
  have hσσ : ∀ p, σ (σ p) = p := fun p => Equiv.swap_apply_self i m p
  have hσlt : ∀ p < m + 1, σ p < m + 1 := by
    intro p hp
    simp only [hσ, Equiv.swap_apply_def]
    split_ifs <;> omega
  have hperm : ((List.range (m + 1)).map σ).Perm (List.range (m + 1)) := by
    refine (List.perm_ext_iff_of_nodup ?_ List.nodup_range).2 ?_
    · exact List.Nodup.map (Equiv.swap i m).injective List.nodup_range
    · intro a
      rw [List.mem_map, List.mem_range]
      constructor
      · rintro ⟨p, hp, rfl⟩; exact hσlt p (List.mem_range.1 hp)
      · intro ha; exact ⟨σ a, List.mem_range.2 (hσlt a ha), hσσ a⟩
  set pts' := replaceRow pts ref i with hpts'
  set qts : ℕ → ℕ → ℝ := fun p => pts (σ p) with hqts
  set qts' : ℕ → ℕ → ℝ := fun p => pts' (σ p) with hqts'
  obtain ⟨e1, h1, -⟩ := exists_stable_env 2 (m + 1) qts
  obtain ⟨e2, h2, -⟩ := exists_stable_env 2 m qts
  obtain ⟨e3, h3, -⟩ := exists_stable_env 2 (m + 1) qts'
  have hq1 := h1.1 rfl
  have hq2 := h2.1 rfl
  have hq3 := h3.1 rfl
  have a1 : hv2dF rnd pts env.ps ref = hv2dF rnd qts e1.ps ref :=
    C52_hv2d_float_order (m + 1) pts qts ref _ _ (henv.1 rfl) hq1 σ hperm (fun _ _ _ _ => rfl)
  have a2 : hv2dF rnd qts e1.ps ref = hv2dF rnd qts e2.ps ref := by
    refine C52_hv2d_float_dominated m qts ref _ _ hq2 hq1 ⟨σ j, ?_, ?_⟩
    · have : σ j ≠ m := by
        intro h
        have := hσσ j
        rw [h, hσm] at this
        exact hji this.symm
      have := hσlt j hj
      omega
    · intro k hk
      simp only [hqts, hσσ, hσm]
      exact hdom k hk
  have a3 : hv2dF rnd pts' (envs i).ps ref = hv2dF rnd qts' e3.ps ref :=
    C52_hv2d_float_order (m + 1) pts' qts' ref _ _ (henvs.1 rfl) hq3 σ hperm (fun _ _ _ _ => rfl)
  have hm : m ∈ e3.ps := hq3.1.mem_iff.2 (List.mem_range.2 (by omega))
  obtain ⟨L1, L2, hL⟩ := List.append_of_mem hm
  rw [hL] at hq3
  have hperm' : (L1 ++ L2).Perm (List.range m) := by
    have h1 : (m :: (L1 ++ L2)).Perm (m :: List.range m) := by
      refine List.perm_middle.symm.trans (hq3.1.trans ?_)
      rw [List.range_succ]
      exact List.perm_append_singleton _ _
    exact h1.cons_inv
  have hsort : Qsort (compareXAscYAsc qts') (List.range m) (L1 ++ L2) :=
    ⟨hperm', hq3.2.sublist (List.Sublist.append_left (List.sublist_cons_self _ _) _)⟩
  have a4 : hv2dF rnd qts' e3.ps ref = hv2dF rnd qts' (L1 ++ L2) ref := by
    rw [hL]
    refine hv2dLoopF_skip qts' ref m L2 L1 hq3.2 false (ref 1) 0 (Or.inl ?_)
    simp [hqts', hσm, hpts', replaceRow, upd]
  have a5 : hv2dF rnd qts e2.ps ref = hv2dF rnd qts' (L1 ++ L2) ref := by
    refine C52_hv2d_float_order m qts qts' ref _ _ hq2 hsort id (by rw [List.map_id]) ?_
    intro p hp k _
    have hne : σ p ≠ i := by
      intro h
      have := hσσ p
      rw [h, ← hσm, hσσ] at this
      omega
    simp [hqts, hqts', hpts', replaceRow, upd, hne]
  have hd : fpliHvF rnd pts 2 (m + 1) ref env = fpliHvF rnd pts' 2 (m + 1) ref (envs i) := by
    simp only [fpliHvF, if_neg (Nat.succ_ne_zero m), if_true]
    rw [a1, a2, a3, a4, a5]
  unfold hvContributionF
  dsimp only
  rw [← hpts', hd, sub_self, hr.fix binary64_zero, abs_zero, if_neg (not_le.2 (zpow_pos (by norm_num) _))]

/-! ### The assertion can fail -/

/-- **C91, what fails (three objectives).** For the points `(0, 0, 0)` and `(1, 1, 1)` and the reference point `(2 ^ 52 + 3, 2, 10)` the value of the second
point, which is dominated, is negative, and the assertion at the end of `hv_contributions` fails. -/
theorem C91_assertion_fails_3d (hr : Nearest binary64 rnd) (env : HvEnv ℝ) (envs : ℕ → HvEnv ℝ) (henv : HvEnvOk diagPts 3 2 env)
    (henvs : ∀ i < 2, HvEnvOk (replaceRow diagPts diagRef i) 3 2 (envs i)) :
    hvContributionF rnd diagPts 3 2 diagRef env envs 1 = -16 ∧ hvContributionsF rnd diagPts 3 2 diagRef env envs = none := by
  have h1 : hvContributionF rnd diagPts 3 2 diagRef env envs 1 = -16 := by
    unfold hvContributionF
    have h2 := diag_one_value hr (replaceRow diagPts diagRef 1) 2 (by norm_num) (envs 1) (henvs 1 (by norm_num))
      (fun k _ => by simp [replaceRow, upd, diagPts]) (fun i hi hne => by
        obtain rfl : i = 1 := by omega
        simp [replaceRow, upd])
    rw [diag_two_value hr env henv, h2]
    have h3 : rnd (16 * ((5629499534213123 : ℤ) : ℝ) - 16 * ((5629499534213124 : ℤ) : ℝ)) = -16 := by
      have e : 16 * ((5629499534213123 : ℤ) : ℝ) - 16 * ((5629499534213124 : ℤ) : ℝ) = ((-16 : ℤ) : ℝ) := by norm_num
      rw [e, hr.fix (binary64_int (by norm_num))]; norm_num
    rw [h3]
    norm_num
  exact ⟨h1, hvContributionsF_eq_none _ _ _ _ _ _ ⟨1, by norm_num, by rw [h1]; norm_num⟩⟩

/-- The points `(0, 0)` and `(-1, 17)`. -/
def stepPts : ℕ → ℕ → ℝ := fun i k => if i = 0 then 0 else if k = 0 then -1 else 17

/-- The reference point `(2 ^ 52 + 5, 18)`. -/
def stepRef : ℕ → ℝ := fun k => if k = 0 then 2 ^ 52 + 5 else 18

/-- **C91, what fails (two objectives).** The assertion can also fail with two objectives, and for a set without dominated points: for the points `(0, 0)` and
`(-1, 17)` and the reference point `(2 ^ 52 + 5, 18)` the value of the second point is `-16`, where its exclusive area is `1`. -/
theorem C91_assertion_fails_2d (hr : Nearest binary64 rnd) (env : HvEnv ℝ) (envs : ℕ → HvEnv ℝ) (henv : HvEnvOk stepPts 2 2 env)
    (henvs : ∀ i < 2, HvEnvOk (replaceRow stepPts stepRef i) 2 2 (envs i)) :
    hvContributionF rnd stepPts 2 2 stepRef env envs 1 = -16 ∧ hvContributionsF rnd stepPts 2 2 stepRef env envs = none := by
  have two : ∀ l : List ℕ, l.Perm (List.range 2) → l = [0, 1] ∨ l = [1, 0] := by
    intro l hp
    have hl := hp.length_eq
    match l, hl with
    | [a, b], _ =>
      have h1 := hp.mem_iff (a := 0)
      have h2 := hp.mem_iff (a := 1)
      simp at h1 h2
      rcases h1 with rfl | rfl <;> rcases h2 with h2 | h2 <;> simp_all
  have o1 : env.ps = [1, 0] := by
    have h := henv.1 rfl
    rcases two _ h.1 with h' | h'
    · have := h.2
      rw [h'] at this
      simp [compareXAscYAsc, stepPts] at this
      norm_num at this
    · exact h'
  have p0 : (0 : ℝ) < 2 ^ 52 + 5 := by norm_num
  have o2 : (envs 1).ps = [0, 1] := by
    have h := (henvs 1 (by norm_num)).1 rfl
    rcases two _ h.1 with h' | h'
    · exact h'
    · have := h.2
      rw [h'] at this
      simp [compareXAscYAsc, replaceRow, upd, stepPts, stepRef] at this
      norm_num at this
  have hi : ∀ m : ℤ, |m| ≤ 2 ^ 53 → rnd (m : ℝ) = m := fun m hm => hr.fix (binary64_int hm)
  have r1 : rnd (2 ^ 52 + 5) = 2 ^ 52 + 5 := by
    have := hi (2 ^ 52 + 5) (by norm_num)
    push_cast at this
    norm_num
    exact this
  have r2 : rnd (2 ^ 52 + 5 + 1) = 2 ^ 52 + 5 + 1 := by
    have := hi (2 ^ 52 + 5 + 1) (by norm_num)
    push_cast at this
    norm_num
    exact this
  have r3 : rnd 1 = 1 := by have := hi 1 (by norm_num); push_cast at this; exact this
  have r17 : rnd 17 = 17 := by have := hi 17 (by norm_num); push_cast at this; exact this
  have r18 : rnd 18 = 18 := by have := hi 18 (by norm_num); push_cast at this; exact this
  have h18 : (18 : ℝ) - 17 = 1 := by norm_num
  have e1 : fpliHvF rnd stepPts 2 2 stepRef env = 16 * (5066549580791813 : ℤ) := by
    have k1 : rnd ((2 ^ 52 + 5) * 17) = 16 * (4785074604081157 : ℤ) := hr.eq_above _ (by norm_num) (by norm_num) (by norm_num)
    have k2 : rnd (2 ^ 52 + 5 + 1 + 16 * (4785074604081157 : ℤ)) = 16 * (5066549580791813 : ℤ) :=
      hr.eq_above _ (by norm_num) (by norm_num) (by norm_num)
    have c1 : ¬ (17 : ℝ) ≥ 18 := by norm_num
    have c2 : ¬ (-1 : ℝ) ≥ 2 ^ 52 + 5 := by norm_num
    have c3 : ¬ (0 : ℝ) ≥ 17 := by norm_num
    have c4 : ¬ (0 : ℝ) ≥ 2 ^ 52 + 5 := by norm_num
    have s0 : stepRef 0 = 2 ^ 52 + 5 := by simp [stepRef]
    have s1 : stepRef 1 = 18 := by simp [stepRef]
    have q00 : stepPts 0 0 = 0 := by simp [stepPts]
    have q01 : stepPts 0 1 = 0 := by simp [stepPts]
    have q10 : stepPts 1 0 = -1 := by simp [stepPts]
    have q11 : stepPts 1 1 = 17 := by simp [stepPts]
    unfold fpliHvF
    rw [if_neg (by norm_num), if_pos rfl, o1]
    unfold hv2dF hv2dLoopF
    rw [if_neg (by simp), q11, s1, if_neg c1, q10, s0, if_neg c2]
    unfold hv2dLoopF
    rw [q00, q01, s0, if_neg (fun h => h.2 p0), if_neg c3, if_neg c4]
    unfold hv2dLoopF
    rw [sub_zero, sub_zero, sub_neg_eq_add, h18, r1, r2, r3, r17, mul_one, r2, zero_add, r2, k1, k2]
  have e2 : fpliHvF rnd (replaceRow stepPts stepRef 1) 2 2 stepRef (envs 1) = 16 * (5066549580791814 : ℤ) := by
    have k1 : rnd ((2 ^ 52 + 5) * 18) = 16 * (5066549580791814 : ℤ) := hr.eq_above _ (by norm_num) (by norm_num) (by norm_num)
    have c1 : ¬ (0 : ℝ) ≥ 18 := by norm_num
    have c4 : ¬ (0 : ℝ) ≥ 2 ^ 52 + 5 := by norm_num
    have s0 : stepRef 0 = 2 ^ 52 + 5 := by simp [stepRef]
    have s1 : stepRef 1 = 18 := by simp [stepRef]
    have q00 : replaceRow stepPts stepRef 1 0 0 = 0 := by simp [replaceRow, upd, stepPts]
    have q01 : replaceRow stepPts stepRef 1 0 1 = 0 := by simp [replaceRow, upd, stepPts]
    have q10 : replaceRow stepPts stepRef 1 1 0 = 2 ^ 52 + 5 := by simp [replaceRow, upd, stepRef]
    unfold fpliHvF
    rw [if_neg (by norm_num), if_pos rfl, o2]
    unfold hv2dF hv2dLoopF
    rw [if_neg (by simp), q01, s1, if_neg c1, q00, s0, if_neg c4]
    unfold hv2dLoopF
    rw [q10, s0, if_pos ⟨rfl, lt_irrefl _⟩, sub_zero, sub_zero, r1, r18, k1, zero_add, ← k1, hr.fix (hr.mem _)]
  have h1 : hvContributionF rnd stepPts 2 2 stepRef env envs 1 = -16 := by
    unfold hvContributionF
    rw [e1, e2]
    have h3 : rnd (16 * ((5066549580791813 : ℤ) : ℝ) - 16 * ((5066549580791814 : ℤ) : ℝ)) = -16 := by
      have e : 16 * ((5066549580791813 : ℤ) : ℝ) - 16 * ((5066549580791814 : ℤ) : ℝ) = ((-16 : ℤ) : ℝ) := by norm_num
      rw [e, hr.fix (binary64_int (by norm_num))]; norm_num
    rw [h3]
    norm_num
  exact ⟨h1, hvContributionsF_eq_none _ _ _ _ _ _ ⟨1, by norm_num, by rw [h1]; norm_num⟩⟩

/-! ### Concrete cases -/

/-- Non-vacuity of C91: environments exist for every input. -/
theorem exists_contrib_envs (d n : ℕ) (pts : ℕ → ℕ → ℝ) (ref : ℕ → ℝ) : ∃ (env : HvEnv ℝ) (envs : ℕ → HvEnv ℝ), HvEnvOk pts d n env ∧
    (∀ i < n, HvEnvOk (replaceRow pts ref i) d n (envs i)) ∧
    (∀ j, j + 1 < d → StableQsort (compareNode (nodeTable pts) j) (env.ords (j + 1)) (env.ords j)) ∧
    ∀ i < n, ∀ j, j + 1 < d → StableQsort (compareNode (nodeTable (replaceRow pts ref i)) j) ((envs i).ords (j + 1)) ((envs i).ords j) := by
  obtain ⟨env, h1, h2, -⟩ := exists_stable_env d n pts
  choose envs g1 g2 _ using fun i => exists_stable_env d n (replaceRow pts ref i)
  exact ⟨env, envs, h1, fun i _ => g1 i, h2, fun i _ => g2 i⟩

/-- A non-trivial case of C91: three points with four objectives. -/
example : ∃ (rnd : ℝ → ℝ) (env : HvEnv ℝ) (envs : ℕ → HvEnv ℝ), Nearest binary64 rnd ∧ HvEnvOk grid4 4 3 env ∧
    hvContributionsF rnd grid4 4 3 (fun _ => 10) env envs = some ((List.range 3).map fun i =>
      vol (dominatedRegion 4 3 grid4 (fun _ => 10)) - vol (dominatedRegionWithout 4 3 grid4 (fun _ => 10) i)) := by
  obtain ⟨rnd, hr⟩ := exists_nearest64
  obtain ⟨env, envs, h1, h2, h3, h4⟩ := exists_contrib_envs 4 3 grid4 (fun _ => 10)
  refine ⟨rnd, env, envs, hr, h1, C91_contributions_exact_integers hr 4 3 (by norm_num) grid4 (fun _ => 10) (fun _ => 0) env envs h1 h2
    (Or.inr ⟨h3, h4⟩) ?_ ?_ ?_ ?_⟩
  · intro i _ k _; exact ⟨_, rfl⟩
  · intro k _; exact ⟨10, by norm_num⟩
  · intro i hi _ k hk
    have h1 : i = 0 ∨ i = 1 ∨ i = 2 := by omega
    have h2 : k = 0 ∨ k = 1 ∨ k = 2 ∨ k = 3 := by omega
    rcases h1 with rfl | rfl | rfl <;> rcases h2 with rfl | rfl | rfl | rfl <;> norm_num [grid4]
  · simp; norm_num

/-- `(1, 1)` is dominated by `(0, 0)`; the three-objective bound applies to `(0, 0, 0)` and `(1, 1, 1)` with the reference point of `diagRef`. -/
example : ∃ (rnd : ℝ → ℝ) (env : HvEnv ℝ) (envs : ℕ → HvEnv ℝ) (env' : HvEnv ℝ) (envs' : ℕ → HvEnv ℝ), Nearest binary64 rnd ∧
    hvContributionF rnd diagPts 2 2 (fun _ => 3) env envs 1 = 0 ∧
    |hvContributionF rnd diagPts 3 2 diagRef env' envs' 1 - (vol (dominatedRegion 3 2 diagPts diagRef) - vol (dominatedRegionWithout 3 2 diagPts diagRef 1))| ≤
      2 * ((1 + (2 : ℝ) ^ (-53 : ℤ)) ^ 23 - 1) * ((2 ^ 52 + 3) * 2 * 10) + (2 : ℝ) ^ (-26 : ℤ) := by
  obtain ⟨rnd, hr⟩ := exists_nearest64
  obtain ⟨env, envs, h1, h2, -, -⟩ := exists_contrib_envs 2 2 diagPts (fun _ => 3)
  obtain ⟨env', envs', h1', h2', -, -⟩ := exists_contrib_envs 3 2 diagPts diagRef
  refine ⟨rnd, env, envs, env', envs', hr, C91_contribution2d_dominated hr 2 diagPts _ env envs h1 1 (by norm_num) (h2 1 (by norm_num)) 0 (by norm_num)
    (by norm_num) (fun k _ => by simp [diagPts]), ?_⟩
  have h := C91_contribution3d_error hr 2 diagPts diagRef (fun _ => 0) env' envs' h1' h2' (fun i hi k _ => ?_) (fun k _ => ?_) (fun i hi _ k _ => ?_) ?_ ?_ 1
    (by norm_num)
  · have e : (diagRef 0 - 0) * (diagRef 1 - 0) * (diagRef 2 - 0) = (2 ^ 52 + 3) * 2 * 10 := by simp [diagRef]
    rw [e] at h
    exact h
  · have : diagPts i k = ((i : ℤ) : ℝ) := by simp [diagPts]
    rw [this]
    exact binary64_int (by rw [abs_of_nonneg (by omega)]; omega)
  · unfold diagRef
    split_ifs
    · exact ⟨2 ^ 52 + 3, 0, by norm_num, by norm_num, by norm_num⟩
    · exact ⟨2, 0, by norm_num, by norm_num, by norm_num⟩
    · exact ⟨10, 0, by norm_num, by norm_num, by norm_num⟩
  · simp [diagPts]
  · exact le_trans (zpow_le_one_of_nonpos₀ (by norm_num) (by norm_num)) (by simp [diagRef]; norm_num)
  · exact le_trans (zpow_le_one_of_nonpos₀ (by norm_num) (by norm_num)) (by simp [diagRef]; norm_num)

end Moo
