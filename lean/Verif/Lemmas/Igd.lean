import Verif.Model.Igd
import Verif.Spec.Distance
import Verif.Lemmas.Epsilon

set_option autoImplicit false
set_option linter.unusedSectionVars false

namespace Moo

theorem gdDist_eq (dim : ℕ) (minmax : ℕ → ℤ) (plus : Bool) (pa pr : ℕ → ℝ) :
    gdDist dim minmax plus pa pr = ∑ d ∈ Finset.range dim,
      if minmax d = 0 then 0 else (gdDiff plus (minmax d) (pa d) (pr d)) ^ 2 := by
  unfold gdDist
  induction dim with
  | zero => simp
  | succ n ih =>
    rw [List.range_succ, List.foldl_append, ih, Finset.sum_range_succ]
    simp only [List.foldl_cons, List.foldl_nil]
    split_ifs <;> ring

theorem gdDist_nonneg (dim : ℕ) (minmax : ℕ → ℤ) (plus : Bool) (pa pr : ℕ → ℝ) :
    0 ≤ gdDist dim minmax plus pa pr := by
  rw [gdDist_eq]
  apply Finset.sum_nonneg
  intro d _
  split_ifs
  · exact le_rfl
  · positivity

theorem gdMin_eq (dim : ℕ) (minmax : ℕ → ℤ) (plus : Bool) (pa : ℕ → ℝ) (R : ℕ → ℕ → ℝ) (n : ℕ) :
    gdMin dim minmax plus pa R (n + 1) = (((gdMin dim minmax plus pa R (n + 1)).untopD 0 : ℝ) : WithTop ℝ) ∧
    (∃ r < n + 1, (gdMin dim minmax plus pa R (n + 1)).untopD 0 = gdDist dim minmax plus pa (R r)) ∧
    ∀ r < n + 1, (gdMin dim minmax plus pa R (n + 1)).untopD 0 ≤ gdDist dim minmax plus pa (R r) := by
  have key : ∀ n, ∃ v : ℝ, gdMin dim minmax plus pa R (n + 1) = (v : WithTop ℝ) ∧
      (∃ r < n + 1, v = gdDist dim minmax plus pa (R r)) ∧
      ∀ r < n + 1, v ≤ gdDist dim minmax plus pa (R r) := by
    intro n
    induction n with
    | zero =>
      refine ⟨gdDist dim minmax plus pa (R 0), ?_, ⟨0, by omega, rfl⟩, ?_⟩
      · unfold gdMin; simp
      · intro r hr; have : r = 0 := by omega
        subst this; exact le_rfl
    | succ n ih =>
      obtain ⟨v, e, ⟨r0, hr0, hv⟩, hmin⟩ := ih
      have e2 : gdMin dim minmax plus pa R (n + 1 + 1) =
          if ((gdDist dim minmax plus pa (R (n + 1)) : ℝ) : WithTop ℝ) < gdMin dim minmax plus pa R (n + 1)
          then (gdDist dim minmax plus pa (R (n + 1)) : WithTop ℝ) else gdMin dim minmax plus pa R (n + 1) := by
        unfold gdMin
        rw [List.range_succ, List.foldl_append]
        simp only [List.foldl_cons, List.foldl_nil]
      rw [e2, e]
      by_cases h : gdDist dim minmax plus pa (R (n + 1)) < v
      · rw [if_pos (WithTop.coe_lt_coe.2 h)]
        refine ⟨_, rfl, ⟨n + 1, by omega, rfl⟩, ?_⟩
        intro r hr
        rcases Nat.lt_or_ge r (n + 1) with h' | h'
        · exact h.le.trans (hmin r h')
        · have : r = n + 1 := by omega
          subst this; exact le_rfl
      · rw [if_neg (fun h' => h (WithTop.coe_lt_coe.1 h'))]
        refine ⟨v, rfl, ⟨r0, by omega, hv⟩, ?_⟩
        intro r hr
        rcases Nat.lt_or_ge r (n + 1) with h' | h'
        · exact hmin r h'
        · have : r = n + 1 := by omega
          subst this; exact not_lt.1 h
  obtain ⟨v, e, h1, h2⟩ := key n
  rw [e]
  exact ⟨rfl, h1, h2⟩

/-- `gd_common` on non-empty sets: the nearest distances and their average. -/
theorem gdCommon_spec (dim : ℕ) (minmax : ℕ → ℤ) (A : ℕ → ℕ → ℝ) (nA : ℕ) (R : ℕ → ℕ → ℝ) (nR : ℕ)
    (plus psize : Bool) (p : ℕ) (hA : 0 < nA) (hR : 0 < nR) :
    ∃ m : ℕ → ℝ, (∀ a, (∃ r < nR, m a = Real.sqrt (gdDist dim minmax plus (A a) (R r))) ∧
        ∀ r < nR, m a ≤ Real.sqrt (gdDist dim minmax plus (A a) (R r))) ∧
      gdCommon dim minmax A nA R nR plus psize p =
        (((if p = 1 then (∑ a ∈ Finset.range nA, m a) / nA
          else if psize then ((∑ a ∈ Finset.range nA, m a ^ p) / nA) ^ ((1 : ℝ) / p)
          else (∑ a ∈ Finset.range nA, m a ^ p) ^ ((1 : ℝ) / p) / nA : ℝ)) : WithTop ℝ) := by
  obtain ⟨n, rfl⟩ : ∃ n, nR = n + 1 := ⟨nR - 1, by omega⟩
  refine ⟨fun a => Real.sqrt ((gdMin dim minmax plus (A a) R (n + 1)).untopD 0), fun a => ?_, ?_⟩
  · obtain ⟨-, ⟨r, hr, h1⟩, h2⟩ := gdMin_eq dim minmax plus (A a) R n
    exact ⟨⟨r, hr, by beta_reduce; rw [h1]⟩, fun r hr => Real.sqrt_le_sqrt (h2 r hr)⟩
  · have hg : ∀ N : ℕ, (List.range N).foldl (fun (gd : WithTop ℝ) a =>
        gd + (if p = 1 then (gdMin dim minmax plus (A a) R (n + 1)).map Real.sqrt
          else ((gdMin dim minmax plus (A a) R (n + 1)).map Real.sqrt).map (fun x => x ^ p))) (0 : WithTop ℝ) =
        ((∑ a ∈ Finset.range N, (if p = 1 then Real.sqrt ((gdMin dim minmax plus (A a) R (n + 1)).untopD 0)
          else Real.sqrt ((gdMin dim minmax plus (A a) R (n + 1)).untopD 0) ^ p) : ℝ) : WithTop ℝ) := by
      intro N
      induction N with
      | zero => simp
      | succ N ih =>
        rw [List.range_succ, List.foldl_append, ih, Finset.sum_range_succ]
        simp only [List.foldl_cons, List.foldl_nil]
        rw [WithTop.coe_add]
        congr 1
        obtain ⟨h0, -, -⟩ := gdMin_eq dim minmax plus (A N) R n
        rw [h0]
        simp only [WithTop.map_coe, WithTop.untopD_coe]
        split_ifs <;> rfl
    unfold gdCommon
    rw [if_neg (by omega)]
    simp only
    rw [hg nA]
    by_cases h1 : p = 1
    · simp only [h1, if_true, WithTop.map_coe]
    · simp only [h1, if_false, WithTop.map_coe]
      cases psize <;> simp

end Moo
