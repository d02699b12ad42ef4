import Verif.Lemmas.Volume
import Verif.Model.Hv2d

/-!
# C11: `hv2d` returns the area of the dominated region
-/

set_option autoImplicit false

namespace Moo

open MeasureTheory

variable {pts : ℕ → ℕ → ℝ} {ref : ℕ → ℝ}

theorem compareXAscYAsc_le {a b : ℕ} (h : compareXAscYAsc pts a b ≤ 0) :
    pts a 0 < pts b 0 ∨ (pts a 0 = pts b 0 ∧ pts a 1 ≤ pts b 1) := by
  unfold compareXAscYAsc at h
  split at h
  · left; assumption
  · split at h
    · omega
    · split at h
      · right; exact ⟨le_antisymm (not_lt.1 ‹_›) (not_lt.1 ‹_›), le_of_lt ‹_›⟩
      · split at h
        · omega
        · right; exact ⟨le_antisymm (not_lt.1 ‹_›) (not_lt.1 ‹_›), not_lt.1 ‹_›⟩

theorem HV_two_first (p : ℕ) (ps : List ℕ) (h : ∀ q ∈ ps, pts p 0 ≤ pts q 0) (r0 prevJ : ℝ)
    (h0 : pts p 0 < r0) (h1 : pts p 1 < prevJ) (ref : ℕ → ℝ) (hr : ref 0 = r0) :
    HV 2 pts (p :: ps) (upd ref 1 prevJ) =
      HV 2 pts ps (upd ref 1 (pts p 1)) + (r0 - pts p 0) * (prevJ - pts p 1) := by
  classical
  set C := ps.filter (fun q => pts q 1 < pts p 1) with hCdef
  have e1 : HV 2 pts (p :: ps) (upd ref 1 prevJ) = HV 2 pts (p :: C) (upd ref 1 prevJ) := by
    apply HV_eq_of_dom
    · intro q hq
      rcases List.mem_cons.1 hq with rfl | hq
      · exact List.mem_cons_self ..
      · exact List.mem_cons_of_mem _ (List.mem_of_mem_filter hq)
    · intro q hq
      rcases List.mem_cons.1 hq with rfl | hq
      · exact ⟨q, List.mem_cons_self .., fun _ _ => le_rfl⟩
      · by_cases hlt : pts q 1 < pts p 1
        · exact ⟨q, List.mem_cons_of_mem _ (List.mem_filter.2 ⟨hq, by simpa using hlt⟩), fun _ _ => le_rfl⟩
        · refine ⟨p, List.mem_cons_self .., fun k hk => ?_⟩
          rcases (by omega : k = 0 ∨ k = 1) with rfl | rfl
          · exact h q hq
          · exact not_lt.1 hlt
  have e2 := HV_slab (d := 1) (x := pts) (ref := ref) (A := p :: C) (pts p 1) prevJ h1.le (by
    intro q hq
    left
    rcases List.mem_cons.1 hq with rfl | hq
    · exact le_rfl
    · have := (List.mem_filter.1 hq).2
      exact (of_decide_eq_true this).le) (p :: C) (by
    intro q
    refine ⟨fun hq => ⟨hq, ?_⟩, fun hq => hq.1⟩
    rcases List.mem_cons.1 hq with rfl | hq
    · exact le_rfl
    · have := (List.mem_filter.1 hq).2
      exact (of_decide_eq_true this).le)
  have e3 : HV 1 pts (p :: C) ref = HV 1 pts [p] ref := by
    apply HV_eq_of_dom
    · intro q hq; simp at hq; subst hq; simp
    · intro q hq
      refine ⟨p, by simp, fun k hk => ?_⟩
      obtain rfl : k = 0 := by omega
      rcases List.mem_cons.1 hq with rfl | hq
      · exact le_rfl
      · exact h q (List.mem_of_mem_filter hq)
  have e4 : HV 1 pts [p] ref = r0 - pts p 0 := by
    rw [HV_singleton p (by intro k; rw [Fin.val_eq_zero k, hr]; exact h0.le)]
    simp [hr]
  have e5 : HV 2 pts (p :: C) (upd ref 1 (pts p 1)) = HV 2 pts C (upd ref 1 (pts p 1)) := by
    apply HV_drop_last
    · intro q hq; exact List.mem_cons_of_mem _ hq
    · intro q hq
      rcases List.mem_cons.1 hq with rfl | hq
      · right; exact le_rfl
      · left; exact hq
  have e6 : HV 2 pts ps (upd ref 1 (pts p 1)) = HV 2 pts C (upd ref 1 (pts p 1)) := by
    apply HV_drop_last
    · intro q hq; exact List.mem_of_mem_filter hq
    · intro q hq
      by_cases hlt : pts q 1 < pts p 1
      · left; exact List.mem_filter.2 ⟨hq, by simpa using hlt⟩
      · right; exact not_lt.1 hlt
  rw [e1, e2, e3, e4, e5, e6]

theorem hv2dLoop_eq (ps : List ℕ) (hs : ps.Pairwise (fun a b => compareXAscYAsc pts a b ≤ 0)) :
    ∀ (b : Bool) (prevJ hv : ℝ), hv2dLoop pts ref b ps prevJ hv = hv + HV 2 pts ps (upd ref 1 prevJ) := by
  induction ps with
  | nil => intro b prevJ hv; simp [hv2dLoop, HV_nil]
  | cons p ps ih =>
    intro b prevJ hv
    have hge : ∀ q ∈ ps, pts p 0 ≤ pts q 0 := by
      intro q hq
      rcases compareXAscYAsc_le ((List.pairwise_cons.1 hs).1 q hq) with h | h
      · exact h.le
      · exact h.1.le
    have hzero : ref 0 ≤ pts p 0 → HV 2 pts (p :: ps) (upd ref 1 prevJ) = 0 := by
      intro h0
      rw [HV_drop [] (by simp), HV_nil]
      intro q hq
      refine Or.inr ⟨0, by omega, ?_⟩
      rw [upd_ne _ _ (by omega)]
      rcases List.mem_cons.1 hq with rfl | hq
      · exact h0
      · exact h0.trans (hge q hq)
    have ih' := ih (List.pairwise_cons.1 hs).2
    unfold hv2dLoop
    split
    · rename_i h; rw [hzero (not_lt.1 h.2), add_zero]
    · split
      · rename_i h
        rw [ih', HV_drop_last (A := p :: ps) prevJ ps]
        · intro q hq; exact List.mem_cons_of_mem _ hq
        · intro q hq
          rcases List.mem_cons.1 hq with rfl | hq
          · right; exact h
          · left; exact hq
      · split
        · rename_i h; rw [hzero h, add_zero]
        · rename_i h1 h0
          rw [ih', HV_two_first p ps hge (ref 0) prevJ (not_le.1 h0) (not_le.1 h1) ref rfl]
          ring

/-- The sweep over any sorted order of a list of rows computes their hypervolume. -/
theorem hv2d_eq_HV (ps : List ℕ) (hs : ps.Pairwise (fun a b => compareXAscYAsc pts a b ≤ 0)) :
    hv2d pts ps ref = HV 2 pts ps ref := by
  unfold hv2d
  rw [hv2dLoop_eq ps hs, zero_add, HV_upd_self]

/-- **C11.** For every set of `n` points with two objectives, every reference point and every output `ps` that `qsort` may
produce, `hv2d` returns the area of the region dominated by the points and bounded by the reference point. -/
theorem C11_hv2d_is_area (n : ℕ) (pts : ℕ → ℕ → ℝ) (ref : ℕ → ℝ) (ps : List ℕ)
    (hsort : Qsort (compareXAscYAsc pts) (List.range n) ps) :
    0 ≤ hv2d pts ps ref ∧ volume (dominatedRegion 2 n pts ref) = ENNReal.ofReal (hv2d pts ps ref) := by
  rw [hv2d_eq_HV ps hsort.2, volume_dominatedRegion]
  refine ⟨HV_nonneg, ?_⟩
  congr 1
  exact HV_congr_mem (fun p => (hsort.1.mem_iff).symm)

/-- Non-vacuity: three points, one of which does not dominate the reference point; the area is `12`. -/
example : let pts : ℕ → ℕ → ℤ := fun i k => ([[3, 1], [1, 3], [0, 9]].getD i []).getD k 0
    Qsort (compareXAscYAsc pts) (List.range 3) [2, 1, 0] ∧ hv2d pts [2, 1, 0] (fun _ => 5) = 12 := by
  refine ⟨⟨by decide, by decide⟩, by decide⟩

end Moo
