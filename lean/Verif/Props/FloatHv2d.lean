import Verif.Model.Float
import Verif.Lemmas.FloatErr
import Verif.Props.Hv2d
import Mathlib.Data.List.Sort
import Mathlib.Data.Prod.Lex

set_option autoImplicit false

/-!
# C52: the two-dimensional hypervolume in double precision
-/

namespace Moo

open MeasureTheory

variable {rnd : ℝ → ℝ}

/-- `2 ^ -511`, the square root of the least normal number. -/
noncomputable def sqrtMinNormal : ℝ := (2 : ℝ) ^ (-511 : ℤ)

theorem sqrtMinNormal_pos : 0 < sqrtMinNormal := zpow_pos (by norm_num) _

theorem sqrtMinNormal_mul : sqrtMinNormal * sqrtMinNormal = minNormal := by
  unfold sqrtMinNormal minNormal
  rw [← zpow_add₀ (by norm_num : (2 : ℝ) ≠ 0)]
  norm_num

theorem sqrtMinNormal_mem : sqrtMinNormal ∈ binary64 := ⟨1, -511, by norm_num, by norm_num, by unfold sqrtMinNormal; simp⟩

/-- The rounded product of two rounded positive differences of doubles. -/
theorem within_area (hr : Nearest binary64 rnd) {a b c e : ℝ} (ha : a ∈ binary64) (hb : b ∈ binary64) (hc : c ∈ binary64) (he : e ∈ binary64)
    (h1 : sqrtMinNormal ≤ a - b) (h2 : sqrtMinNormal ≤ c - e) : Within 3 ((a - b) * (c - e)) (rnd (rnd (a - b) * rnd (c - e))) := by
  have p1 : 0 ≤ a - b := sqrtMinNormal_pos.le.trans h1
  have p2 : 0 ≤ c - e := sqrtMinNormal_pos.le.trans h2
  have w1 : Within 1 (a - b) (rnd (a - b)) := (Within.refl _).round p1 (hr.rel_sub ha hb)
  have w2 : Within 1 (c - e) (rnd (c - e)) := (Within.refl _).round p2 (hr.rel_sub hc he)
  have w3 := w1.mul w2 p1 p2
  refine w3.round (mul_nonneg p1 p2) (hr.rel ?_)
  have g1 := hr.mono h1
  have g2 := hr.mono h2
  rw [hr.fix sqrtMinNormal_mem] at g1 g2
  rw [← sqrtMinNormal_mul]
  exact (mul_le_mul g1 g2 sqrtMinNormal_pos.le (sqrtMinNormal_pos.le.trans g1)).trans (le_abs_self _)

/-- The floating-point loop against the exact one. -/
theorem hv2dLoopF_within (hr : Nearest binary64 rnd) (pts : ℕ → ℕ → ℝ) (ref : ℕ → ℝ) (ps : List ℕ) (hmem : ∀ p ∈ ps, ∀ k < 2, pts p k ∈ binary64)
    (href : ∀ k < 2, ref k ∈ binary64) (hx : ∀ p ∈ ps, pts p 0 < ref 0 → sqrtMinNormal ≤ ref 0 - pts p 0)
    (hy : ∀ p ∈ ps, ∀ q ∈ ps, pts p 1 < pts q 1 → sqrtMinNormal ≤ pts q 1 - pts p 1) :
    ∀ (b : Bool) (prevJ hv hvF : ℝ) (k : ℕ), 3 ≤ k → prevJ ∈ binary64 → hvF ∈ binary64 → 0 ≤ hv → Within k hv hvF →
      (∀ p ∈ ps, pts p 1 < prevJ → sqrtMinNormal ≤ prevJ - pts p 1) →
      Within (k + ps.length) (hv2dLoop pts ref b ps prevJ hv) (hv2dLoopF rnd pts ref b ps prevJ hvF) := by
  induction ps with
  | nil => intro b prevJ hv hvF k _ _ _ _ hw _; exact hw
  | cons p ps ih =>
    intro b prevJ hv hvF k hk hj hF h0 hw hgap
    have ih' := ih (fun q hq => hmem q (List.mem_cons_of_mem _ hq)) (fun q hq => hx q (List.mem_cons_of_mem _ hq))
      (fun q hq q' hq' => hy q (List.mem_cons_of_mem _ hq) q' (List.mem_cons_of_mem _ hq'))
    unfold hv2dLoop hv2dLoopF
    split_ifs with h1 h2 h3
    · exact hw.mono h0 (by omega)
    · have := ih' false prevJ hv hvF (k + 1) (by omega) hj hF h0 (hw.mono h0 (by omega)) (fun q hq => hgap q (List.mem_cons_of_mem _ hq))
      rw [List.length_cons]
      rwa [add_assoc, add_comm 1] at this
    · exact hw.mono h0 (by omega)
    · push Not at h2 h3
      have hp := List.mem_cons_self (a := p) (l := ps)
      have w1 := within_area hr (href 0 (by omega)) (hmem p hp 0 (by omega)) hj (hmem p hp 1 (by omega)) (hx p hp h3) (hgap p hp h2)
      have hpos : 0 ≤ (ref 0 - pts p 0) * (prevJ - pts p 1) := mul_nonneg (by linarith) (by linarith)
      have w2 := hw.add (w1.mono hpos hk)
      have w3 := w2.round (add_nonneg h0 hpos) (hr.rel_add hF (hr.mem _))
      have := ih' true (pts p 1) _ _ (k + 1) (by omega) (hmem p hp 1 (by omega)) (hr.mem _) (add_nonneg h0 hpos) w3
        (fun q hq hlt => hy q (List.mem_cons_of_mem _ hq) p hp hlt)
      rw [List.length_cons]
      rwa [add_assoc, add_comm 1] at this

/-- **C52 (error bound).** For `n` points and a reference point in double precision whose different values of an objective differ by at least
`2 ^ -511`, and every output `ps` that `qsort` may produce, `hv2d` returns the area of the dominated region with a relative error of at most
`(1 ± 2 ^ -53) ^ (n + 3)`. -/
theorem C52_hv2d_float_error (hr : Nearest binary64 rnd) (n : ℕ) (pts : ℕ → ℕ → ℝ) (ref : ℕ → ℝ) (ps : List ℕ)
    (hsort : Qsort (compareXAscYAsc pts) (List.range n) ps) (hmem : ∀ p < n, ∀ k < 2, pts p k ∈ binary64) (href : ∀ k < 2, ref k ∈ binary64)
    (hx : ∀ p < n, pts p 0 < ref 0 → (2 : ℝ) ^ (-511 : ℤ) ≤ ref 0 - pts p 0) (hyr : ∀ p < n, pts p 1 < ref 1 → (2 : ℝ) ^ (-511 : ℤ) ≤ ref 1 - pts p 1)
    (hy : ∀ p < n, ∀ q < n, pts p 1 < pts q 1 → (2 : ℝ) ^ (-511 : ℤ) ≤ pts q 1 - pts p 1) :
    (1 - (2 : ℝ) ^ (-53 : ℤ)) ^ (n + 3) * vol (dominatedRegion 2 n pts ref) ≤ hv2dF rnd pts ps ref ∧
    hv2dF rnd pts ps ref ≤ (1 + (2 : ℝ) ^ (-53 : ℤ)) ^ (n + 3) * vol (dominatedRegion 2 n pts ref) := by
  have hmem' : ∀ p ∈ ps, p < n := fun p hp => List.mem_range.1 (hsort.1.mem_iff.1 hp)
  have hlen : ps.length = n := by rw [hsort.1.length_eq, List.length_range]
  have hw := hv2dLoopF_within hr pts ref ps (fun p hp => hmem p (hmem' p hp)) href (fun p hp => hx p (hmem' p hp))
    (fun p hp q hq => hy p (hmem' p hp) q (hmem' q hq)) false (ref 1) 0 0 3 le_rfl (href 1 (by omega)) binary64_zero le_rfl
    ((Within.refl 0).mono le_rfl (by omega)) (fun p hp => hyr p (hmem' p hp))
  obtain ⟨h0, hv⟩ := C11_hv2d_is_area n pts ref ps hsort
  have : vol (dominatedRegion 2 n pts ref) = hv2d pts ps ref := by
    unfold vol
    rw [hv, ENNReal.toReal_ofReal h0]
  rw [this]
  rw [hlen, add_comm 3 n] at hw
  exact ⟨hw.lo, hw.hi⟩

theorem hv2dLoopF_ge (hr : Nearest binary64 rnd) (pts : ℕ → ℕ → ℝ) (ref : ℕ → ℝ) (ps : List ℕ) :
    ∀ (b : Bool) (prevJ hv : ℝ), hv ∈ binary64 → hv ≤ hv2dLoopF rnd pts ref b ps prevJ hv := by
  induction ps with
  | nil => intro b prevJ hv _; exact le_rfl
  | cons p ps ih =>
    intro b prevJ hv hF
    unfold hv2dLoopF
    split_ifs with h1 h2 h3
    · exact le_rfl
    · exact ih _ _ _ hF
    · exact le_rfl
    · push Not at h2 h3
      refine le_trans ?_ (ih _ _ _ (hr.mem _))
      have ht : 0 ≤ rnd (rnd (ref 0 - pts p 0) * rnd (prevJ - pts p 1)) :=
        hr.nonneg binary64_zero (mul_nonneg (hr.nonneg binary64_zero (by linarith)) (hr.nonneg binary64_zero (by linarith)))
      have := hr.mono (by linarith : hv ≤ hv + rnd (rnd (ref 0 - pts p 0) * rnd (prevJ - pts p 1)))
      rwa [hr.fix hF] at this

/-- **C52 (sign).** The computed hypervolume is never negative, for any real data. -/
theorem C52_hv2d_float_nonneg (hr : Nearest binary64 rnd) (pts : ℕ → ℕ → ℝ) (ps : List ℕ) (ref : ℕ → ℝ) : 0 ≤ hv2dF rnd pts ps ref :=
  hv2dLoopF_ge hr pts ref ps false (ref 1) 0 binary64_zero

theorem hv2dLoopF_congr (pts qts : ℕ → ℕ → ℝ) (ref : ℕ → ℝ) (ps qs : List ℕ)
    (h : ps.map (fun p => toLex (pts p 0, pts p 1)) = qs.map (fun p => toLex (qts p 0, qts p 1))) :
    ∀ (b : Bool) (prevJ hv : ℝ), hv2dLoopF rnd pts ref b ps prevJ hv = hv2dLoopF rnd qts ref b qs prevJ hv := by
  induction ps generalizing qs with
  | nil =>
    have : qs = [] := by simpa using h.symm
    subst this
    intro b prevJ hv; rfl
  | cons p ps ih =>
    cases qs with
    | nil => simp at h
    | cons q qs =>
      rw [List.map_cons, List.map_cons, List.cons.injEq] at h
      have h0 : (pts p 0, pts p 1) = (qts q 0, qts q 1) := toLex.injective h.1
      rw [Prod.mk.injEq] at h0
      intro b prevJ hv
      unfold hv2dLoopF
      rw [h0.1, h0.2, ih qs h.2, ih qs h.2]

/-- **C52 (order).** The computed value, with its rounding errors, does not depend on the order of the points nor on the order in which `qsort` leaves
points that compare equal: two tables whose rows are the same up to order give the same double. -/
theorem C52_hv2d_float_order (n : ℕ) (pts qts : ℕ → ℕ → ℝ) (ref : ℕ → ℝ) (ps qs : List ℕ) (hp : Qsort (compareXAscYAsc pts) (List.range n) ps)
    (hq : Qsort (compareXAscYAsc qts) (List.range n) qs) (σ : ℕ → ℕ) (hσ : ((List.range n).map σ).Perm (List.range n))
    (hrows : ∀ p < n, ∀ k < 2, qts p k = pts (σ p) k) : hv2dF rnd pts ps ref = hv2dF rnd qts qs ref := by
  have sorted : ∀ (t : ℕ → ℕ → ℝ) (l : List ℕ), Qsort (compareXAscYAsc t) (List.range n) l →
      (l.map (fun p => toLex (t p 0, t p 1))).Pairwise (· ≤ ·) := by
    intro t l hl
    rw [List.pairwise_map]
    refine hl.2.imp ?_
    intro a b hab
    rw [Prod.Lex.toLex_le_toLex]
    exact compareXAscYAsc_le hab
  refine hv2dLoopF_congr pts qts ref ps qs ?_ false (ref 1) 0
  refine List.Perm.eq_of_pairwise' (sorted pts ps hp) (sorted qts qs hq) ?_
  refine (hp.1.map _).trans (List.Perm.trans ?_ (hq.1.map _).symm)
  have h1 : (List.range n).map (fun p => toLex (qts p 0, qts p 1)) = ((List.range n).map σ).map (fun p => toLex (pts p 0, pts p 1)) := by
    rw [List.map_map]
    apply List.map_congr_left
    intro p hp
    have := List.mem_range.1 hp
    simp only [Function.comp]
    rw [hrows p this 0 (by omega), hrows p this 1 (by omega)]
  rw [h1]
  exact (hσ.map _).symm

theorem hv2dLoopF_out (pts : ℕ → ℕ → ℝ) (ref : ℕ → ℝ) (ps : List ℕ) (h : ∀ p ∈ ps, ref 0 ≤ pts p 0) :
    ∀ (b : Bool) (prevJ hv : ℝ), hv2dLoopF rnd pts ref b ps prevJ hv = hv := by
  induction ps with
  | nil => intro b prevJ hv; rfl
  | cons p ps ih =>
    intro b prevJ hv
    have h0 := h p List.mem_cons_self
    unfold hv2dLoopF
    split_ifs
    · rfl
    · exact ih (fun q hq => h q (List.mem_cons_of_mem _ hq)) _ _ _
    · rfl

theorem hv2dLoopF_bool (pts : ℕ → ℕ → ℝ) (ref : ℕ → ℝ) (ps : List ℕ) (hs : ps.Pairwise (fun a b => compareXAscYAsc pts a b ≤ 0)) (b b' : Bool)
    (prevJ hv : ℝ) : hv2dLoopF rnd pts ref b ps prevJ hv = hv2dLoopF rnd pts ref b' ps prevJ hv := by
  cases ps with
  | nil => rfl
  | cons p ps =>
    rcases lt_or_ge (pts p 0) (ref 0) with h | h
    · unfold hv2dLoopF
      rw [if_neg (fun hh : b = true ∧ ¬ pts p 0 < ref 0 => hh.2 h), if_neg (fun hh : b' = true ∧ ¬ pts p 0 < ref 0 => hh.2 h)]
    · have hall : ∀ q ∈ p :: ps, ref 0 ≤ pts q 0 := by
        intro q hq
        rcases List.mem_cons.1 hq with rfl | hq
        · exact h
        · rcases compareXAscYAsc_le ((List.pairwise_cons.1 hs).1 q hq) with h1 | h1
          · exact h.trans h1.le
          · exact h.trans h1.1.le
      rw [hv2dLoopF_out pts ref _ hall, hv2dLoopF_out pts ref _ hall]

theorem hv2dLoopF_skip (pts : ℕ → ℕ → ℝ) (ref : ℕ → ℝ) (p : ℕ) (L2 L1 : List ℕ) :
    ∀ (_ : (L1 ++ p :: L2).Pairwise (fun a b => compareXAscYAsc pts a b ≤ 0)) (b : Bool) (prevJ hv : ℝ)
      (_ : prevJ ≤ pts p 1 ∨ ∃ q ∈ L1, pts q 1 ≤ pts p 1),
      hv2dLoopF rnd pts ref b (L1 ++ p :: L2) prevJ hv = hv2dLoopF rnd pts ref b (L1 ++ L2) prevJ hv := by
  induction L1 with
  | nil =>
    intro hs b prevJ hv hd
    have hd : prevJ ≤ pts p 1 := by
      rcases hd with h | ⟨q, hq, -⟩
      · exact h
      · simp at hq
    rw [List.nil_append] at hs ⊢
    rw [List.nil_append]
    have hs2 := (List.pairwise_cons.1 hs).2
    rcases lt_or_ge (pts p 0) (ref 0) with h | h
    · conv_lhs => unfold hv2dLoopF
      rw [if_neg (fun hh => hh.2 h), if_pos hd]
      exact hv2dLoopF_bool pts ref L2 hs2 _ _ _ _
    · have hall : ∀ q ∈ p :: L2, ref 0 ≤ pts q 0 := by
        intro q hq
        rcases List.mem_cons.1 hq with rfl | hq
        · exact h
        · rcases compareXAscYAsc_le ((List.pairwise_cons.1 hs).1 q hq) with h1 | h1
          · exact h.trans h1.le
          · exact h.trans h1.1.le
      rw [hv2dLoopF_out pts ref _ hall, hv2dLoopF_out pts ref _ (fun q hq => hall q (List.mem_cons_of_mem _ hq))]
  | cons r L1 ih =>
    intro hs b prevJ hv hd
    rw [List.cons_append] at hs ⊢
    rw [List.cons_append]
    have hs2 := (List.pairwise_cons.1 hs).2
    unfold hv2dLoopF
    split_ifs with h1 h2 h3
    · rfl
    · refine ih hs2 _ _ _ ?_
      rcases hd with h | ⟨q, hq, h⟩
      · exact Or.inl h
      · rcases List.mem_cons.1 hq with rfl | hq
        · exact Or.inl (le_trans h2 h)
        · exact Or.inr ⟨q, hq, h⟩
    · rfl
    · push Not at h2
      refine ih hs2 _ _ _ ?_
      rcases hd with h | ⟨q, hq, h⟩
      · exact Or.inl (h2.le.trans h)
      · rcases List.mem_cons.1 hq with rfl | hq
        · exact Or.inl h
        · exact Or.inr ⟨q, hq, h⟩

/-- **C52 (dominated points).** A point that is weakly dominated by another point of the set does not change the computed value, not even by a rounding
error: it may be appended or left out. -/
theorem C52_hv2d_float_dominated (n : ℕ) (pts : ℕ → ℕ → ℝ) (ref : ℕ → ℝ) (ps qs : List ℕ)
    (hp : Qsort (compareXAscYAsc pts) (List.range n) ps) (hq : Qsort (compareXAscYAsc pts) (List.range (n + 1)) qs)
    (hdom : ∃ i < n, ∀ k < 2, pts i k ≤ pts n k) : hv2dF rnd pts qs ref = hv2dF rnd pts ps ref := by
  obtain ⟨i, hi, hd⟩ := hdom
  have hn : n ∈ qs := hq.1.mem_iff.2 (List.mem_range.2 (by omega))
  obtain ⟨L1, L2, rfl⟩ := List.append_of_mem hn
  have hperm : (L1 ++ L2).Perm (List.range n) := by
    have h1 : (n :: (L1 ++ L2)).Perm (n :: List.range n) := by
      refine List.perm_middle.symm.trans (hq.1.trans ?_)
      rw [List.range_succ]
      exact List.perm_append_singleton _ _
    exact h1.cons_inv
  have hsub : (L1 ++ L2).Sublist (L1 ++ n :: L2) := List.Sublist.append_left (List.sublist_cons_self _ _) _
  have hsort : Qsort (compareXAscYAsc pts) (List.range n) (L1 ++ L2) := ⟨hperm, hq.2.sublist hsub⟩
  have hid : ∀ m, ((List.range m).map id).Perm (List.range m) := fun m => by rw [List.map_id]
  rw [C52_hv2d_float_order n pts pts ref ps (L1 ++ L2) hp hsort id (hid n) (fun _ _ _ _ => rfl)]
  by_cases hL1 : i ∈ L1
  · exact hv2dLoopF_skip pts ref n L2 L1 hq.2 false (ref 1) 0 (Or.inr ⟨i, hL1, hd 1 (by omega)⟩)
  · -- `i` comes later, so the two rows are equal
    have hiL : i ∈ L1 ++ L2 := hperm.mem_iff.2 (List.mem_range.2 hi)
    have hL2 : i ∈ L2 := (List.mem_append.1 hiL).resolve_left hL1
    have hle := compareXAscYAsc_le ((List.pairwise_cons.1 (List.pairwise_append.1 hq.2).2.1).1 i hL2)
    have d0 := hd 0 (by omega)
    have d1 := hd 1 (by omega)
    have e0 : pts n 0 = pts i 0 := by
      rcases hle with h | h
      · exact absurd d0 (not_le.2 h)
      · exact h.1
    have e1 : pts n 1 = pts i 1 := by
      rcases hle with h | h
      · exact absurd d0 (not_le.2 h)
      · exact le_antisymm h.2 d1
    obtain ⟨M1, M2, hM⟩ := List.append_of_mem hiL
    have hMs := hsort.2
    rw [hM] at hMs
    have hMs' := List.pairwise_append.1 hMs
    have c1 : ∀ a, compareXAscYAsc pts a n = compareXAscYAsc pts a i := by
      intro a; unfold compareXAscYAsc; rw [e0, e1]
    have c2 : ∀ a, compareXAscYAsc pts n a = compareXAscYAsc pts i a := by
      intro a; unfold compareXAscYAsc; rw [e0, e1]
    have hq' : Qsort (compareXAscYAsc pts) (List.range (n + 1)) ((M1 ++ [i]) ++ n :: M2) := by
      constructor
      · refine List.Perm.trans ?_ hq.1
        refine List.perm_middle.trans (List.Perm.trans ?_ List.perm_middle.symm)
        rw [hM]
        simp
      · rw [List.append_assoc, List.singleton_append]
        rw [List.pairwise_append]
        refine ⟨hMs'.1, ?_, ?_⟩
        · rw [List.pairwise_cons]
          have h2 := List.pairwise_cons.1 hMs'.2.1
          refine ⟨?_, ?_⟩
          · intro a ha
            rcases List.mem_cons.1 ha with rfl | ha
            · rw [c1]; unfold compareXAscYAsc; simp
            · exact h2.1 a ha
          · rw [List.pairwise_cons]
            exact ⟨fun a ha => by rw [c2]; exact h2.1 a ha, h2.2⟩
        · intro a ha b hb
          rcases List.mem_cons.1 hb with rfl | hb
          · exact hMs'.2.2 a ha b List.mem_cons_self
          · rcases List.mem_cons.1 hb with rfl | hb
            · rw [c1]; exact hMs'.2.2 a ha i List.mem_cons_self
            · exact hMs'.2.2 a ha b (List.mem_cons_of_mem _ hb)
    rw [C52_hv2d_float_order (n + 1) pts pts ref _ _ hq hq' id (hid _) (fun _ _ _ _ => rfl), hM]
    have := hv2dLoopF_skip (rnd := rnd) pts ref n M2 (M1 ++ [i]) hq'.2 false (ref 1) 0 (Or.inr ⟨i, by simp, d1⟩)
    rw [List.append_assoc M1 [i] M2, List.singleton_append] at this
    exact this

/-- Non-vacuity: three points in double precision, one of them outside of the reference point; all gaps are at least 1. -/
example : let pts : ℕ → ℕ → ℝ := fun i k => (([[3, 1], [1, 3], [0, 9]] : List (List ℤ)).getD i []).getD k 0
    Qsort (compareXAscYAsc pts) (List.range 3) [2, 1, 0] ∧ (∀ p < 3, ∀ k < 2, pts p k ∈ binary64) ∧
    ∀ rnd, Nearest binary64 rnd → hv2dF rnd pts [2, 1, 0] (fun _ => 5) = 12 := by
  intro pts
  have h00 : pts 0 0 = 3 := by simp [pts]
  have h01 : pts 0 1 = 1 := by simp [pts]
  have h10 : pts 1 0 = 1 := by simp [pts]
  have h11 : pts 1 1 = 3 := by simp [pts]
  have h20 : pts 2 0 = 0 := by simp [pts]
  have h21 : pts 2 1 = 9 := by simp [pts]
  refine ⟨⟨by decide, ?_⟩, ?_, ?_⟩
  · simp only [List.pairwise_cons, List.mem_cons, List.not_mem_nil, or_false, forall_eq_or_imp, forall_eq, List.Pairwise.nil, and_true,
      IsEmpty.forall_iff, implies_true]
    unfold compareXAscYAsc
    rw [h00, h01, h10, h11, h20, h21]
    norm_num
  · intro p hp k hk
    have key : ∀ z : ℤ, |z| ≤ 2 ^ 53 → (z : ℝ) ∈ binary64 := fun z hz => binary64_int hz
    have hz : ∃ z : ℤ, |z| ≤ 2 ^ 53 ∧ pts p k = z := by
      refine ⟨(([[3, 1], [1, 3], [0, 9]] : List (List ℤ)).getD p []).getD k 0, ?_, rfl⟩
      rcases p with _ | _ | _ | p <;> [skip; skip; skip; omega] <;> rcases k with _ | _ | k <;> [skip; skip; omega; skip; skip; omega; skip; skip; omega] <;>
        simp
    obtain ⟨z, h1, h2⟩ := hz
    rw [h2]
    exact key z h1
  · intro rnd hr
    have key : ∀ z : ℤ, |z| ≤ 2 ^ 53 → rnd (z : ℝ) = z := fun z hz => hr.fix (binary64_int hz)
    have r4 : rnd 4 = 4 := by have := key 4 (by norm_num); norm_num at this; exact this
    have r2 : rnd 2 = 2 := by have := key 2 (by norm_num); norm_num at this; exact this
    have r8 : rnd 8 = 8 := by have := key 8 (by norm_num); norm_num at this; exact this
    have r12 : rnd 12 = 12 := by have := key 12 (by norm_num); norm_num at this; exact this
    unfold hv2dF
    simp only [hv2dLoopF]
    rw [h00, h01, h10, h11, h20, h21]
    norm_num [r4, r2, r8, r12]

end Moo
