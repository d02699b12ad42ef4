import Verif.Lemmas.FloatHv3d

/-!
# Rounding errors of areas and volumes; data on a grid
-/

set_option autoImplicit false
set_option linter.unusedSectionVars false

namespace Moo

open MeasureTheory

variable {x : ℕ → ℕ → ℝ} {ref low : ℕ → ℝ} {rnd : ℝ → ℝ} {N : List ℕ}

/-- The volume is at most that of a box that contains all points. -/
theorem HV_le_box (d : ℕ) (L : List ℕ) (hlow : ∀ p ∈ L, ∀ k < d, low k ≤ x p k) (hlr : ∀ k < d, low k ≤ ref k) :
    HV d x L ref ≤ ∏ k : Fin d, (ref k - low k) := by
  have hsub : hvSet d x L ref ⊆ hvSet d (fun _ => low) [0] ref := by
    rintro y ⟨p, hp, hy⟩
    refine ⟨0, by simp, fun k => ⟨(hlow p hp k k.2).trans (hy k).1, (hy k).2⟩⟩
  have h1 : HV d x L ref ≤ HV d (fun _ => low) [0] ref := ENNReal.toReal_mono hvSet_ne_top (measure_mono hsub)
  rw [HV_singleton 0 (fun k => hlr k k.2)] at h1
  exact h1

/-! ### Errors -/

/-- The error of a rounding below the normal range. -/
theorem Nearest.err_small (h : Nearest binary64 rnd) {z : ℝ} (h1 : |z| < minNormal) : |rnd z - z| ≤ ulpU * minNormal := by
  have hs := minSub_pos
  set m : ℤ := round (z / minSub) with hmdef
  have hround : |z / minSub - m| ≤ 1 / 2 := abs_sub_round _
  have hz : |z / minSub| < 2 ^ 52 := by
    rw [abs_div, abs_of_pos hs, div_lt_iff₀ hs, ← minNormal_eq]; exact h1
  have hmle : |m| ≤ 2 ^ 53 := by
    have h2 : |(m : ℝ)| ≤ |z / minSub| + 1 / 2 := by
      have : (m : ℝ) = z / minSub - (z / minSub - m) := by ring
      calc |(m : ℝ)| = |z / minSub - (z / minSub - m)| := by rw [← this]
        _ ≤ |z / minSub| + |z / minSub - m| := abs_sub _ _
        _ ≤ _ := by linarith
    have h3 : |(m : ℝ)| ≤ 9007199254740992 := by
      refine h2.trans ?_
      norm_num at hz ⊢; linarith
    norm_num
    exact_mod_cast h3
  have hb := h.best z _ (binary64_small hmle)
  have he : |(m : ℝ) * minSub - z| ≤ minSub / 2 := by
    have : (m : ℝ) * minSub - z = -(z / minSub - m) * minSub := by field_simp; ring
    rw [this, abs_mul, abs_neg, abs_of_pos hs]
    nlinarith
  have hum : ulpU * minNormal = minSub / 2 := by
    rw [minNormal_eq]
    unfold ulpU
    rw [zpow_neg]
    norm_num
    ring
  rw [hum]
  linarith

/-- The error of one rounding, also for results that underflow. -/
theorem Nearest.err (h : Nearest binary64 rnd) (z : ℝ) : |rnd z - z| ≤ ulpU * |z| + ulpU * minNormal := by
  have hu := ulpU_pos
  have hm := minNormal_pos
  rcases le_or_gt minNormal |z| with h1 | h1
  · have := h.rel h1
    nlinarith
  · have := h.err_small h1
    nlinarith [mul_nonneg hu.le (abs_nonneg z)]

theorem HvCoord.mem64 (hN : ∀ p ∈ N, ∀ k < 3, x p k ∈ binary64) (href : ∀ k < 3, ref k ∈ binary64) {k : ℕ} (hk : k < 3) {v : ℝ}
    (h : HvCoord x ref N k v) : v ∈ binary64 := by
  rcases h with rfl | ⟨p, hp, rfl⟩
  · exact href k hk
  · exact hN p hp k hk

theorem HvCoord.bounds (hlow : ∀ p ∈ N, ∀ k < 3, low k ≤ x p k) (hlr : ∀ k < 3, low k ≤ ref k) (hxr : ∀ p ∈ N, ∀ k < 3, x p k ≤ ref k) {k : ℕ} (hk : k < 3)
    {v : ℝ} (h : HvCoord x ref N k v) : low k ≤ v ∧ v ≤ ref k := by
  rcases h with rfl | ⟨p, hp, rfl⟩
  · exact ⟨hlr k hk, le_refl _⟩
  · exact ⟨hlow p hp k hk, hxr p hp k hk⟩

/-- The product of two rounded nonnegative differences. -/
theorem err_area (hr : Nearest binary64 rnd) {A : ℝ} (hA : minNormal ≤ A) {a a' b b' : ℝ} (ha : a ∈ binary64) (ha' : a' ∈ binary64) (hb : b ∈ binary64)
    (hb' : b' ∈ binary64) (h1 : a ≤ a') (h2 : b ≤ b') (hle : (b' - b) * (a' - a) ≤ A) :
    |rnd (rnd (b' - b) * rnd (a' - a)) - (b' - b) * (a' - a)| ≤ ((1 + ulpU) ^ 3 - 1) * A := by
  have hu := ulpU_pos
  have ex := hr.rel_sub ha' ha
  have ey := hr.rel_sub hb' hb
  have px : 0 ≤ a' - a := sub_nonneg.2 h1
  have py : 0 ≤ b' - b := sub_nonneg.2 h2
  have fx : 0 ≤ rnd (a' - a) := hr.nonneg binary64_zero px
  have fy : 0 ≤ rnd (b' - b) := hr.nonneg binary64_zero py
  rw [abs_of_nonneg px] at ex
  rw [abs_of_nonneg py] at ey
  obtain ⟨ex1, ex2⟩ := abs_le.1 ex
  obtain ⟨ey1, ey2⟩ := abs_le.1 ey
  set dx := a' - a
  set dy := b' - b
  set X := rnd dx
  set Y := rnd dy
  have hp0 : 0 ≤ dy * dx := mul_nonneg py px
  have hXY : Y * X ≤ (1 + ulpU) ^ 2 * (dy * dx) := by
    have h1 : X ≤ (1 + ulpU) * dx := by linarith
    have h2 : Y ≤ (1 + ulpU) * dy := by linarith
    calc Y * X ≤ ((1 + ulpU) * dy) * ((1 + ulpU) * dx) := mul_le_mul h2 h1 fx (by positivity)
      _ = _ := by ring
  have hXY' : dy * dx - Y * X ≤ ((1 + ulpU) ^ 2 - 1) * (dy * dx) := by
    have h1 : (1 - ulpU) * dx ≤ X := by linarith
    have h2 : (1 - ulpU) * dy ≤ Y := by linarith
    have : ((1 - ulpU) * dy) * ((1 - ulpU) * dx) ≤ Y * X := mul_le_mul h2 h1 (mul_nonneg (by linarith [ulpU_lt_one]) px) fy
    nlinarith [mul_nonneg (mul_nonneg hu.le hu.le) hp0]
  have hq : |Y * X - dy * dx| ≤ ((1 + ulpU) ^ 2 - 1) * A := by
    have hc : 0 ≤ (1 + ulpU) ^ 2 - 1 := by nlinarith
    have : ((1 + ulpU) ^ 2 - 1) * (dy * dx) ≤ ((1 + ulpU) ^ 2 - 1) * A := mul_le_mul_of_nonneg_left hle hc
    rw [abs_le]; constructor <;> nlinarith
  have hYX0 : 0 ≤ Y * X := mul_nonneg fy fx
  have hYXA : Y * X ≤ (1 + ulpU) ^ 2 * A := hXY.trans (mul_le_mul_of_nonneg_left hle (by positivity))
  have hre : |rnd (Y * X) - Y * X| ≤ ulpU * ((1 + ulpU) ^ 2 * A) := by
    rcases le_or_gt minNormal |Y * X| with h | h
    · refine (hr.rel h).trans ?_
      rw [abs_of_nonneg hYX0]
      exact mul_le_mul_of_nonneg_left hYXA hu.le
    · have hA0 : 0 < A := lt_of_lt_of_le minNormal_pos hA
      have hsub := hr.err_small h
      refine hsub.trans ?_
      have : 1 * A ≤ (1 + ulpU) ^ 2 * A := mul_le_mul_of_nonneg_right (by nlinarith) hA0.le
      exact mul_le_mul_of_nonneg_left (by linarith) hu.le
  calc |rnd (Y * X) - dy * dx| = |(rnd (Y * X) - Y * X) + (Y * X - dy * dx)| := by ring_nf
    _ ≤ |rnd (Y * X) - Y * X| + |Y * X - dy * dx| := abs_add_le _ _
    _ ≤ ulpU * ((1 + ulpU) ^ 2 * A) + ((1 + ulpU) ^ 2 - 1) * A := add_le_add hre hq
    _ = ((1 + ulpU) ^ 3 - 1) * A := by ring

/-- What is assumed of the data: floating-point numbers in a box. -/
structure Data3 (x : ℕ → ℕ → ℝ) (ref low : ℕ → ℝ) (N : List ℕ) : Prop where
  pts64 : ∀ p ∈ N, ∀ k < 3, x p k ∈ binary64
  ref64 : ∀ k < 3, ref k ∈ binary64
  lowle : ∀ p ∈ N, ∀ k < 3, low k ≤ x p k
  lowref : ∀ k < 3, low k ≤ ref k
  below : ∀ p ∈ N, ∀ k < 3, x p k ≤ ref k

/-- The computed area is within a multiple of the area of the box. -/
def ErrA (A e f : ℝ) (k : ℕ) : Prop := f ∈ binary64 ∧ |f - e| ≤ ((1 + ulpU) ^ (4 * k) - 1) * A

/-- The computed volume is within a multiple of the volume of the box. -/
def ErrV (A V l2 : ℝ) (n : ℕ) (v w z : ℝ) (j : ℕ) : Prop :=
  w ∈ binary64 ∧ 0 ≤ v ∧ v ≤ A * (z - l2) ∧
    |w - v| ≤ ((1 + ulpU) ^ (8 * n + j) - 1) * (A * (z - l2)) + ((1 + ulpU) ^ (2 * j) - 1) * V

/-- The error of a sum or difference of an area and a computed box. -/
theorem err_step (hr : Nearest binary64 rnd) {A e e' f p P : ℝ} {k : ℕ} (s : ℝ) (hs : s = 1 ∨ s = -1) (he' : e' = e + s * p) (h0 : 0 ≤ e') (h1 : e' ≤ A)
    (hf : ErrA A e f k) (hP : P ∈ binary64) (hp : |P - p| ≤ ((1 + ulpU) ^ 3 - 1) * A) : ErrA A e' (rnd (f + s * P)) (k + 1) := by
  obtain ⟨hf, hfe⟩ := hf
  have hu := ulpU_pos
  have hA : 0 ≤ A := h0.trans h1
  refine ⟨hr.mem _, ?_⟩
  have hsP : s * P ∈ binary64 := by
    rcases hs with rfl | rfl
    · rw [one_mul]; exact hP
    · rw [neg_one_mul]; exact binary64_neg hP
  have hsabs : |s| = 1 := by rcases hs with rfl | rfl <;> simp
  have hrel := hr.rel_add hf hsP
  have hd : |f + s * P - e'| ≤ ((1 + ulpU) ^ (4 * k) - 1) * A + ((1 + ulpU) ^ 3 - 1) * A := by
    calc |f + s * P - e'| = |(f - e) + s * (P - p)| := by rw [he']; ring_nf
      _ ≤ |f - e| + |s * (P - p)| := abs_add_le _ _
      _ = |f - e| + |P - p| := by rw [abs_mul, hsabs, one_mul]
      _ ≤ _ := add_le_add hfe hp
  set E := ((1 + ulpU) ^ (4 * k) - 1) * A + ((1 + ulpU) ^ 3 - 1) * A with hE
  have habs : |f + s * P| ≤ A + E := by
    calc |f + s * P| = |(f + s * P - e') + e'| := by ring_nf
      _ ≤ |f + s * P - e'| + |e'| := abs_add_le _ _
      _ ≤ E + A := add_le_add hd (by rw [abs_of_nonneg h0]; exact h1)
      _ = A + E := add_comm _ _
  have hB : 1 ≤ (1 + ulpU) ^ (4 * k) := one_le_pow₀ (by linarith)
  have htot : |rnd (f + s * P) - e'| ≤ E + ulpU * (A + E) := by
    calc |rnd (f + s * P) - e'| = |(rnd (f + s * P) - (f + s * P)) + (f + s * P - e')| := by ring_nf
      _ ≤ |rnd (f + s * P) - (f + s * P)| + |f + s * P - e'| := abs_add_le _ _
      _ ≤ ulpU * |f + s * P| + E := add_le_add hrel hd
      _ ≤ ulpU * (A + E) + E := by
        have := mul_le_mul_of_nonneg_left habs hu.le
        linarith
      _ = _ := add_comm _ _
  refine htot.trans ?_
  have hpow : (1 + ulpU) ^ (4 * (k + 1)) = (1 + ulpU) ^ (4 * k) * (1 + ulpU) ^ 4 := by rw [← pow_add]; congr 1
  rw [hpow]
  set B := (1 + ulpU) ^ (4 * k)
  have key : (1 + ulpU) * (B + (1 + ulpU) ^ 3 - 2) + ulpU ≤ B * (1 + ulpU) ^ 4 - 1 := by
    have h4 : (1 + ulpU) ≤ (1 + ulpU) ^ 4 := le_self_pow₀ (by linarith) (by norm_num)
    nlinarith [mul_nonneg (sub_nonneg.2 hB) (sub_nonneg.2 h4)]
  have := mul_le_mul_of_nonneg_right key hA
  rw [hE]
  linarith

/-- The error of the area of a slice times its height. -/
theorem err_slab (hr : Nearest binary64 rnd) {A V e f h H : ℝ} {k n : ℕ} (hf : ErrA A e f k) (hk : k < 2 * n) (h0 : 0 ≤ e) (h1 : e ≤ A) (hh : 0 ≤ h)
    (hH : |H - h| ≤ ulpU * h) (hV : minNormal ≤ V) :
    |rnd (f * H) - e * h| ≤ ((1 + ulpU) ^ (8 * n) - 1) * (A * h) + ulpU * V := by
  obtain ⟨-, hfe⟩ := hf
  have hu := ulpU_pos
  have hA : 0 ≤ A := h0.trans h1
  set B := (1 + ulpU) ^ (4 * k) with hBd
  have hB : 1 ≤ B := one_le_pow₀ (by linarith)
  have hHle : |H| ≤ (1 + ulpU) * h := by
    calc |H| = |(H - h) + h| := by ring_nf
      _ ≤ |H - h| + |h| := abs_add_le _ _
      _ ≤ ulpU * h + h := add_le_add hH (by rw [abs_of_nonneg hh])
      _ = _ := by ring
  have hAh : 0 ≤ A * h := mul_nonneg hA hh
  have hq : |f * H - e * h| ≤ (B * (1 + ulpU) - 1) * (A * h) := by
    calc |f * H - e * h| = |(f - e) * H + e * (H - h)| := by ring_nf
      _ ≤ |(f - e) * H| + |e * (H - h)| := abs_add_le _ _
      _ = |f - e| * |H| + e * |H - h| := by rw [abs_mul, abs_mul, abs_of_nonneg h0]
      _ ≤ ((B - 1) * A) * ((1 + ulpU) * h) + A * (ulpU * h) := by
        refine add_le_add (mul_le_mul hfe hHle (abs_nonneg _) (mul_nonneg (by linarith) hA)) ?_
        exact mul_le_mul h1 hH (abs_nonneg _) hA
      _ = _ := by ring
  have habs : |f * H| ≤ B * (1 + ulpU) * (A * h) := by
    have heh : |e * h| ≤ A * h := by
      rw [abs_of_nonneg (mul_nonneg h0 hh)]; exact mul_le_mul_of_nonneg_right h1 hh
    calc |f * H| = |(f * H - e * h) + e * h| := by ring_nf
      _ ≤ |f * H - e * h| + |e * h| := abs_add_le _ _
      _ ≤ (B * (1 + ulpU) - 1) * (A * h) + A * h := add_le_add hq heh
      _ = _ := by ring
  have herr := hr.err (f * H)
  have hVm : ulpU * minNormal ≤ ulpU * V := mul_le_mul_of_nonneg_left hV hu.le
  have htot : |rnd (f * H) - e * h| ≤ (B * (1 + ulpU) ^ 2 - 1) * (A * h) + ulpU * V := by
    calc |rnd (f * H) - e * h| = |(rnd (f * H) - f * H) + (f * H - e * h)| := by ring_nf
      _ ≤ |rnd (f * H) - f * H| + |f * H - e * h| := abs_add_le _ _
      _ ≤ (ulpU * |f * H| + ulpU * minNormal) + (B * (1 + ulpU) - 1) * (A * h) := add_le_add herr hq
      _ ≤ (ulpU * (B * (1 + ulpU) * (A * h)) + ulpU * V) + (B * (1 + ulpU) - 1) * (A * h) := by
        have := mul_le_mul_of_nonneg_left habs hu.le
        linarith
      _ = _ := by ring
  refine htot.trans ?_
  have hle : B * (1 + ulpU) ^ 2 ≤ (1 + ulpU) ^ (8 * n) := by
    rw [hBd, ← pow_add]
    exact pow_le_pow_right₀ (by linarith) (by omega)
  have := mul_le_mul_of_nonneg_right hle hAh
  linarith

theorem err_vfirst (hr : Nearest binary64 rnd) {A V l2 e f z z' H : ℝ} {k n : ℕ} (hf : ErrA A e f k) (hk : k < 2 * n) (h0 : 0 ≤ e) (h1 : e ≤ A)
    (hl : l2 ≤ z) (hz : z ≤ z') (hH : |H - (z' - z)| ≤ ulpU * (z' - z)) (hV : minNormal ≤ V) :
    ErrV A V l2 n (e * (z' - z)) (rnd (f * H)) z' 1 := by
  have hu := ulpU_pos
  have hA : 0 ≤ A := h0.trans h1
  have hh : 0 ≤ z' - z := sub_nonneg.2 hz
  have hV0 : 0 ≤ V := minNormal_pos.le.trans hV
  refine ⟨hr.mem _, mul_nonneg h0 hh, mul_le_mul h1 (by linarith) hh hA, ?_⟩
  refine (err_slab hr hf hk h0 h1 hh hH hV).trans ?_
  have hc : (1 : ℝ) ≤ (1 + ulpU) ^ (8 * n) := one_le_pow₀ (by linarith)
  have hc2 : (1 + ulpU) ^ (8 * n) ≤ (1 + ulpU) ^ (8 * n + 1) := pow_le_pow_right₀ (by linarith) (by omega)
  have h2 : ((1 + ulpU) ^ (8 * n) - 1) * (A * (z' - z)) ≤ ((1 + ulpU) ^ (8 * n + 1) - 1) * (A * (z' - l2)) :=
    mul_le_mul (by linarith) (mul_le_mul_of_nonneg_left (by linarith) hA) (mul_nonneg hA hh) (by linarith)
  have h3 : ulpU * V ≤ ((1 + ulpU) ^ (2 * 1) - 1) * V := mul_le_mul_of_nonneg_right (by rw [mul_one]; nlinarith) hV0
  exact add_le_add h2 h3

theorem err_vadd (hr : Nearest binary64 rnd) {A V l2 v w e f z z' H : ℝ} {j k n : ℕ} (hv : ErrV A V l2 n v w z j) (hf : ErrA A e f k) (hk : k < 2 * n)
    (h0 : 0 ≤ e) (h1 : e ≤ A) (hz : z ≤ z') (hH : |H - (z' - z)| ≤ ulpU * (z' - z)) (hV : minNormal ≤ V) :
    ErrV A V l2 n (v + e * (z' - z)) (rnd (w + rnd (f * H))) z' (j + 1) := by
  obtain ⟨hw, hv0, hv1, hve⟩ := hv
  have hu := ulpU_pos
  have hA : 0 ≤ A := h0.trans h1
  have hh : 0 ≤ z' - z := sub_nonneg.2 hz
  have hV0 : 0 ≤ V := minNormal_pos.le.trans hV
  have hslab := err_slab hr hf hk h0 h1 hh hH hV
  set G := rnd (f * H)
  have hG : G ∈ binary64 := hr.mem _
  have heh : e * (z' - z) ≤ A * (z' - z) := mul_le_mul_of_nonneg_right h1 hh
  have hsum0 : 0 ≤ v + e * (z' - z) := add_nonneg hv0 (mul_nonneg h0 hh)
  have hsum1 : v + e * (z' - z) ≤ A * (z' - l2) := by nlinarith
  refine ⟨hr.mem _, hsum0, hsum1, ?_⟩
  set c := (1 + ulpU) ^ (8 * n + j) with hc
  set t := (1 + ulpU) ^ (2 * j) with ht
  have ht1 : 1 ≤ t := one_le_pow₀ (by linarith)
  have hcc : (1 + ulpU) ^ (8 * n) ≤ c := pow_le_pow_right₀ (by linarith) (by omega)
  have hc1 : (1 : ℝ) ≤ (1 + ulpU) ^ (8 * n) := one_le_pow₀ (by linarith)
  have hd : |w + G - (v + e * (z' - z))| ≤ (c - 1) * (A * (z' - l2)) + (t - 1 + ulpU) * V := by
    calc |w + G - (v + e * (z' - z))| = |(w - v) + (G - e * (z' - z))| := by ring_nf
      _ ≤ |w - v| + |G - e * (z' - z)| := abs_add_le _ _
      _ ≤ ((c - 1) * (A * (z - l2)) + (t - 1) * V) + (((1 + ulpU) ^ (8 * n) - 1) * (A * (z' - z)) + ulpU * V) := add_le_add hve hslab
      _ ≤ ((c - 1) * (A * (z - l2)) + (t - 1) * V) + ((c - 1) * (A * (z' - z)) + ulpU * V) := by
        have := mul_le_mul_of_nonneg_right hcc (mul_nonneg hA hh)
        linarith
      _ = _ := by ring
  set E := (c - 1) * (A * (z' - l2)) + (t - 1 + ulpU) * V with hE
  have hrel := hr.rel_add hw hG
  have habs : |w + G| ≤ A * (z' - l2) + E := by
    calc |w + G| = |(w + G - (v + e * (z' - z))) + (v + e * (z' - z))| := by ring_nf
      _ ≤ |w + G - (v + e * (z' - z))| + |v + e * (z' - z)| := abs_add_le _ _
      _ ≤ E + A * (z' - l2) := add_le_add hd (by rw [abs_of_nonneg hsum0]; exact hsum1)
      _ = _ := add_comm _ _
  have htot : |rnd (w + G) - (v + e * (z' - z))| ≤ ulpU * (A * (z' - l2) + E) + E := by
    calc |rnd (w + G) - (v + e * (z' - z))| = |(rnd (w + G) - (w + G)) + (w + G - (v + e * (z' - z)))| := by ring_nf
      _ ≤ |rnd (w + G) - (w + G)| + |w + G - (v + e * (z' - z))| := abs_add_le _ _
      _ ≤ ulpU * |w + G| + E := add_le_add hrel hd
      _ ≤ _ := by
        have := mul_le_mul_of_nonneg_left habs hu.le
        linarith
  refine htot.trans ?_
  have hp1 : (1 + ulpU) ^ (8 * n + (j + 1)) = c * (1 + ulpU) := by rw [hc, ← pow_succ]; congr 1
  have hp2 : (1 + ulpU) ^ (2 * (j + 1)) = t * (1 + ulpU) ^ 2 := by rw [ht, ← pow_add]; congr 1
  rw [hp1, hp2]
  have key : (1 + ulpU) * (t - 1 + ulpU) ≤ t * (1 + ulpU) ^ 2 - 1 := by nlinarith [mul_nonneg hu.le hu.le, mul_nonneg (mul_nonneg hu.le hu.le) (sub_nonneg.2 ht1)]
  have := mul_le_mul_of_nonneg_right key hV0
  rw [hE]
  nlinarith

theorem sim3_err (hr : Nearest binary64 rnd) (hd : Data3 x ref low N) {A V : ℝ} (hAd : A = (ref 0 - low 0) * (ref 1 - low 1)) (hA : minNormal ≤ A)
    (hV : minNormal ≤ V) : FSim3 rnd x ref N A (ErrA A) (ErrV A V (low 2) N.length) where
  area_le L hL := by
    have := HV_le_box (x := x) (ref := ref) (low := low) 2 L (fun p hp k hk => hd.lowle p (hL p hp) k (by omega)) (fun k hk => hd.lowref k (by omega))
    rw [Fin.prod_univ_two] at this
    rw [hAd]; exact this
  first {a a' b b'} ha ha' hb hb' h1 h2 hle := by
    have m {v : ℝ} {k : ℕ} (hk : k < 3) (h : HvCoord x ref N k v) := h.mem64 hd.pts64 hd.ref64 hk
    have hu := ulpU_pos
    have hA0 : 0 ≤ A := minNormal_pos.le.trans hA
    refine ⟨hr.mem _, ?_⟩
    refine (err_area hr hA (m (by omega) hb) (m (by omega) hb') (m (by omega) ha) (m (by omega) ha') h2 h1 hle).trans ?_
    refine mul_le_mul_of_nonneg_right ?_ hA0
    have : (1 + ulpU) ^ 3 ≤ (1 + ulpU) ^ (4 * 1) := pow_le_pow_right₀ (by linarith) (by norm_num)
    linarith
  add {e f k a a' b b'} hra ha ha' hb hb' h1 h2 h0 hle := by
    have m {v : ℝ} {k : ℕ} (hk : k < 3) (h : HvCoord x ref N k v) := h.mem64 hd.pts64 hd.ref64 hk
    have hp : 0 ≤ (b' - b) * (a' - a) := mul_nonneg (sub_nonneg.2 h2) (sub_nonneg.2 h1)
    have := err_step hr (e' := e + (b' - b) * (a' - a)) (p := (b' - b) * (a' - a)) 1 (Or.inl rfl) (by ring) (add_nonneg h0 hp) hle hra (hr.mem _)
      (err_area hr hA (m (by omega) ha) (m (by omega) ha') (m (by omega) hb) (m (by omega) hb') h1 h2 (by linarith))
    rwa [one_mul] at this
  sub {e f k a a' b b'} hra ha ha' hb hb' h1 h2 hle h0 := by
    have m {v : ℝ} {k : ℕ} (hk : k < 3) (h : HvCoord x ref N k v) := h.mem64 hd.pts64 hd.ref64 hk
    have hp : 0 ≤ (b' - b) * (a' - a) := mul_nonneg (sub_nonneg.2 h2) (sub_nonneg.2 h1)
    have := err_step hr (e' := e - (b' - b) * (a' - a)) (p := (b' - b) * (a' - a)) (-1) (Or.inr rfl) (by ring) h0 (by linarith) hra (hr.mem _)
      (err_area hr hA (m (by omega) ha) (m (by omega) ha') (m (by omega) hb) (m (by omega) hb') h1 h2 (by linarith))
    rwa [neg_one_mul, ← sub_eq_add_neg] at this
  vfirst {e f k z z'} hra hk h0 h1 hz hz' hle := by
    have hH := hr.rel_sub (hz'.mem64 hd.pts64 hd.ref64 (by omega)) (hz.mem64 hd.pts64 hd.ref64 (by omega))
    rw [abs_of_nonneg (sub_nonneg.2 hle)] at hH
    exact err_vfirst hr hra hk h0 h1 (hz.bounds hd.lowle hd.lowref hd.below (by omega)).1 hle hH hV
  vadd {v w j e f k z z'} hrv hra hk h0 h1 hz hz' hle := by
    have hH := hr.rel_sub (hz'.mem64 hd.pts64 hd.ref64 (by omega)) (hz.mem64 hd.pts64 hd.ref64 (by omega))
    rw [abs_of_nonneg (sub_nonneg.2 hle)] at hH
    exact err_vadd hr hrv hra hk h0 h1 hle hH hV
  vskip {v w z j} hrv := by
    obtain ⟨hw, hv0, hv1, hve⟩ := hrv
    have hu := ulpU_pos
    have hV0 : 0 ≤ V := minNormal_pos.le.trans hV
    refine ⟨hw, hv0, hv1, hve.trans (add_le_add (mul_le_mul_of_nonneg_right ?_ (hv0.trans hv1)) (mul_le_mul_of_nonneg_right ?_ hV0))⟩
    · have : (1 + ulpU) ^ (8 * N.length + j) ≤ (1 + ulpU) ^ (8 * N.length + (j + 1)) := pow_le_pow_right₀ (by linarith) (by omega)
      linarith
    · have : (1 + ulpU) ^ (2 * j) ≤ (1 + ulpU) ^ (2 * (j + 1)) := pow_le_pow_right₀ (by linarith) (by omega)
      linarith
  height {z z'} hz hz' := by
    have := hr.sub_nonpos (hz'.mem64 hd.pts64 hd.ref64 (by omega)) (hz.mem64 hd.pts64 hd.ref64 (by omega))
    rw [gt_iff_lt, gt_iff_lt, ← not_le, this, ← not_le, sub_nonpos]

end Moo
