import Verif.Lemmas.FloatHvTop
import Mathlib.Analysis.SpecialFunctions.Exp

/-!
# C89, C90: the hypervolume of three or more objectives in double precision
-/

set_option autoImplicit false

namespace Moo

open MeasureTheory

variable {rnd : ℝ → ℝ}

/-- **C89.** Let the values of objective `k` and of the reference point be multiples of `2 ^ e k`, and let the box between the reference point and some lower
bound of the points below it hold at most `2 ^ 53` cells of that grid.  Then `fpli_hv` makes no rounding error, in any number of objectives: the floating-point
run returns what exact arithmetic returns, for every way in which `qsort` may order ties. -/
theorem C89_hv_exact_on_grid (hr : Nearest binary64 rnd) (d n : ℕ) (hd : 2 ≤ d) (pts : ℕ → ℕ → ℝ) (ref low : ℕ → ℝ) (e : ℕ → ℤ) (env : HvEnv ℝ)
    (henv : HvEnvOk pts d n env) (hp : ∀ i < n, ∀ k < d, ∃ m : ℤ, pts i k = m * (2 : ℝ) ^ e k) (href : ∀ k < d, ∃ m : ℤ, ref k = m * (2 : ℝ) ^ e k)
    (he1 : ∀ k < d, -1074 ≤ e k) (he2 : ∀ i ≤ d, -1074 ≤ ∑ k ∈ Finset.range i, e k)
    (hlow : ∀ i < n, (∀ k < d, pts i k < ref k) → ∀ k < d, low k ≤ pts i k)
    (hV : ∏ k ∈ Finset.range d, (ref k - low k) ≤ 2 ^ 53 * (2 : ℝ) ^ (∑ k ∈ Finset.range d, e k)) :
    fpliHvF rnd pts d n ref env = fpliHv pts d n ref env :=
  (fpliHvF_grid hr hd pts env henv hp href he1 he2 hlow hV).1

/-- **C89 (integers).** For integer coordinates, if the box between the reference point and a lower bound of the points below it has a volume of at most
`2 ^ 53`, and `qsort` is stable (any `qsort` will do for two or three objectives), the floating-point run of `fpli_hv` returns exactly the volume of the dominated
region. -/
theorem C89_hv_exact_integers (hr : Nearest binary64 rnd) (d n : ℕ) (hd : 2 ≤ d) (pts : ℕ → ℕ → ℝ) (ref low : ℕ → ℝ) (env : HvEnv ℝ)
    (henv : HvEnvOk pts d n env) (hstable : 3 < d → ∀ j, j + 1 < d → StableQsort (compareNode (nodeTable pts) j) (env.ords (j + 1)) (env.ords j))
    (hp : ∀ i < n, ∀ k < d, ∃ m : ℤ, pts i k = m) (href : ∀ k < d, ∃ m : ℤ, ref k = m)
    (hlow : ∀ i < n, (∀ k < d, pts i k < ref k) → ∀ k < d, low k ≤ pts i k) (hV : ∏ k ∈ Finset.range d, (ref k - low k) ≤ 2 ^ 53) :
    fpliHvF rnd pts d n ref env = vol (dominatedRegion d n pts ref) := by
  rw [C89_hv_exact_on_grid hr d n hd pts ref low (fun _ => 0) env henv (fun i hi k hk => by simpa using hp i hi k hk)
    (fun k hk => by simpa using href k hk) (fun _ _ => by norm_num) (fun i _ => by simp) hlow (by simpa using hV)]
  have hties : TiesConsistent (nodeTable pts) d env.ords := by
    by_cases h3 : 3 < d
    · exact tiesConsistent_of_stable _ _ _ (hstable h3)
    · exact tiesConsistent_of_le_three _ d (by omega) _
  obtain ⟨h0, hv⟩ := C13_hv_is_volume_partial d n hd pts ref env henv hties
  unfold vol
  rw [hv, ENNReal.toReal_ofReal h0]

/-- **C90.** For three objectives and any points and reference point in double precision, let `low` be a lower bound of the points below the reference point
and `V` the volume of the box from `low` to the reference point.  If neither `V` nor the area of the box in the first two objectives is below `2 ^ -1022`, the
floating-point run of `fpli_hv` on `n` points differs from the volume of the dominated region by at most `((1 + 2 ^ -53) ^ (11 n) - 1) V`, for every way in which
`qsort` may order ties. -/
theorem C90_hv3d_float_error (hr : Nearest binary64 rnd) (n : ℕ) (pts : ℕ → ℕ → ℝ) (ref low : ℕ → ℝ) (env : HvEnv ℝ) (henv : HvEnvOk pts 3 n env)
    (hp : ∀ i < n, ∀ k < 3, pts i k ∈ binary64) (href : ∀ k < 3, ref k ∈ binary64)
    (hlow : ∀ i < n, (∀ k < 3, pts i k < ref k) → ∀ k < 3, low k ≤ pts i k) (hA : (2 : ℝ) ^ (-1022 : ℤ) ≤ (ref 0 - low 0) * (ref 1 - low 1))
    (hV : (2 : ℝ) ^ (-1022 : ℤ) ≤ (ref 0 - low 0) * (ref 1 - low 1) * (ref 2 - low 2)) :
    |fpliHvF rnd pts 3 n ref env - vol (dominatedRegion 3 n pts ref)| ≤
      ((1 + (2 : ℝ) ^ (-53 : ℤ)) ^ (11 * n) - 1) * ((ref 0 - low 0) * (ref 1 - low 1) * (ref 2 - low 2)) := by
  have hvol : vol (dominatedRegion 3 n pts ref) = fpliHv pts 3 n ref env := by
    obtain ⟨h0, hv⟩ := C12_hv3d_is_volume n pts ref env henv
    unfold vol
    rw [hv, ENNReal.toReal_ofReal h0]
  rw [hvol]
  unfold fpliHvF fpliHv
  by_cases hn : n = 0
  · rw [if_pos hn, if_pos hn, sub_self, abs_zero, hn]; simp
  rw [if_neg hn, if_neg hn, if_neg (by norm_num), if_neg (by norm_num)]
  exact fpliHvNF_err hr env.ords env.b0 env.mem (henv.2.1 (by norm_num)) (fun p h1 h2 => hp (p - 1) (by omega)) href
    (fun p h1 h2 => hlow (p - 1) (by omega)) hA hV

/-- **C90 (simple bound).** The same with the bound `n * 2 ^ -49 * V`, for up to `2 ^ 48` points. -/
theorem C90_hv3d_float_error_simple (hr : Nearest binary64 rnd) (n : ℕ) (hn : n ≤ 2 ^ 48) (pts : ℕ → ℕ → ℝ) (ref low : ℕ → ℝ) (env : HvEnv ℝ)
    (henv : HvEnvOk pts 3 n env) (hp : ∀ i < n, ∀ k < 3, pts i k ∈ binary64) (href : ∀ k < 3, ref k ∈ binary64)
    (hlow : ∀ i < n, (∀ k < 3, pts i k < ref k) → ∀ k < 3, low k ≤ pts i k) (hA : (2 : ℝ) ^ (-1022 : ℤ) ≤ (ref 0 - low 0) * (ref 1 - low 1))
    (hV : (2 : ℝ) ^ (-1022 : ℤ) ≤ (ref 0 - low 0) * (ref 1 - low 1) * (ref 2 - low 2)) :
    |fpliHvF rnd pts 3 n ref env - vol (dominatedRegion 3 n pts ref)| ≤
      n * (2 : ℝ) ^ (-49 : ℤ) * ((ref 0 - low 0) * (ref 1 - low 1) * (ref 2 - low 2)) := by
  refine (C90_hv3d_float_error hr n pts ref low env henv hp href hlow hA hV).trans ?_
  refine mul_le_mul_of_nonneg_right ?_ (le_trans (zpow_nonneg (by norm_num) _) hV)
  set u : ℝ := (2 : ℝ) ^ (-53 : ℤ) with hu
  have hu0 : 0 ≤ u := zpow_nonneg (by norm_num) _
  have h49 : (2 : ℝ) ^ (-49 : ℤ) = 16 * u := by
    rw [hu, show (-49 : ℤ) = 4 + (-53) by norm_num, zpow_add₀ (by norm_num)]; norm_num
  have hu53 : u * 2 ^ 53 = 1 := by
    rw [hu, zpow_neg]
    exact inv_mul_cancel₀ (by norm_num)
  have hnr : (n : ℝ) ≤ 2 ^ 48 := by exact_mod_cast hn
  set t : ℝ := 11 * n * u with ht
  have ht0 : 0 ≤ t := by positivity
  have ht1 : t ≤ 11 / 32 := by
    have h1 : (n : ℝ) * u ≤ 2 ^ 48 * u := mul_le_mul_of_nonneg_right hnr hu0
    have h2 : (2 : ℝ) ^ 48 * u = 1 / 32 := by
      have : (2 : ℝ) ^ 53 = 2 ^ 48 * 32 := by norm_num
      rw [this] at hu53
      linarith
    rw [ht]; linarith
  have hexp : (1 + u) ^ (11 * n) ≤ Real.exp t := by
    have h1 : 1 + u ≤ Real.exp u := by linarith [Real.add_one_le_exp u]
    calc (1 + u) ^ (11 * n) ≤ Real.exp u ^ (11 * n) := pow_le_pow_left₀ (by linarith) h1 _
      _ = Real.exp t := by rw [← Real.exp_nat_mul, ht]; push_cast; ring_nf
  have hb := Real.abs_exp_sub_one_sub_id_le (x := t) (by rw [abs_of_nonneg ht0]; linarith)
  have hb2 := (abs_le.1 hb).2
  rw [h49]
  have : Real.exp t - 1 ≤ 16 / 11 * t := by nlinarith
  have h3 : 16 / 11 * t = n * (16 * u) := by rw [ht]; ring
  linarith

/-- Three points of four objectives. -/
def grid4 : ℕ → ℕ → ℝ := fun i k => (([[1, 5, 2, 7], [3, 2, 2, 4], [6, 1, 3, 1]] : List (List ℤ)).getD i []).getD k 0

/-- A non-trivial case of C89: a rounding and an environment exist, and the box has volume `10 ^ 4`. -/
example : ∃ (rnd : ℝ → ℝ) (env : HvEnv ℝ), Nearest binary64 rnd ∧ HvEnvOk grid4 4 3 env ∧
    fpliHvF rnd grid4 4 3 (fun _ => 10) env = vol (dominatedRegion 4 3 grid4 (fun _ => 10)) := by
  obtain ⟨rnd, hr⟩ := exists_nearest64
  obtain ⟨env, henv, hst, -⟩ := exists_stable_env 4 3 grid4
  refine ⟨rnd, env, hr, henv, C89_hv_exact_integers hr 4 3 (by norm_num) grid4 (fun _ => 10) (fun _ => 0) env henv (fun _ => hst) ?_ ?_ ?_ ?_⟩
  · intro i _ k _; exact ⟨_, rfl⟩
  · intro k _; exact ⟨10, by norm_num⟩
  · intro i hi _ k hk
    have h1 : i = 0 ∨ i = 1 ∨ i = 2 := by omega
    have h2 : k = 0 ∨ k = 1 ∨ k = 2 ∨ k = 3 := by omega
    rcases h1 with rfl | rfl | rfl <;> rcases h2 with rfl | rfl | rfl | rfl <;> norm_num [grid4]
  · simp; norm_num

/-- A non-trivial case of C90: two points, one with the coordinates `1 / 8, 2 ^ 53, -5`. -/
example : ∃ (rnd : ℝ → ℝ) (env : HvEnv ℝ) (pts : ℕ → ℕ → ℝ), Nearest binary64 rnd ∧ HvEnvOk pts 3 2 env ∧
    |fpliHvF rnd pts 3 2 (fun _ => 2 ^ 53 + 2) env - vol (dominatedRegion 3 2 pts (fun _ => 2 ^ 53 + 2))| ≤
      (2 : ℕ) * (2 : ℝ) ^ (-49 : ℤ) * ((2 ^ 53 + 7) * (2 ^ 53 + 7) * (2 ^ 53 + 7)) := by
  obtain ⟨rnd, hr⟩ := exists_nearest64
  set pts : ℕ → ℕ → ℝ := fun i k => if i = 0 then 1 else if k = 0 then (2 : ℝ) ^ (-3 : ℤ) else if k = 1 then 2 ^ 53 else -5 with hpts
  obtain ⟨env, henv, -, -⟩ := exists_stable_env 3 2 pts
  refine ⟨rnd, env, pts, hr, henv, ?_⟩
  have h := C90_hv3d_float_error_simple hr 2 (by norm_num) pts (fun _ => 2 ^ 53 + 2) (fun _ => -5) env henv ?_ ?_ ?_ ?_ ?_
  · refine h.trans (le_of_eq ?_)
    norm_num
  · intro i hi k hk
    simp only [hpts]
    split_ifs
    · exact ⟨1, 0, by norm_num, by norm_num, by norm_num⟩
    · exact ⟨1, -3, by norm_num, by norm_num, by norm_num⟩
    · exact ⟨1, 53, by norm_num, by norm_num, by norm_num⟩
    · exact ⟨-5, 0, by norm_num, by norm_num, by norm_num⟩
  · intro k _
    exact ⟨2 ^ 52 + 1, 1, by norm_num, by norm_num, by norm_num⟩
  · intro i hi _ k hk
    simp only [hpts]
    split_ifs <;> norm_num
  · exact le_trans (zpow_le_one_of_nonpos₀ (by norm_num) (by norm_num)) (by norm_num)
  · exact le_trans (zpow_le_one_of_nonpos₀ (by norm_num) (by norm_num)) (by norm_num)


/-! ### A dominated point can lower the computed value -/

/-- The numbers of `binary64` above `2 ^ 56` are multiples of 16. -/
theorem binary64_above {x : ℝ} (hx : x ∈ binary64) (h : 2 ^ 56 < x) : ∃ k : ℤ, x = 16 * k := by
  obtain ⟨m, e, hm, -, rfl⟩ := hx
  by_cases he : 4 ≤ e
  · obtain ⟨j, hj⟩ := Int.eq_ofNat_of_zero_le (show 0 ≤ e - 4 by omega)
    obtain rfl : e = j + 4 := by omega
    refine ⟨m * 2 ^ j, ?_⟩
    rw [zpow_add₀ (by norm_num), zpow_natCast]
    push_cast
    norm_num
    ring
  · exfalso
    have h1 : (m : ℝ) ≤ 2 ^ 53 := by exact_mod_cast (abs_le.1 hm).2
    have h2 : (2 : ℝ) ^ e ≤ 2 ^ (3 : ℤ) := zpow_le_zpow_right₀ (by norm_num) (by omega)
    have h3 : (0 : ℝ) < 2 ^ e := zpow_pos (by norm_num) _
    have h4 : (m : ℝ) * 2 ^ e ≤ 2 ^ 53 * 2 ^ (3 : ℤ) := mul_le_mul h1 h2 h3.le (by norm_num)
    norm_num at h4 h
    linarith

/-- Rounding above `2 ^ 56`. -/
theorem Nearest.eq_above (hr : Nearest binary64 rnd) {z : ℝ} (k : ℤ) (hk : 2 ^ 52 < k) (hk2 : k ≤ 2 ^ 53) (h : |16 * k - z| < 8) : rnd z = 16 * k := by
  have hm : (16 * k : ℝ) ∈ binary64 := ⟨k, 4, by rw [abs_of_nonneg (by omega)]; exact hk2, by norm_num, by norm_num; ring⟩
  have hb := hr.best z _ hm
  have hk' : (2 : ℝ) ^ 52 + 1 ≤ k := by exact_mod_cast hk
  have h8 := abs_lt.1 h
  have hd := abs_lt.1 (lt_of_le_of_lt hb h)
  obtain ⟨j, hj⟩ : ∃ j : ℤ, rnd z = 16 * j := by
    refine binary64_above (hr.mem z) ?_
    norm_num at hk'
    norm_num
    linarith [hd.1, h8.1, h8.2]
  rw [hj] at hd ⊢
  have h1 : (j : ℝ) < k + 1 := by linarith [hd.1, hd.2, h8.1, h8.2]
  have h2 : (k : ℝ) < j + 1 := by linarith [hd.1, hd.2, h8.1, h8.2]
  have : j = k := by
    have h1' : j < k + 1 := by exact_mod_cast h1
    have h2' : k < j + 1 := by exact_mod_cast h2
    omega
  rw [this]

/-- The points `(0, 0, 0)` and `(1, 1, 1)`. -/
def diagPts : ℕ → ℕ → ℝ := fun i _ => i

/-- The reference point `(2 ^ 52 + 3, 2, 10)`. -/
def diagRef : ℕ → ℝ := fun k => if k = 0 then 2 ^ 52 + 3 else if k = 1 then 2 else 10

/-- If only one of the points is below the reference point, the result is the product of its distances. -/
theorem fpliHvNF_one {x : ℕ → ℕ → ℝ} {d n : ℕ} (hd : 0 < d) (ref : ℕ → ℝ) (ords : ℕ → List ℕ) (b0 : ℝ) (mem : HvState ℝ) (hord : HvOrders x d n ords)
    (p : ℕ) (h1 : 1 ≤ p) (h2 : p ≤ n) (hp : ∀ k < d, x p k < ref k) (hq : ∀ q, 1 ≤ q → q ≤ n → q ≠ p → ∃ k < d, ref k ≤ x q k) :
    fpliHvNF rnd x d n ref ords b0 mem = boxProductF rnd x ref p d := by
  obtain ⟨A, S, pos, f1, f2, f3, f4, f5, f6, f7, f8, f9⟩ := hvFiltered_spec ref ords b0 mem hord
  have hA : A = [p] := by
    have hmem : ∀ q, q ∈ A ↔ q = p := by
      intro q
      rw [f5]
      constructor
      · rintro ⟨⟨a1, a2⟩, a3⟩
        by_contra hne
        obtain ⟨k, hk, hle⟩ := hq q a1 a2 hne
        exact absurd (a3 k hk) (not_lt.2 hle)
      · rintro rfl; exact ⟨⟨h1, h2⟩, hp⟩
    exact List.perm_singleton.1 ((List.perm_ext_iff_of_nodup f2 (List.nodup_singleton p)).2 (fun q => by rw [hmem]; simp))
  unfold fpliHvNF
  rw [f1]
  subst hA
  have := linkedSet_singleton (f6 0 hd)
  simp [this]

theorem diag_rnd (hr : Nearest binary64 rnd) : rnd (2 ^ 52 + 3) = 2 ^ 52 + 3 ∧ rnd 1 = 1 ∧ rnd 2 = 2 ∧ rnd 9 = 9 ∧ rnd 10 = 10 ∧
    rnd ((2 ^ 52 + 3) * 2) = (2 ^ 52 + 3) * 2 := by
  have hi : ∀ m : ℤ, |m| ≤ 2 ^ 53 → rnd (m : ℝ) = m := fun m hm => hr.fix (binary64_int hm)
  refine ⟨?_, ?_, ?_, ?_, ?_, hr.fix ⟨2 ^ 52 + 3, 1, by norm_num, by norm_num, by norm_num⟩⟩
  · have := hi (2 ^ 52 + 3) (by norm_num)
    push_cast at this
    norm_num
    exact this
  · have := hi 1 (by norm_num); push_cast at this; exact this
  · have := hi 2 (by norm_num); push_cast at this; exact this
  · have := hi 9 (by norm_num); push_cast at this; exact this
  · have := hi 10 (by norm_num); push_cast at this; exact this

/-- The value for `(0, 0, 0)` and points outside the reference box. -/
theorem diag_one_value (hr : Nearest binary64 rnd) (pts : ℕ → ℕ → ℝ) (n : ℕ) (hn : 0 < n) (env : HvEnv ℝ) (henv : HvEnvOk pts 3 n env)
    (h0 : ∀ k < 3, pts 0 k = 0) (hout : ∀ i < n, i ≠ 0 → diagRef 0 ≤ pts i 0) : fpliHvF rnd pts 3 n diagRef env = 16 * (5629499534213124 : ℤ) := by
  obtain ⟨r1, rr1, r2, r9, r10, ra⟩ := diag_rnd hr
  unfold fpliHvF
  rw [if_neg (by omega), if_neg (by norm_num), fpliHvNF_one (by norm_num) diagRef env.ords env.b0 env.mem (henv.2.1 (by norm_num)) 1 (le_refl _) hn
    (fun k hk => by
      have : nodeTable pts 1 k = 0 := h0 k hk
      rw [this]
      unfold diagRef
      split_ifs <;> norm_num)
    (fun q h1 h2 hne => ⟨0, by norm_num, hout (q - 1) (by omega) (by omega)⟩)]
  have k1 : rnd ((2 ^ 52 + 3) * 2 * 10) = 16 * (5629499534213124 : ℤ) := hr.eq_above _ (by norm_num) (by norm_num) (by norm_num)
  have z0 : nodeTable pts 1 0 = 0 := h0 0 (by norm_num)
  have z1 : nodeTable pts 1 1 = 0 := h0 1 (by norm_num)
  have z2 : nodeTable pts 1 2 = 0 := h0 2 (by norm_num)
  have d0 : diagRef 0 = 2 ^ 52 + 3 := by simp [diagRef]
  have d1 : diagRef 1 = 2 := by simp [diagRef]
  have d2 : diagRef 2 = 10 := by simp [diagRef]
  simp only [boxProductF, z0, z1, z2, d0, d1, d2, sub_zero, one_mul]
  rw [r1, r1, r2, r10, ra, k1]

/-- The value for `(0, 0, 0)` and `(1, 1, 1)`. -/
theorem diag_two_value (hr : Nearest binary64 rnd) (env' : HvEnv ℝ) (henv' : HvEnvOk diagPts 3 2 env') :
    fpliHvF rnd diagPts 3 2 diagRef env' = 16 * (5629499534213123 : ℤ) := by
  obtain ⟨r1, rr1, r2, r9, r10, ra⟩ := diag_rnd hr
  have o2 : env'.ords 0 = [1, 2] ∧ env'.ords 1 = [1, 2] ∧ env'.ords 2 = [1, 2] := by
    have h := henv'.2.1 (by norm_num)
    have key : ∀ j < 3, env'.ords j = [1, 2] := by
      intro j hj
      have hp : (env'.ords j).Perm [1, 2] := hvOrders_perm h j hj
      have hs := hvOrders_sorted h j hj
      have hor : env'.ords j = [1, 2] ∨ env'.ords j = [2, 1] := by
        have hl := hp.length_eq
        match hq : env'.ords j, hl with
        | [a, b], _ =>
          rw [hq] at hp
          have h1 := hp.mem_iff (a := 1)
          have h2 := hp.mem_iff (a := 2)
          simp at h1 h2
          rcases h1 with rfl | rfl <;> rcases h2 with h2 | h2 <;> simp_all
      rcases hor with h' | h'
      · exact h'
      · rw [h'] at hs
        exact absurd hs (by simp [nodeTable, diagPts])
    exact ⟨key 0 (by norm_num), key 1 (by norm_num), key 2 (by norm_num)⟩
  have p1 : (1 : ℝ) < 2 ^ 52 + 3 := by norm_num
  have h9 : (10 : ℝ) - 1 = 9 := by norm_num
  have hct : compareTreeAsc (nodeTable diagPts 2) (nodeTable diagPts 1) = -1 := by simp [compareTreeAsc, nodeTable, diagPts]
  have hup : ∀ A, hv3dUpdateF rnd (nodeTable diagPts) diagRef [1] 2 A = none := by
    intro A
    unfold hv3dUpdateF
    simp only [List.takeWhile, List.dropWhile, hct]
    simp [nextX, nodeTable, diagPts]
  have e2 : fpliHvF rnd diagPts 3 2 diagRef env' = rnd (rnd ((2 ^ 52 + 3) * 2) + rnd (rnd ((2 ^ 52 + 3) * 2) * 9)) := by
    simp [fpliHvF, fpliHvNF, setupCdllist, linkAll, linkFrom, o2, filterRef, filterDim, upd2, upd, hvRecF, hv3dRefF, hv3dLoopF, hup, nodeTable, diagPts, diagRef, r2, rr1, r1, p1, h9, r9, hr.fix (hr.mem _)]
  have k2 : rnd ((2 ^ 52 + 3) * 2 * 9) = 16 * (5066549580791811 : ℤ) := hr.eq_above _ (by norm_num) (by norm_num) (by norm_num)
  have k3 : rnd ((2 ^ 52 + 3) * 2 + 16 * (5066549580791811 : ℤ)) = 16 * (5629499534213123 : ℤ) :=
    hr.eq_above _ (by norm_num) (by norm_num) (by norm_num)
  rw [e2, ra, k2, k3]

/-- **C90, what fails.** In three objectives the computed value need not grow when a point is added, and it depends on dominated points: with the reference point
`(2 ^ 52 + 3, 2, 10)` the value computed for `(0, 0, 0)` alone exceeds the value computed for `(0, 0, 0)` and `(1, 1, 1)`. -/
theorem C90_dominated_point_lowers_value (hr : Nearest binary64 rnd) (env env' : HvEnv ℝ) (henv : HvEnvOk diagPts 3 1 env) (henv' : HvEnvOk diagPts 3 2 env') :
    fpliHvF rnd diagPts 3 2 diagRef env' < fpliHvF rnd diagPts 3 1 diagRef env := by
  rw [diag_two_value hr env' henv', diag_one_value hr diagPts 1 (by norm_num) env henv (fun _ _ => by simp [diagPts]) (fun i h1 h2 => by omega)]
  norm_num

/-- Such environments exist, and the second set contains the first. -/
example : ∃ env env' : HvEnv ℝ, HvEnvOk diagPts 3 1 env ∧ HvEnvOk diagPts 3 2 env' := by
  obtain ⟨env, h, -⟩ := exists_stable_env 3 1 diagPts
  obtain ⟨env', h', -⟩ := exists_stable_env 3 2 diagPts
  exact ⟨env, env', h, h'⟩

end Moo
