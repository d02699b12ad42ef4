import Verif.Props.FloatContrib

/-!
# C92: four objectives in double precision

With four or more objectives `fpli_hv` marks points as irrelevant when an area it has computed does not exceed the previous one.  Rounding can make
this comparison wrong, and then two points that cover each other up to rounding errors are both left out.
-/

set_option autoImplicit false
set_option linter.unusedSectionVars false

namespace Moo

variable {rnd : ℝ → ℝ}

/-- The three points `(2^-55, 2^-55, 2^-55, 0)`, `(2^-56, 2^-56, 2^-56, 2^-51)` and `(1 - 2^-50, 1 - 2^-50, 0, 2^-50)`. -/
noncomputable def thinPts : ℕ → ℕ → ℝ := fun i k =>
  if i = 0 then (if k = 3 then 0 else (2 : ℝ) ^ (-55 : ℤ))
  else if i = 1 then (if k = 3 then (2 : ℝ) ^ (-51 : ℤ) else (2 : ℝ) ^ (-56 : ℤ))
  else if k = 2 then 0 else if k = 3 then (2 : ℝ) ^ (-50 : ℤ) else 1 - (2 : ℝ) ^ (-50 : ℤ)

/-- The reference point `(1, 1, 1, 1)`. -/
def thinRef : ℕ → ℝ := fun _ => 1

/-- The run on three points whose lists are in the orders of `thinPts`: the third point is processed with both other points marked. -/
theorem thin_run (x : ℕ → ℕ → ℝ) (ref : ℕ → ℝ) (ords : ℕ → List ℕ) (b0 : ℝ) (mem : HvState ℝ) (o0 : ords 0 = [2, 1, 3]) (o1 : ords 1 = [2, 1, 3])
    (o2 : ords 2 = [3, 2, 1]) (o3 : ords 3 = [1, 2, 3]) (f0 : x 3 0 < ref 0) (f1 : x 3 1 < ref 1) (f2 : x 1 2 < ref 2) (f3 : x 3 3 < ref 3)
    (b22 : b0 ≤ x 2 2) (b32 : b0 ≤ x 3 2) (b13 : b0 ≤ x 1 3) (b23 : b0 ≤ x 2 3)
    (a1 : rnd (rnd (ref 0 - x 1 0) * rnd (ref 1 - x 1 1)) = 1) (a2 : rnd (rnd (ref 0 - x 2 0) * rnd (ref 1 - x 2 1)) = 1)
    (h1 : rnd (ref 2 - x 1 2) = 1) (r1 : rnd 1 = 1) (idem : ∀ z, rnd (rnd z) = rnd z) (s : rnd (rnd (x 1 2 - x 2 2) + 1) = 1)
    (c0 : x 2 0 < x 1 0) (c1 : x 2 1 < x 1 1) (V a : ℝ) (ha : rnd (rnd (ref 0 - x 3 0) * rnd (ref 1 - x 3 1)) = a)
    (hV : rnd (rnd (rnd (a * rnd (x 2 2 - x 3 2)) + rnd (a * rnd (x 1 2 - x 2 2))) + a) = V) (hV1 : V ≤ 1) :
    fpliHvNF rnd x 4 3 ref ords b0 mem = rnd (rnd (rnd (x 2 3 - x 1 3) + rnd (x 3 3 - x 2 3)) + rnd (V * rnd (ref 3 - x 3 3))) := by
  have hct : compareTreeAsc (x 1) (x 2) = -1 := by simp [compareTreeAsc, c1]
  have hup : ∀ A, hv3dUpdateF rnd x ref [2] 1 A = none := by
    intro A
    unfold hv3dUpdateF
    simp only [List.takeWhile, List.dropWhile, hct]
    simp [nextX, c0.le]
  have n10 : ¬ (1 : ℝ) ≤ 0 := by norm_num
  have haa : rnd a = a := by rw [← ha, idem]
  simp [fpliHvNF, setupCdllist, linkAll, linkFrom, o0, o1, o2, o3, filterRef, filterDim, upd2, upd, f0, f1, f2, f3]
  simp [hvRecF, hvLevelF, hvReset, hvDelLoop, hvDelete, hvDeleteLoop, hvDeleteStep, hvAreaInitF, upd, upd2, b13, b23, not_lt.2 b22, not_lt.2 b32]
  simp [n10, hvMainLoopF, hvReinsert, hvReinsertLoop, hvReinsertStep, skipOrRecurse, hv3dRefF, hv3dLoopF, hup, upd, upd2, not_lt.2 b22, not_lt.2 b32, a1, a2, h1, r1,
    idem, s, ha, hV, hV1, haa]

/-- The run on the first two points. -/
theorem thin_run_two (x : ℕ → ℕ → ℝ) (ref : ℕ → ℝ) (ords : ℕ → List ℕ) (b0 : ℝ) (mem : HvState ℝ) (o0 : ords 0 = [2, 1]) (o1 : ords 1 = [2, 1])
    (o2 : ords 2 = [2, 1]) (o3 : ords 3 = [1, 2]) (f0 : x 1 0 < ref 0) (f1 : x 1 1 < ref 1) (f2 : x 1 2 < ref 2) (f3 : x 2 3 < ref 3)
    (b22 : b0 ≤ x 2 2) (b13 : b0 ≤ x 1 3)
    (a1 : rnd (rnd (ref 0 - x 1 0) * rnd (ref 1 - x 1 1)) = 1) (a2 : rnd (rnd (ref 0 - x 2 0) * rnd (ref 1 - x 2 1)) = 1)
    (h1 : rnd (ref 2 - x 1 2) = 1) (r1 : rnd 1 = 1) (idem : ∀ z, rnd (rnd z) = rnd z) (s : rnd (rnd (x 1 2 - x 2 2) + 1) = 1)
    (c0 : x 2 0 < x 1 0) (c1 : x 2 1 < x 1 1) :
    fpliHvNF rnd x 4 2 ref ords b0 mem = rnd (rnd (x 2 3 - x 1 3) + rnd (ref 3 - x 2 3)) := by
  have hct : compareTreeAsc (x 1) (x 2) = -1 := by simp [compareTreeAsc, c1]
  have hup : ∀ A, hv3dUpdateF rnd x ref [2] 1 A = none := by
    intro A
    unfold hv3dUpdateF
    simp only [List.takeWhile, List.dropWhile, hct]
    simp [nextX, c0.le]
  have n10 : ¬ (1 : ℝ) ≤ 0 := by norm_num
  simp [fpliHvNF, setupCdllist, linkAll, linkFrom, o0, o1, o2, o3, filterRef, filterDim, upd2, upd, f0, f1, f2, f3]
  simp [hvRecF, hvLevelF, hvReset, hvDelLoop, hvDelete, hvDeleteLoop, hvDeleteStep, hvAreaInitF, upd, upd2, b13, not_lt.2 b22]
  simp [n10, hvMainLoopF, hvReinsert, hvReinsertLoop, hvReinsertStep, skipOrRecurse, hv3dRefF, hv3dLoopF, hup, upd, upd2, not_lt.2 b22, a1, a2, h1, r1,
    idem, s]

/-- The run on the first two points if the third one is replaced by the reference point. -/
theorem thin_run_drop (x : ℕ → ℕ → ℝ) (ref : ℕ → ℝ) (ords : ℕ → List ℕ) (b0 : ℝ) (mem : HvState ℝ) (o0 : ords 0 = [2, 1, 3]) (o1 : ords 1 = [2, 1, 3])
    (o2 : ords 2 = [2, 1, 3]) (o3 : ords 3 = [1, 2, 3]) (f0 : x 1 0 < ref 0) (f1 : x 1 1 < ref 1) (f2 : x 1 2 < ref 2) (f3 : x 2 3 < ref 3)
    (hx : x 3 = ref) (b22 : b0 ≤ x 2 2) (b13 : b0 ≤ x 1 3)
    (a1 : rnd (rnd (ref 0 - x 1 0) * rnd (ref 1 - x 1 1)) = 1) (a2 : rnd (rnd (ref 0 - x 2 0) * rnd (ref 1 - x 2 1)) = 1)
    (h1 : rnd (ref 2 - x 1 2) = 1) (r1 : rnd 1 = 1) (idem : ∀ z, rnd (rnd z) = rnd z) (s : rnd (rnd (x 1 2 - x 2 2) + 1) = 1)
    (c0 : x 2 0 < x 1 0) (c1 : x 2 1 < x 1 1) :
    fpliHvNF rnd x 4 3 ref ords b0 mem = rnd (rnd (x 2 3 - x 1 3) + rnd (ref 3 - x 2 3)) := by
  have hct : compareTreeAsc (x 1) (x 2) = -1 := by simp [compareTreeAsc, c1]
  have hup : ∀ A, hv3dUpdateF rnd x ref [2] 1 A = none := by
    intro A
    unfold hv3dUpdateF
    simp only [List.takeWhile, List.dropWhile, hct]
    simp [nextX, c0.le]
  have n10 : ¬ (1 : ℝ) ≤ 0 := by norm_num
  simp [fpliHvNF, setupCdllist, linkAll, linkFrom, o0, o1, o2, o3, filterRef, filterDim, filterDeleteNode, filterDeleteStep, upd2, upd, f0, f1, f2, f3, hx]
  simp [hvRecF, hvLevelF, hvReset, hvDelLoop, hvDelete, hvDeleteLoop, hvDeleteStep, hvAreaInitF, upd, upd2, b13, not_lt.2 b22]
  simp [n10, hvMainLoopF, hvReinsert, hvReinsertLoop, hvReinsertStep, skipOrRecurse, hv3dRefF, hv3dLoopF, hup, upd, upd2, not_lt.2 b22, a1, a2, h1, r1,
    idem, s]

/-- Only one order of the nodes is sorted if no two agree in the coordinate. -/
theorem hvOrders_unique {x : ℕ → ℕ → ℝ} {d n : ℕ} {ords : ℕ → List ℕ} (h : HvOrders x d n ords) (j : ℕ) (hj : j < d) (L : List ℕ)
    (hp : L.Perm (List.range' 1 n)) (hs : L.Pairwise (fun a b => x a j < x b j)) : ords j = L := by
  refine List.Perm.eq_of_pairwise (le := fun a b => x a j ≤ x b j) ?_ (hvOrders_sorted h j hj) (hs.imp le_of_lt) ((hvOrders_perm h j hj).trans hp.symm)
  intro a b ha hb hab hba
  by_contra hne
  have hmem : a ∈ L := hp.mem_iff.2 ((hvOrders_perm h j hj).mem_iff.1 ha)
  rcases (List.pairwise_iff_getElem.1 hs) with hg
  obtain ⟨i1, hi1, e1⟩ := List.mem_iff_getElem.1 hmem
  obtain ⟨i2, hi2, e2⟩ := List.mem_iff_getElem.1 hb
  rcases lt_trichotomy i1 i2 with hlt | heq | hlt
  · have := hg i1 i2 hi1 hi2 hlt; rw [e1, e2] at this; exact absurd this (not_lt.2 hba)
  · subst heq; exact hne (e1.symm.trans e2)
  · have := hg i2 i1 hi2 hi1 hlt; rw [e1, e2] at this; exact absurd this (not_lt.2 hab)

/-- The only double nearer to `1` than `2 ^ -53` is `1`. -/
theorem binary64_eq_one {f : ℝ} (hf : f ∈ binary64) (h : |f - 1| < (2 : ℝ) ^ (-53 : ℤ)) : f = 1 := by
  obtain ⟨m, e, h1, h2, rfl⟩ := hf
  have hsm : (2 : ℝ) ^ (-53 : ℤ) < 1 / 4 := by norm_num
  by_cases he : -53 ≤ e
  · obtain ⟨j, hj⟩ : ∃ j : ℕ, e = -53 + (j : ℤ) := ⟨(e + 53).toNat, by omega⟩
    have e1 : (m : ℝ) * (2 : ℝ) ^ e = ((m * 2 ^ j : ℤ) : ℝ) * (2 : ℝ) ^ (-53 : ℤ) := by
      rw [hj, zpow_add₀ (by norm_num : (2 : ℝ) ≠ 0), zpow_natCast]
      push_cast
      ring
    rw [e1] at h ⊢
    have e2 : ((m * 2 ^ j : ℤ) : ℝ) * (2 : ℝ) ^ (-53 : ℤ) - 1 = ((m * 2 ^ j - 2 ^ 53 : ℤ) : ℝ) * (2 : ℝ) ^ (-53 : ℤ) := by
      push_cast
      norm_num
      ring
    have hp : (0 : ℝ) < (2 : ℝ) ^ (-53 : ℤ) := by positivity
    rw [e2, abs_mul, abs_of_pos hp] at h
    have h3 : |((m * 2 ^ j - 2 ^ 53 : ℤ) : ℝ)| < 1 := by
      by_contra hc
      push Not at hc
      nlinarith
    have h4 : |m * 2 ^ j - 2 ^ 53| < 1 := by exact_mod_cast h3
    have h5 : m * 2 ^ j = 2 ^ 53 := by
      have := Int.abs_lt_one_iff.1 h4
      omega
    rw [h5]
    norm_num
  · exfalso
    push Not at he
    have h3 : (2 : ℝ) ^ e ≤ (2 : ℝ) ^ (-54 : ℤ) := zpow_le_zpow_right₀ (by norm_num) (by omega)
    have h4 : |(m : ℝ)| ≤ 2 ^ 53 := by exact_mod_cast h1
    have h5 : (m : ℝ) * (2 : ℝ) ^ e ≤ 2 ^ 53 * (2 : ℝ) ^ (-54 : ℤ) :=
      mul_le_mul (le_trans (le_abs_self _) h4) h3 (by positivity) (by positivity)
    have h6 : (2 : ℝ) ^ 53 * (2 : ℝ) ^ (-54 : ℤ) = 1 / 2 := by norm_num
    have := (abs_lt.1 h).1
    rw [h6] at h5
    have key : ∀ y q : ℝ, y ≤ 1 / 2 → q < 1 / 4 → -q < y - 1 → False := fun y q u1 u2 u3 => by linarith
    exact key _ _ h5 hsm this

theorem Nearest.eq_one (hr : Nearest binary64 rnd) {z : ℝ} (h : |z - 1| < (2 : ℝ) ^ (-54 : ℤ)) : rnd z = 1 := by
  refine binary64_eq_one (hr.mem z) ?_
  have h1 := hr.best z 1 (by simpa using binary64_int (n := 1) (by norm_num))
  have h2 : |rnd z - 1| ≤ |rnd z - z| + |z - 1| := by
    have := abs_add_le (rnd z - z) (z - 1)
    simpa using this
  rw [abs_sub_comm 1 z] at h1
  have h3 : (2 : ℝ) ^ (-53 : ℤ) = 2 * (2 : ℝ) ^ (-54 : ℤ) := by norm_num
  rw [h3]
  linarith

theorem Nearest.pow2 (hr : Nearest binary64 rnd) (e : ℤ) (he : -1074 ≤ e) : rnd ((2 : ℝ) ^ e) = (2 : ℝ) ^ e :=
  hr.fix ⟨1, e, by norm_num, he, by simp⟩

theorem thin_00 : thinPts 0 0 = (2 : ℝ) ^ (-55 : ℤ) := by simp [thinPts]
theorem thin_01 : thinPts 0 1 = (2 : ℝ) ^ (-55 : ℤ) := by simp [thinPts]
theorem thin_02 : thinPts 0 2 = (2 : ℝ) ^ (-55 : ℤ) := by simp [thinPts]
theorem thin_03 : thinPts 0 3 = 0 := by simp [thinPts]
theorem thin_10 : thinPts 1 0 = (2 : ℝ) ^ (-56 : ℤ) := by simp [thinPts]
theorem thin_11 : thinPts 1 1 = (2 : ℝ) ^ (-56 : ℤ) := by simp [thinPts]
theorem thin_12 : thinPts 1 2 = (2 : ℝ) ^ (-56 : ℤ) := by simp [thinPts]
theorem thin_13 : thinPts 1 3 = (2 : ℝ) ^ (-51 : ℤ) := by simp [thinPts]
theorem thin_20 : thinPts 2 0 = 1 - (2 : ℝ) ^ (-50 : ℤ) := by simp [thinPts]
theorem thin_21 : thinPts 2 1 = 1 - (2 : ℝ) ^ (-50 : ℤ) := by simp [thinPts]
theorem thin_22 : thinPts 2 2 = 0 := by simp [thinPts]
theorem thin_23 : thinPts 2 3 = (2 : ℝ) ^ (-50 : ℤ) := by simp [thinPts]

/-- What the three runs need to know about the first two points. -/
theorem thin_facts (hr : Nearest binary64 rnd) (x : ℕ → ℕ → ℝ) (hx : ∀ i < 2, x (i + 1) = thinPts i) :
    rnd (rnd (thinRef 0 - x 1 0) * rnd (thinRef 1 - x 1 1)) = 1 ∧ rnd (rnd (thinRef 0 - x 2 0) * rnd (thinRef 1 - x 2 1)) = 1 ∧
      rnd (thinRef 2 - x 1 2) = 1 ∧ rnd 1 = 1 ∧ (∀ z, rnd (rnd z) = rnd z) ∧ rnd (rnd (x 1 2 - x 2 2) + 1) = 1 ∧ x 2 0 < x 1 0 ∧ x 2 1 < x 1 1 ∧
      rnd (rnd (x 2 3 - x 1 3) + rnd (thinRef 3 - x 2 3)) = 1 := by
  have x1 : x 1 = thinPts 0 := hx 0 (by norm_num)
  have x2 : x 2 = thinPts 1 := hx 1 (by norm_num)
  have r1 : rnd 1 = 1 := hr.eq_one (by norm_num)
  have q1 : rnd (1 - (2 : ℝ) ^ (-55 : ℤ)) = 1 := hr.eq_one (by norm_num [abs_of_neg, abs_of_pos])
  have q2 : rnd (1 - (2 : ℝ) ^ (-56 : ℤ)) = 1 := hr.eq_one (by norm_num [abs_of_neg, abs_of_pos])
  have q3 : rnd ((2 : ℝ) ^ (-55 : ℤ) - (2 : ℝ) ^ (-56 : ℤ)) = (2 : ℝ) ^ (-56 : ℤ) := by
    have : (2 : ℝ) ^ (-55 : ℤ) - (2 : ℝ) ^ (-56 : ℤ) = (2 : ℝ) ^ (-56 : ℤ) := by norm_num
    rw [this, hr.pow2 _ (by norm_num)]
  have q4 : rnd ((2 : ℝ) ^ (-56 : ℤ) + 1) = 1 := hr.eq_one (by norm_num)
  have q5 : rnd ((2 : ℝ) ^ (-51 : ℤ)) = (2 : ℝ) ^ (-51 : ℤ) := hr.pow2 _ (by norm_num)
  have q6 : rnd (1 - (2 : ℝ) ^ (-51 : ℤ)) = 1 - (2 : ℝ) ^ (-51 : ℤ) := hr.fix ⟨2 ^ 51 - 1, -51, by norm_num, by norm_num, by norm_num⟩
  refine ⟨?_, ?_, ?_, r1, fun z => hr.fix (hr.mem z), ?_, ?_, ?_, ?_⟩
  · simp only [x1, thinRef, thin_00, thin_01]; rw [q1]; simpa using r1
  · simp only [x2, thinRef, thin_10, thin_11]; rw [q2]; simpa using r1
  · simp only [x1, thinRef, thin_02]; exact q1
  · simp only [x1, x2, thin_02, thin_12]; rw [q3]; exact q4
  · simp only [x1, x2, thin_00, thin_10]; norm_num
  · simp only [x1, x2, thin_01, thin_11]; norm_num
  · simp only [x1, x2, thin_13, thin_03, thinRef, sub_zero]; rw [q5, q6]
    have : (2 : ℝ) ^ (-51 : ℤ) + (1 - (2 : ℝ) ^ (-51 : ℤ)) = 1 := by ring
    rw [this, r1]

/-- The value computed for all three points. -/
theorem thin_value_three (hr : Nearest binary64 rnd) (env : HvEnv ℝ) (henv : HvEnvOk thinPts 4 3 env) :
    0 ≤ fpliHvF rnd thinPts 4 3 thinRef env ∧ fpliHvF rnd thinPts 4 3 thinRef env ≤ (2 : ℝ) ^ (-49 : ℤ) := by
  have hord := henv.2.1 (by norm_num)
  have n1 : nodeTable thinPts 1 = thinPts 0 := rfl
  have n2 : nodeTable thinPts 2 = thinPts 1 := rfl
  have n3 : nodeTable thinPts 3 = thinPts 2 := rfl
  obtain ⟨a1, a2, h1, r1, idem, s, c0, c1, -⟩ := thin_facts hr (nodeTable thinPts) (fun i _ => rfl)
  have perm1 : [2, 1, 3].Perm (List.range' 1 3) := by decide
  have perm2 : [3, 2, 1].Perm (List.range' 1 3) := by decide
  have perm3 : [1, 2, 3].Perm (List.range' 1 3) := by decide
  have o0 := hvOrders_unique hord 0 (by norm_num) [2, 1, 3] perm1 (by simp [n1, n2, n3, thin_00, thin_10, thin_20]; norm_num)
  have o1 := hvOrders_unique hord 1 (by norm_num) [2, 1, 3] perm1 (by simp [n1, n2, n3, thin_01, thin_11, thin_21]; norm_num)
  have o2 := hvOrders_unique hord 2 (by norm_num) [3, 2, 1] perm2 (by simp [n1, n2, n3, thin_02, thin_12, thin_22]; norm_num)
  have o3 := hvOrders_unique hord 3 (by norm_num) [1, 2, 3] perm3 (by simp [n1, n2, n3, thin_03, thin_13, thin_23]; norm_num)
  have hb := henv.2.2
  -- the area of the third point
  have z3 : rnd ((2 : ℝ) ^ (-50 : ℤ)) = (2 : ℝ) ^ (-50 : ℤ) := hr.pow2 _ (by norm_num)
  have ha : rnd (rnd (thinRef 0 - nodeTable thinPts 3 0) * rnd (thinRef 1 - nodeTable thinPts 3 1)) = (2 : ℝ) ^ (-100 : ℤ) := by
    simp only [n3, thin_20, thin_21, thinRef, sub_sub_cancel]
    rw [z3]
    have : (2 : ℝ) ^ (-50 : ℤ) * (2 : ℝ) ^ (-50 : ℤ) = (2 : ℝ) ^ (-100 : ℤ) := by norm_num
    rw [this, hr.pow2 _ (by norm_num)]
  have e1 : rnd (nodeTable thinPts 2 2 - nodeTable thinPts 3 2) = (2 : ℝ) ^ (-56 : ℤ) := by
    simp only [n2, n3, thin_12, thin_22, sub_zero]
    exact hr.pow2 _ (by norm_num)
  have e2 : rnd (nodeTable thinPts 1 2 - nodeTable thinPts 2 2) = (2 : ℝ) ^ (-56 : ℤ) := by
    simp only [n1, n2, thin_02, thin_12]
    have : (2 : ℝ) ^ (-55 : ℤ) - (2 : ℝ) ^ (-56 : ℤ) = (2 : ℝ) ^ (-56 : ℤ) := by norm_num
    rw [this, hr.pow2 _ (by norm_num)]
  have e3 : rnd ((2 : ℝ) ^ (-100 : ℤ) * (2 : ℝ) ^ (-56 : ℤ)) = (2 : ℝ) ^ (-156 : ℤ) := by
    have : (2 : ℝ) ^ (-100 : ℤ) * (2 : ℝ) ^ (-56 : ℤ) = (2 : ℝ) ^ (-156 : ℤ) := by norm_num
    rw [this, hr.pow2 _ (by norm_num)]
  have e4 : rnd ((2 : ℝ) ^ (-156 : ℤ) + (2 : ℝ) ^ (-156 : ℤ)) = (2 : ℝ) ^ (-155 : ℤ) := by
    have : (2 : ℝ) ^ (-156 : ℤ) + (2 : ℝ) ^ (-156 : ℤ) = (2 : ℝ) ^ (-155 : ℤ) := by norm_num
    rw [this, hr.pow2 _ (by norm_num)]
  have hV0 : 0 ≤ rnd ((2 : ℝ) ^ (-155 : ℤ) + (2 : ℝ) ^ (-100 : ℤ)) := hr.nonneg binary64_zero (by positivity)
  have hVu : rnd ((2 : ℝ) ^ (-155 : ℤ) + (2 : ℝ) ^ (-100 : ℤ)) ≤ (2 : ℝ) ^ (-99 : ℤ) := by
    refine (hr.mono (show _ ≤ (2 : ℝ) ^ (-99 : ℤ) by norm_num)).trans_eq (hr.pow2 _ (by norm_num))
  have hrun := thin_run (nodeTable thinPts) thinRef env.ords env.b0 env.mem o0 o1 o2 o3
    (by simp only [n3, thin_20, thinRef]; norm_num) (by simp only [n3, thin_21, thinRef]; norm_num) (by simp only [n1, thin_02, thinRef]; norm_num)
    (by simp only [n3, thin_23, thinRef]; norm_num) (hb 1 (by norm_num) 2 (by norm_num)) (hb 2 (by norm_num) 2 (by norm_num)) (hb 0 (by norm_num) 3 (by norm_num))
    (hb 1 (by norm_num) 3 (by norm_num)) a1 a2 h1 r1 idem s c0 c1 (rnd ((2 : ℝ) ^ (-155 : ℤ) + (2 : ℝ) ^ (-100 : ℤ))) ((2 : ℝ) ^ (-100 : ℤ)) ha
    (by rw [e1, e2, e3, e4]) (hVu.trans (by norm_num))
  have hval : fpliHvF rnd thinPts 4 3 thinRef env = fpliHvNF rnd (nodeTable thinPts) 4 3 thinRef env.ords env.b0 env.mem := by simp [fpliHvF]
  rw [hval, hrun]
  set V := rnd ((2 : ℝ) ^ (-155 : ℤ) + (2 : ℝ) ^ (-100 : ℤ))
  have g1 : rnd (rnd (nodeTable thinPts 2 3 - nodeTable thinPts 1 3) + rnd (nodeTable thinPts 3 3 - nodeTable thinPts 2 3)) = (2 : ℝ) ^ (-50 : ℤ) := by
    simp only [n1, n2, n3, thin_03, thin_13, thin_23, sub_zero]
    have t1 : (2 : ℝ) ^ (-50 : ℤ) - (2 : ℝ) ^ (-51 : ℤ) = (2 : ℝ) ^ (-51 : ℤ) := by norm_num
    have t2 : (2 : ℝ) ^ (-51 : ℤ) + (2 : ℝ) ^ (-51 : ℤ) = (2 : ℝ) ^ (-50 : ℤ) := by norm_num
    rw [t1, hr.pow2 (-51) (by norm_num), t2, z3]
  have g2 : rnd (thinRef 3 - nodeTable thinPts 3 3) ≤ 1 ∧ 0 ≤ rnd (thinRef 3 - nodeTable thinPts 3 3) := by
    simp only [n3, thin_23, thinRef]
    exact ⟨(hr.mono (show _ ≤ (1 : ℝ) by norm_num)).trans_eq r1, hr.nonneg binary64_zero (by norm_num)⟩
  have g3 : rnd (V * rnd (thinRef 3 - nodeTable thinPts 3 3)) ≤ (2 : ℝ) ^ (-99 : ℤ) := by
    refine (hr.mono (show _ ≤ (2 : ℝ) ^ (-99 : ℤ) from ?_)).trans_eq (hr.pow2 _ (by norm_num))
    calc V * rnd (thinRef 3 - nodeTable thinPts 3 3) ≤ V * 1 := mul_le_mul_of_nonneg_left g2.1 hV0
      _ = V := mul_one V
      _ ≤ _ := hVu
  have g4 : 0 ≤ rnd (V * rnd (thinRef 3 - nodeTable thinPts 3 3)) := hr.nonneg binary64_zero (mul_nonneg hV0 g2.2)
  rw [g1]
  refine ⟨hr.nonneg binary64_zero (add_nonneg (by positivity) g4), ?_⟩
  refine (hr.mono (show _ ≤ (2 : ℝ) ^ (-49 : ℤ) from ?_)).trans_eq (hr.pow2 _ (by norm_num))
  have : (2 : ℝ) ^ (-50 : ℤ) + (2 : ℝ) ^ (-99 : ℤ) ≤ (2 : ℝ) ^ (-49 : ℤ) := by norm_num
  linarith

/-- The value computed for the first two points. -/
theorem thin_value_two (hr : Nearest binary64 rnd) (env : HvEnv ℝ) (henv : HvEnvOk thinPts 4 2 env) : fpliHvF rnd thinPts 4 2 thinRef env = 1 := by
  have hord := henv.2.1 (by norm_num)
  have n1 : nodeTable thinPts 1 = thinPts 0 := rfl
  have n2 : nodeTable thinPts 2 = thinPts 1 := rfl
  obtain ⟨a1, a2, h1, r1, idem, s, c0, c1, hv⟩ := thin_facts hr (nodeTable thinPts) (fun i _ => rfl)
  have perm1 : [2, 1].Perm (List.range' 1 2) := by decide
  have perm3 : [1, 2].Perm (List.range' 1 2) := by decide
  have o0 := hvOrders_unique hord 0 (by norm_num) [2, 1] perm1 (by simp [n1, n2, thin_00, thin_10]; norm_num)
  have o1 := hvOrders_unique hord 1 (by norm_num) [2, 1] perm1 (by simp [n1, n2, thin_01, thin_11]; norm_num)
  have o2 := hvOrders_unique hord 2 (by norm_num) [2, 1] perm1 (by simp [n1, n2, thin_02, thin_12]; norm_num)
  have o3 := hvOrders_unique hord 3 (by norm_num) [1, 2] perm3 (by simp [n1, n2, thin_03, thin_13])
  have hb := henv.2.2
  have hval : fpliHvF rnd thinPts 4 2 thinRef env = fpliHvNF rnd (nodeTable thinPts) 4 2 thinRef env.ords env.b0 env.mem := by simp [fpliHvF]
  rw [hval, thin_run_two (nodeTable thinPts) thinRef env.ords env.b0 env.mem o0 o1 o2 o3
    (by simp only [n1, thin_00, thinRef]; norm_num) (by simp only [n1, thin_01, thinRef]; norm_num) (by simp only [n1, thin_02, thinRef]; norm_num)
    (by simp only [n2, thin_13, thinRef]; norm_num) (hb 1 (by norm_num) 2 (by norm_num)) (hb 0 (by norm_num) 3 (by norm_num)) a1 a2 h1 r1 idem s c0 c1, hv]

/-- The value computed if the third point is replaced by the reference point. -/
theorem thin_value_drop (hr : Nearest binary64 rnd) (env : HvEnv ℝ) (henv : HvEnvOk (replaceRow thinPts thinRef 2) 4 3 env) :
    fpliHvF rnd (replaceRow thinPts thinRef 2) 4 3 thinRef env = 1 := by
  set p := replaceRow thinPts thinRef 2 with hp
  have hord := henv.2.1 (by norm_num)
  have n1 : nodeTable p 1 = thinPts 0 := by simp [hp, nodeTable, replaceRow]
  have n2 : nodeTable p 2 = thinPts 1 := by simp [hp, nodeTable, replaceRow]
  have n3 : nodeTable p 3 = thinRef := by simp [hp, nodeTable, replaceRow]
  obtain ⟨a1, a2, h1, r1, idem, s, c0, c1, hv⟩ := thin_facts hr (nodeTable p) (fun i hi => by
    rcases (by omega : i = 0 ∨ i = 1) with rfl | rfl
    · exact n1
    · exact n2)
  have perm1 : [2, 1, 3].Perm (List.range' 1 3) := by decide
  have perm3 : [1, 2, 3].Perm (List.range' 1 3) := by decide
  have o0 := hvOrders_unique hord 0 (by norm_num) [2, 1, 3] perm1 (by simp [n1, n2, n3, thin_00, thin_10, thinRef]; norm_num)
  have o1 := hvOrders_unique hord 1 (by norm_num) [2, 1, 3] perm1 (by simp [n1, n2, n3, thin_01, thin_11, thinRef]; norm_num)
  have o2 := hvOrders_unique hord 2 (by norm_num) [2, 1, 3] perm1 (by simp [n1, n2, n3, thin_02, thin_12, thinRef]; norm_num)
  have o3 := hvOrders_unique hord 3 (by norm_num) [1, 2, 3] perm3 (by simp [n1, n2, n3, thin_03, thin_13, thinRef]; norm_num)
  have hb := henv.2.2
  have hval : fpliHvF rnd p 4 3 thinRef env = fpliHvNF rnd (nodeTable p) 4 3 thinRef env.ords env.b0 env.mem := by simp [fpliHvF]
  rw [hval, thin_run_drop (nodeTable p) thinRef env.ords env.b0 env.mem o0 o1 o2 o3
    (by simp only [n1, thin_00, thinRef]; norm_num) (by simp only [n1, thin_01, thinRef]; norm_num) (by simp only [n1, thin_02, thinRef]; norm_num)
    (by simp only [n2, thin_13, thinRef]; norm_num) n3 (hb 1 (by norm_num) 2 (by norm_num)) (hb 0 (by norm_num) 3 (by norm_num)) a1 a2 h1 r1 idem s c0 c1, hv]

/-- **C92, what fails.** In four objectives the result of a run in double precision can have no correct digit and miss almost all of the volume, whatever `qsort` does:
for three points with coordinates in `[0, 1)` and the reference point `(1, 1, 1, 1)`, all of them doubles and no two points equal in any objective, the dominated region has a
volume of at least `1 - 2 ^ -49`, but the value computed is at most `2 ^ -49`. -/
theorem C92_hv4d_value_lost (hr : Nearest binary64 rnd) (env : HvEnv ℝ) (henv : HvEnvOk thinPts 4 3 env) :
    1 - (2 : ℝ) ^ (-49 : ℤ) ≤ vol (dominatedRegion 4 3 thinPts thinRef) ∧ fpliHvF rnd thinPts 4 3 thinRef env ≤ (2 : ℝ) ^ (-49 : ℤ) := by
  refine ⟨?_, (thin_value_three hr env henv).2⟩
  rw [vol_dominatedRegion]
  have h1 : HV 4 thinPts [1] thinRef ≤ HV 4 thinPts (List.range 3) thinRef :=
    HV_mono (hvSet_subset (fun p hp => ⟨p, by rw [List.mem_singleton.1 hp]; decide, fun _ _ => le_refl _⟩))
  refine le_trans ?_ h1
  have hle : ∀ k : Fin 4, thinPts 1 k ≤ thinRef k := by
    intro k
    have := k.2
    unfold thinPts thinRef
    rw [if_neg (by norm_num), if_pos rfl]
    split <;> norm_num
  rw [HV_singleton 1 hle, Fin.prod_univ_four]
  have k0 : thinPts 1 ((0 : Fin 4) : ℕ) = (2 : ℝ) ^ (-56 : ℤ) := thin_10
  have k1 : thinPts 1 ((1 : Fin 4) : ℕ) = (2 : ℝ) ^ (-56 : ℤ) := thin_11
  have k2 : thinPts 1 ((2 : Fin 4) : ℕ) = (2 : ℝ) ^ (-56 : ℤ) := thin_12
  have k3 : thinPts 1 ((3 : Fin 4) : ℕ) = (2 : ℝ) ^ (-51 : ℤ) := thin_13
  rw [k0, k1, k2, k3]
  unfold thinRef
  norm_num

/-- **C92, what fails.** The third of these points makes the computed value fall from `1` to at most `2 ^ -49`. -/
theorem C92_added_point_erases_value (hr : Nearest binary64 rnd) (env env' : HvEnv ℝ) (henv : HvEnvOk thinPts 4 2 env) (henv' : HvEnvOk thinPts 4 3 env') :
    fpliHvF rnd thinPts 4 2 thinRef env = 1 ∧ fpliHvF rnd thinPts 4 3 thinRef env' ≤ (2 : ℝ) ^ (-49 : ℤ) :=
  ⟨thin_value_two hr env henv, (thin_value_three hr env' henv').2⟩

/-- **C92, what fails.** `hv_contributions` computes about `-1` for the third of these points, and its assertion fails. -/
theorem C92_contribution_negative (hr : Nearest binary64 rnd) (env : HvEnv ℝ) (envs : ℕ → HvEnv ℝ) (henv : HvEnvOk thinPts 4 3 env)
    (henvs : ∀ i < 3, HvEnvOk (replaceRow thinPts thinRef i) 4 3 (envs i)) :
    hvContributionF rnd thinPts 4 3 thinRef env envs 2 ≤ -1 + (2 : ℝ) ^ (-49 : ℤ) ∧ hvContributionsF rnd thinPts 4 3 thinRef env envs = none := by
  have h1 : hvContributionF rnd thinPts 4 3 thinRef env envs 2 ≤ -1 + (2 : ℝ) ^ (-49 : ℤ) := by
    unfold hvContributionF
    rw [thin_value_drop hr (envs 2) (henvs 2 (by norm_num))]
    have h2 := (thin_value_three hr env henv).2
    have h3 : rnd (fpliHvF rnd thinPts 4 3 thinRef env - 1) ≤ -1 + (2 : ℝ) ^ (-49 : ℤ) := by
      refine (hr.mono (show _ ≤ -1 + (2 : ℝ) ^ (-49 : ℤ) by linarith)).trans_eq (hr.fix ⟨-2 ^ 49 + 1, -49, by norm_num, by norm_num, by norm_num⟩)
    have h4 : (-1 : ℝ) + (2 : ℝ) ^ (-49 : ℤ) ≤ -(1 / 2) := by norm_num
    rw [if_pos]
    · exact h3
    · have h5 : rnd (fpliHvF rnd thinPts 4 3 thinRef env - 1) ≤ -(1 / 2) := h3.trans h4
      rw [abs_of_nonpos (by linarith)]
      exact le_trans (show (2 : ℝ) ^ (-26 : ℤ) ≤ 1 / 2 by norm_num) (by linarith)
  refine ⟨h1, hvContributionsF_eq_none _ _ _ _ _ _ ⟨2, by norm_num, lt_of_le_of_lt h1 (by norm_num)⟩⟩

/-- The points and the reference point are doubles, and no two points agree in an objective. -/
theorem C92_points_distinct_doubles : (∀ i < 3, ∀ k < 4, thinPts i k ∈ binary64 ∧ 0 ≤ thinPts i k ∧ thinPts i k < 1) ∧ (∀ k < 4, thinRef k ∈ binary64) ∧
    ∀ k < 4, ∀ i < 3, ∀ j < 3, thinPts i k = thinPts j k → i = j := by
  refine ⟨?_, fun k _ => by simpa [thinRef] using binary64_int (n := 1) (by norm_num), ?_⟩
  · have p2 : ∀ e : ℤ, -1074 ≤ e → (2 : ℝ) ^ e ∈ binary64 := fun e he => ⟨1, e, by norm_num, he, by simp⟩
    have p3 : 1 - (2 : ℝ) ^ (-50 : ℤ) ∈ binary64 := ⟨2 ^ 50 - 1, -50, by norm_num, by norm_num, by norm_num⟩
    intro i hi k hk
    unfold thinPts
    refine ⟨?_, ?_, ?_⟩ <;> split_ifs <;> first | exact binary64_zero | exact p2 _ (by norm_num) | exact p3 | norm_num
  · intro k hk i hi j hj
    unfold thinPts
    rcases (by omega : i = 0 ∨ i = 1 ∨ i = 2) with rfl | rfl | rfl <;> rcases (by omega : j = 0 ∨ j = 1 ∨ j = 2) with rfl | rfl | rfl <;>
      rcases (by omega : k = 0 ∨ k = 1 ∨ k = 2 ∨ k = 3) with rfl | rfl | rfl | rfl <;> norm_num

/-- Such environments exist. -/
example : ∃ (env env' : HvEnv ℝ) (envs : ℕ → HvEnv ℝ), HvEnvOk thinPts 4 2 env ∧ HvEnvOk thinPts 4 3 env' ∧
    ∀ i < 3, HvEnvOk (replaceRow thinPts thinRef i) 4 3 (envs i) := by
  obtain ⟨env, h, -⟩ := exists_stable_env 4 2 thinPts
  obtain ⟨env', h', -⟩ := exists_stable_env 4 3 thinPts
  have hall : ∀ i, ∃ e, HvEnvOk (replaceRow thinPts thinRef i) 4 3 e := fun i => by
    obtain ⟨e, he, -⟩ := exists_stable_env 4 3 (replaceRow thinPts thinRef i)
    exact ⟨e, he⟩
  choose envs hE using hall
  exact ⟨env, env', envs, h, h', fun i _ => hE i⟩

end Moo
