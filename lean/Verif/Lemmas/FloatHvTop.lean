import Verif.Lemmas.FloatHvGrid
import Verif.Props.Hypervolume

/-!
# `fpli_hv` in floating-point arithmetic: from the recursion to the function
-/

set_option autoImplicit false
set_option linter.unusedSectionVars false

namespace Moo

variable {x : ℕ → ℕ → ℝ} {ref low : ℕ → ℝ} {rnd : ℝ → ℝ} {N : List ℕ} {d n : ℕ} {e : ℕ → ℤ}

/-- The memory after `setup_cdllist` and `filter_ref`. -/
theorem hvFiltered_spec (ref : ℕ → ℝ) (ords : ℕ → List ℕ) (b0 : ℝ) (mem : HvState ℝ) (hord : HvOrders x d n ords) :
    ∃ (A : List ℕ) (S : HvState ℝ) (pos : ℕ → ℕ → ℕ), filterRef x ref d d n (setupCdllist ords d b0 mem) = (A.length, S) ∧ A.Nodup ∧ 0 ∉ A ∧
      A.length ≤ n ∧ (∀ p, p ∈ A ↔ (1 ≤ p ∧ p ≤ n) ∧ ∀ k < d, x p k < ref k) ∧ (∀ k < d, LinkedSet (S.next k) (S.prev k) (pos k) A) ∧
      (∀ i < d, S.area i 0 = 0) ∧ (∀ i, S.bound i = b0) ∧ ∀ i < d, ∀ p ∈ A, ∀ q ∈ A, pos i p < pos i q → x p i ≤ x q i := by
  set N := List.range' 1 n with hNdef
  have hNnd : N.Nodup := by rw [hNdef]; exact List.nodup_range'
  have hN0 : 0 ∉ N := by rw [hNdef, List.mem_range'_1]; omega
  set pos : ℕ → ℕ → ℕ := fun i p => (ords i).idxOf p with hpos
  have hperm : ∀ i < d, (ords i).Perm N := fun i hi => hvOrders_perm hord i hi
  have hnd : ∀ i < d, (ords i).Nodup := fun i hi => (hperm i hi).nodup_iff.2 hNnd
  have hmem : ∀ i < d, ∀ p, p ∈ ords i ↔ p ∈ N := fun i hi p => (hperm i hi).mem_iff
  have hsort : ∀ i < d, ∀ p ∈ N, ∀ q ∈ N, pos i p < pos i q → x p i ≤ x q i := by
    intro i hi p hp q hq hlt
    exact pairwise_of_idxOf (hvOrders_sorted hord i hi) ((hmem i hi p).2 hp) ((hmem i hi q).2 hq) hlt
  set S0 := setupCdllist ords d b0 mem with hS0
  obtain ⟨s1, _, _, s4, s5⟩ := linkAll_spec ords d
    { mem with
      ignore := fun _ => 0
      area := fun i p => if p = 0 ∧ i < d then 0 else mem.area i p
      bound := fun _ => b0 } (fun i hi => ⟨hnd i hi, fun h => hN0 ((hmem i hi 0).1 h)⟩)
  have hls0 : ∀ k < d, LinkedSet (S0.next k) (S0.prev k) (pos k) N :=
    fun k hk => ⟨ords k, hmem k hk, pairwise_idxOf (hnd k hk), s1 k hk⟩
  obtain ⟨A, S1, f1, f2, f3, f4, _, f6, f7⟩ := filterRef_spec (ref := ref) hsort hN0 hNnd S0 hls0 d (le_refl _)
  have hNlen : N.length = n := by rw [hNdef, List.length_range']
  rw [hNlen] at f1
  refine ⟨A, S1, pos, f1, f2, fun h => hN0 ((f3 0).1 h).1, ?_, ?_, f4, ?_, ?_, ?_⟩
  · rw [← hNlen]; exact (List.subperm_of_subset f2 (fun p hp => ((f3 p).1 hp).1)).length_le
  · intro p
    rw [f3 p, hNdef, List.mem_range'_1]
    constructor
    · rintro ⟨h, h'⟩; exact ⟨by omega, h'⟩
    · rintro ⟨h, h'⟩; exact ⟨by omega, h'⟩
  · intro i hi
    rw [f6]
    have : S0.area i 0 = if (0 : ℕ) = 0 ∧ i < d then 0 else mem.area i 0 := congrFun (congrFun s4 i) 0
    rw [this, if_pos ⟨rfl, hi⟩]
  · intro i
    rw [f7]; exact congrFun s5 i
  · intro i hi p hp q hq
    exact hsort i hi p ((f3 p).1 hp).1 q ((f3 q).1 hq).1

/-- The only point of a list, at the head of a linked list. -/
theorem linkedSet_singleton {nx pv po : ℕ → ℕ} {p : ℕ} (h : LinkedSet nx pv po [p]) : nx 0 = p := by
  obtain ⟨l, h1, h2, h3⟩ := h
  have hlen := length_eq_of_mem_iff (pairwise_pos_nodup h2) (List.nodup_singleton p) h1
  obtain ⟨q, rfl⟩ := List.length_eq_one_iff.1 hlen
  have := (h1 q).1 (by simp)
  simp at this
  rw [← this]; exact h3.1

/-- On grid data `fpli_hv` for three or more objectives makes no rounding error. -/
theorem fpliHvNF_grid (hr : Nearest binary64 rnd) (hd3 : 3 ≤ d) (ords : ℕ → List ℕ) (b0 : ℝ) (mem : HvState ℝ) (hord : HvOrders x d n ords)
    (hb : ∀ p, 1 ≤ p → p ≤ n → ∀ k < d, b0 ≤ x p k)
    (hd : ∀ A : List ℕ, (∀ p, p ∈ A ↔ (1 ≤ p ∧ p ≤ n) ∧ ∀ k < d, x p k < ref k) → ∃ low, GridData x ref low e d A) :
    fpliHvNF rnd x d n ref ords b0 mem = fpliHvN x d n ref ords b0 mem ∧ OnGrid (gE e d) (fpliHvN x d n ref ords b0 mem) ∧
      0 ≤ fpliHvN x d n ref ords b0 mem ∧ fpliHvN x d n ref ords b0 mem ≤ 2 ^ 53 * (2 : ℝ) ^ gE e d := by
  obtain ⟨A, S, pos, f1, f2, f3, f4, f5, f6, f7, f8, f9⟩ := hvFiltered_spec ref ords b0 mem hord
  obtain ⟨low, hG⟩ := hd A f5
  unfold fpliHvNF fpliHvN
  rw [f1]
  dsimp only
  by_cases hA0 : A.length = 0
  · rw [if_pos hA0, if_pos hA0]
    exact ⟨rfl, OnGrid.zero _, le_refl _, mul_nonneg (by norm_num) (zpow_nonneg (by norm_num) _)⟩
  rw [if_neg hA0, if_neg hA0]
  by_cases hA1 : A.length = 1
  · rw [if_pos hA1, if_pos hA1]
    obtain ⟨p, rfl⟩ := List.length_eq_one_iff.1 hA1
    rw [linkedSet_singleton (f6 0 (by omega))]
    obtain ⟨b1, b2, b3, b4⟩ := grid_box hr hG (p := p) (by simp) d (le_refl _)
    exact ⟨b1, b2, b3, b4.trans (hG.W d (le_refl _))⟩
  · rw [if_neg hA1, if_neg hA1]
    have hlists : HvLists pos A.length (d - 3 + 2) A S :=
      { nodup := f2, ne := fun hh => hA0 (by rw [hh]; rfl), zero := f3, len := le_refl _, lists := fun i _ hi => f6 i (by omega) }
    have hrec := grid_rec hr hG f9 (d - 3) (by omega) A S hlists (fun _ h => h) ?_ ?_
    · obtain ⟨r1, r2, -⟩ := hrec
      rw [show d - 3 + 2 + 1 = d by omega] at r2
      exact ⟨by rw [r1], r2.1, r2.2.1, r2.2.2.trans (hG.W d (le_refl _))⟩
    · intro i hi
      rw [f7 i hi]
      exact ⟨OnGrid.zero _, le_refl _, hG.W0 i hi.le⟩
    · intro i h3 hi q hq hlt
      exfalso
      rw [f8] at hlt
      have := ((f5 q).1 hq).1
      exact absurd hlt (not_lt.2 (hb q this.1 this.2 i (by omega)))

/-- The grid data of the points below the reference point. -/
theorem gridData_of (A : List ℕ) (hp : ∀ p ∈ A, ∀ k < d, OnGrid (e k) (x p k)) (href : ∀ k < d, OnGrid (e k) (ref k)) (he1 : ∀ k < d, -1074 ≤ e k)
    (he2 : ∀ i ≤ d, -1074 ≤ ∑ k ∈ Finset.range i, e k) (hlow : ∀ p ∈ A, ∀ k < d, low k ≤ x p k) (hbelow : ∀ p ∈ A, ∀ k < d, x p k < ref k)
    (hV : ∏ k ∈ Finset.range d, (ref k - low k) ≤ 2 ^ 53 * (2 : ℝ) ^ (∑ k ∈ Finset.range d, e k)) : ∃ low, GridData x ref low e d A := by
  have hpos : ∀ t : ℤ, (0 : ℝ) < (2 : ℝ) ^ t := fun t => zpow_pos (by norm_num) _
  rcases List.eq_nil_or_concat A with rfl | ⟨A', p, hA'⟩
  · refine ⟨ref, ⟨fun p h => by simp at h, href, fun p h => by simp at h, fun p h => by simp at h, fun _ _ => le_refl _, he1, he2, ?_, ?_⟩⟩
    · intro i hi
      rcases Nat.eq_zero_or_pos i with rfl | hi0
      · simp [gW, gE]; norm_num
      · have : gW ref ref i = 0 := Finset.prod_eq_zero (Finset.mem_range.2 hi0) (sub_self _)
        rw [this]; exact mul_nonneg (by norm_num) (hpos _).le
    · intro k hk
      rw [sub_self]; exact mul_nonneg (by norm_num) (hpos _).le
  · have hpA : p ∈ A := by rw [hA']; simp
    have hg : ∀ k < d, (2 : ℝ) ^ e k ≤ ref k - low k := by
      intro k hk
      have h1 := hlow p hpA k hk
      have h2 := hbelow p hpA k hk
      obtain ⟨m, hm⟩ := (href k hk).sub (hp p hpA k hk)
      have hm0 : (0 : ℝ) < m := by
        by_contra hcon
        have : ref k - x p k ≤ 0 := by rw [hm]; exact mul_nonpos_of_nonpos_of_nonneg (not_lt.1 hcon) (hpos _).le
        linarith
      have hm1 : (1 : ℝ) ≤ m := by
        have : (0 : ℤ) < m := by exact_mod_cast hm0
        exact_mod_cast (by omega : (1 : ℤ) ≤ m)
      have : (2 : ℝ) ^ e k ≤ ref k - x p k := by
        rw [hm]
        have := mul_le_mul_of_nonneg_right hm1 (hpos (e k)).le
        linarith
      linarith
    have hlr : ∀ k < d, low k ≤ ref k := fun k hk => by have := hg k hk; have := hpos (e k); linarith
    have hWlo : ∀ i ≤ d, (2 : ℝ) ^ gE e i ≤ gW ref low i := by
      intro i
      induction i with
      | zero => intro _; simp [gE, gW]
      | succ i ih =>
        intro hi
        rw [gE_succ, gW_succ, zpow_add₀ (by norm_num)]
        exact mul_le_mul (ih (by omega)) (hg i (by omega)) (hpos _).le ((hpos _).le.trans (ih (by omega)))
    have hWhi : ∀ m ≤ d, gW ref low (d - m) ≤ 2 ^ 53 * (2 : ℝ) ^ gE e (d - m) := by
      intro m
      induction m with
      | zero => intro _; exact hV
      | succ m ih =>
        intro hm
        have h1 := ih (by omega)
        rw [show d - m = (d - (m + 1)) + 1 by omega, gE_succ, gW_succ, zpow_add₀ (by norm_num), ← mul_assoc] at h1
        have h2 := hg (d - (m + 1)) (by omega)
        have h3 := (hpos _).le.trans (hWlo (d - (m + 1)) (by omega))
        exact le_of_mul_le_mul_right ((mul_le_mul_of_nonneg_left h2 h3).trans h1) (hpos _)
    have hW : ∀ i ≤ d, gW ref low i ≤ 2 ^ 53 * (2 : ℝ) ^ gE e i := by
      intro i hi
      have := hWhi (d - i) (by omega)
      rwa [show d - (d - i) = i by omega] at this
    refine ⟨low, ⟨hp, href, hlow, hbelow, hlr, he1, he2, hW, ?_⟩⟩
    intro k hk
    have h1 := hW (k + 1) (by omega)
    rw [gE_succ, gW_succ, zpow_add₀ (by norm_num)] at h1
    have h2 := hWlo k (by omega)
    have h3 : (2 : ℝ) ^ gE e k * (ref k - low k) ≤ (2 : ℝ) ^ gE e k * (2 ^ 53 * (2 : ℝ) ^ e k) := by
      refine (mul_le_mul_of_nonneg_right h2 (sub_nonneg.2 (hlr k hk))).trans (h1.trans_eq ?_)
      ring
    exact le_of_mul_le_mul_left h3 (hpos _)

/-- On grid data the loop of `hv2d` makes no rounding error. -/
theorem hv2dLoopF_grid (hr : Nearest binary64 rnd) (hd : GridData x ref low e 2 N) (ps : List ℕ)
    (hN : ∀ p ∈ ps, x p 0 < ref 0 → x p 1 < ref 1 → p ∈ N) : ∀ (b : Bool) (prevJ hv : ℝ), HvCoord x ref N 1 prevJ → OnGrid (gE e 2) hv → 0 ≤ hv →
      hv ≤ (ref 0 - low 0) * (ref 1 - prevJ) → hv2dLoopF rnd x ref b ps prevJ hv = hv2dLoop x ref b ps prevJ hv ∧
        GA ref low e 2 (hv2dLoop x ref b ps prevJ hv) := by
  have hGA : ∀ prevJ hv : ℝ, HvCoord x ref N 1 prevJ → OnGrid (gE e 2) hv → 0 ≤ hv → hv ≤ (ref 0 - low 0) * (ref 1 - prevJ) → GA ref low e 2 hv := by
    intro prevJ hv hj hg h0 h1
    refine ⟨hg, h0, h1.trans ?_⟩
    obtain ⟨-, lj, -⟩ := hj.grid hd (by omega)
    rw [gW_two]
    exact mul_le_mul_of_nonneg_left (by linarith) (by linarith [hd.lowref 0 (by omega)])
  induction ps with
  | nil => intro b prevJ hv hj hg h0 h1; exact ⟨rfl, hGA prevJ hv hj hg h0 h1⟩
  | cons p ps ih =>
    intro b prevJ hv hj hg h0 h1
    have ih' := ih (fun q hq => hN q (List.mem_cons_of_mem _ hq))
    unfold hv2dLoopF hv2dLoop
    split_ifs with c1 c2 c3
    · exact ⟨rfl, hGA prevJ hv hj hg h0 h1⟩
    · exact ih' _ _ _ hj hg h0 h1
    · exact ⟨rfl, hGA prevJ hv hj hg h0 h1⟩
    · push Not at c2 c3
      obtain ⟨gj, lj, uj⟩ := hj.grid hd (by omega)
      have hp : p ∈ N := hN p (by simp) c3 (lt_of_lt_of_le c2 uj)
      obtain ⟨e1, g1⟩ := grid_area hr hd (le_refl _) (HvCoord.node (k := 0) hp) HvCoord.refk (HvCoord.node (k := 1) hp) hj c3.le c2.le
      rw [mul_comm, mul_comm (prevJ - x p 1) (ref 0 - x p 0)] at e1
      rw [mul_comm] at g1
      have hl := hd.lowle p hp 0 (by omega)
      have hpos : 0 ≤ (ref 0 - x p 0) * (prevJ - x p 1) := mul_nonneg (by linarith) (by linarith)
      have hub : hv + (ref 0 - x p 0) * (prevJ - x p 1) ≤ (ref 0 - low 0) * (ref 1 - x p 1) := by
        have := mul_le_mul_of_nonneg_right (show ref 0 - x p 0 ≤ ref 0 - low 0 by linarith) (show 0 ≤ prevJ - x p 1 by linarith)
        nlinarith
      have hrnd : rnd (hv + (ref 0 - x p 0) * (prevJ - x p 1)) = hv + (ref 0 - x p 0) * (prevJ - x p 1) := by
        refine grid_rnd_GA hr hd (le_refl 2) ⟨hg.add g1, add_nonneg h0 hpos, hub.trans ?_⟩
        rw [gW_two]
        exact mul_le_mul_of_nonneg_left (by linarith [hd.lowle p hp 1 (by omega)]) (by linarith [hd.lowref 0 (by omega)])
      rw [e1, hrnd]
      exact ih' _ _ _ (HvCoord.node hp) (hg.add g1) (add_nonneg h0 hpos) hub

/-- On grid data `fpli_hv` makes no rounding error. -/
theorem fpliHvF_grid (hr : Nearest binary64 rnd) (hd2 : 2 ≤ d) (pts : ℕ → ℕ → ℝ) (env : HvEnv ℝ) (henv : HvEnvOk pts d n env)
    (hp : ∀ i < n, ∀ k < d, OnGrid (e k) (pts i k)) (href : ∀ k < d, OnGrid (e k) (ref k)) (he1 : ∀ k < d, -1074 ≤ e k)
    (he2 : ∀ i ≤ d, -1074 ≤ ∑ k ∈ Finset.range i, e k) (hlow : ∀ i < n, (∀ k < d, pts i k < ref k) → ∀ k < d, low k ≤ pts i k)
    (hV : ∏ k ∈ Finset.range d, (ref k - low k) ≤ 2 ^ 53 * (2 : ℝ) ^ (∑ k ∈ Finset.range d, e k)) :
    fpliHvF rnd pts d n ref env = fpliHv pts d n ref env ∧ OnGrid (gE e d) (fpliHv pts d n ref env) ∧ 0 ≤ fpliHv pts d n ref env ∧
      fpliHv pts d n ref env ≤ 2 ^ 53 * (2 : ℝ) ^ gE e d := by
  unfold fpliHvF fpliHv
  by_cases hn : n = 0
  · rw [if_pos hn, if_pos hn]
    exact ⟨rfl, OnGrid.zero _, le_refl _, mul_nonneg (by norm_num) (zpow_nonneg (by norm_num) _)⟩
  rw [if_neg hn, if_neg hn]
  by_cases h2 : d = 2
  · rw [if_pos h2, if_pos h2]
    subst h2
    obtain ⟨N, hmemN⟩ : ∃ N : List ℕ, ∀ p, p ∈ N ↔ p ∈ env.ps ∧ ∀ k < 2, pts p k < ref k := by
      classical exact ⟨env.ps.filter (fun p => ∀ k < 2, pts p k < ref k), fun p => by rw [List.mem_filter]; simp⟩
    have hlt : ∀ p ∈ env.ps, p < n := fun p h => List.mem_range.1 ((henv.1 rfl).1.mem_iff.1 h)
    obtain ⟨low', hG⟩ := gridData_of (x := pts) (ref := ref) (low := low) (e := e) (d := 2) N
      (fun p h => hp p (hlt p ((hmemN p).1 h).1)) href he1 he2
      (fun p h => hlow p (hlt p ((hmemN p).1 h).1) ((hmemN p).1 h).2) (fun p h => ((hmemN p).1 h).2) hV
    have hloop := hv2dLoopF_grid hr hG env.ps ?_ false (ref 1) 0 HvCoord.refk (OnGrid.zero _) (le_refl _) (by rw [sub_self, mul_zero])
    · exact ⟨hloop.1, hloop.2.1, hloop.2.2.1, hloop.2.2.2.trans (hG.W 2 (le_refl _))⟩
    · intro p hpp h0 h1
      refine (hmemN p).2 ⟨hpp, fun k hk => ?_⟩
      have : k = 0 ∨ k = 1 := by omega
      rcases this with rfl | rfl <;> assumption
  · rw [if_neg h2, if_neg h2]
    refine fpliHvNF_grid (e := e) hr (by omega) env.ords env.b0 env.mem (henv.2.1 h2) (fun p h1 hp' k hk => henv.2.2 (p - 1) (by omega) k hk) ?_
    intro A hA
    have hA' : ∀ p ∈ A, p - 1 < n := fun p h => by have := ((hA p).1 h).1; omega
    exact gridData_of A (fun p h => hp (p - 1) (hA' p h)) href he1 he2 (fun p h => hlow (p - 1) (hA' p h) ((hA p).1 h).2)
      (fun p h => ((hA p).1 h).2) hV

/-! ### Three objectives -/

theorem ErrV.bound {A V l2 v w z : ℝ} {m j n : ℕ} (h : ErrV A V l2 m v w z j) (hm : m ≤ n) (hj : j ≤ n) (hV : A * (z - l2) = V) (hV0 : 0 ≤ V) :
    |w - v| ≤ ((1 + ulpU) ^ (11 * n) - 1) * V := by
  obtain ⟨-, -, -, h4⟩ := h
  rw [hV] at h4
  have hu := ulpU_pos
  refine h4.trans ?_
  rw [← add_mul]
  refine mul_le_mul_of_nonneg_right ?_ hV0
  have h1 : (1 : ℝ) ≤ (1 + ulpU) ^ (8 * m + j) := one_le_pow₀ (by linarith)
  have h2 : (1 : ℝ) ≤ (1 + ulpU) ^ (2 * j) := one_le_pow₀ (by linarith)
  have h3 : (1 + ulpU) ^ (8 * m + j) * (1 + ulpU) ^ (2 * j) ≤ (1 + ulpU) ^ (11 * n) := by
    rw [← pow_add]; exact pow_le_pow_right₀ (by linarith) (by omega)
  nlinarith

/-- The error of `fpli_hv` for three objectives. -/
theorem fpliHvNF_err (hr : Nearest binary64 rnd) (ords : ℕ → List ℕ) (b0 : ℝ) (mem : HvState ℝ) (hord : HvOrders x 3 n ords)
    (hp : ∀ p, 1 ≤ p → p ≤ n → ∀ k < 3, x p k ∈ binary64) (href : ∀ k < 3, ref k ∈ binary64)
    (hlow : ∀ p, 1 ≤ p → p ≤ n → (∀ k < 3, x p k < ref k) → ∀ k < 3, low k ≤ x p k) (hA : minNormal ≤ (ref 0 - low 0) * (ref 1 - low 1))
    (hV : minNormal ≤ (ref 0 - low 0) * (ref 1 - low 1) * (ref 2 - low 2)) :
    |fpliHvNF rnd x 3 n ref ords b0 mem - fpliHvN x 3 n ref ords b0 mem| ≤
      ((1 + ulpU) ^ (11 * n) - 1) * ((ref 0 - low 0) * (ref 1 - low 1) * (ref 2 - low 2)) := by
  obtain ⟨A, S, pos, f1, f2, f3, f4, f5, f6, f7, f8, f9⟩ := hvFiltered_spec ref ords b0 mem hord
  have hV0 := minNormal_pos.le.trans hV
  have hu := ulpU_pos
  have hone : (1 : ℝ) ≤ (1 + ulpU) ^ (11 * n) := one_le_pow₀ (by linarith)
  unfold fpliHvNF fpliHvN
  rw [f1]
  dsimp only
  by_cases hA0 : A.length = 0
  · rw [if_pos hA0, if_pos hA0, sub_self, abs_zero]
    exact mul_nonneg (by linarith) hV0
  rw [if_neg hA0, if_neg hA0]
  have hD : Data3 x ref low A := by
    have hb : ∀ p ∈ A, ∀ k < 3, x p k < ref k := fun p h => ((f5 p).1 h).2
    have hl : ∀ p ∈ A, ∀ k < 3, low k ≤ x p k := fun p h => hlow p ((f5 p).1 h).1.1 ((f5 p).1 h).1.2 (hb p h)
    refine ⟨fun p h => hp p ((f5 p).1 h).1.1 ((f5 p).1 h).1.2, href, hl, ?_, fun p h k hk => (hb p h k hk).le⟩
    intro k hk
    obtain ⟨p, hpA⟩ := List.exists_mem_of_length_pos (Nat.pos_of_ne_zero hA0)
    exact (hl p hpA k hk).trans (hb p hpA k hk).le
  have hs := sim3_err (V := (ref 0 - low 0) * (ref 1 - low 1) * (ref 2 - low 2)) hr hD rfl hA hV
  by_cases hA1 : A.length = 1
  · rw [if_pos hA1, if_pos hA1]
    obtain ⟨p, rfl⟩ := List.length_eq_one_iff.1 hA1
    rw [linkedSet_singleton (f6 0 (by omega))]
    have hpm : p ∈ [p] := by simp
    have hle : ∀ k < 3, x p k ≤ ref k := hD.below p hpm
    have h1 : (ref 0 - x p 0) * (ref 1 - x p 1) ≤ (ref 0 - low 0) * (ref 1 - low 1) := by
      have a0 := hD.lowle p hpm 0 (by omega)
      have a1 := hD.lowle p hpm 1 (by omega)
      have b0 := hle 0 (by omega)
      have b1 := hle 1 (by omega)
      exact mul_le_mul (by linarith) (by linarith) (by linarith) (by linarith)
    have ha := hs.first (HvCoord.node (k := 0) hpm) HvCoord.refk (HvCoord.node (k := 1) hpm) HvCoord.refk (hle 0 (by omega)) (hle 1 (by omega)) h1
    have h0 : 0 ≤ (ref 0 - x p 0) * (ref 1 - x p 1) :=
      mul_nonneg (sub_nonneg.2 (hle 0 (by omega))) (sub_nonneg.2 (hle 1 (by omega)))
    have hv := hs.vfirst ha (by simp) h0 h1 (HvCoord.node (k := 2) hpm) HvCoord.refk (hle 2 (by omega))
    have eF : boxProductF rnd x ref p 3 = rnd (rnd (rnd (ref 0 - x p 0) * rnd (ref 1 - x p 1)) * rnd (ref 2 - x p 2)) := by
      simp only [boxProductF, one_mul]
      rw [hr.fix (hr.mem (ref 0 - x p 0))]
    have eE : boxProduct x ref p 3 = (ref 0 - x p 0) * (ref 1 - x p 1) * (ref 2 - x p 2) := by
      simp only [boxProduct, one_mul]
    rw [eF, eE]
    exact ErrV.bound hv f4 (by simpa using f4) rfl hV0
  · rw [if_neg hA1, if_neg hA1]
    obtain ⟨l, hmem, hl, hlink⟩ := f6 2 (by omega)
    have hlen : l.length = A.length := length_eq_of_mem_iff (pairwise_pos_nodup hl) f2 hmem
    have hlA : ∀ p ∈ l, p ∈ A := fun p h => (hmem p).1 h
    have hsim := hv3dRefF_sim hs (pos := pos) S (l := l) (by rintro rfl; exact hA0 hlen.symm) hl (fun hz => f3 (hlA 0 hz)) hlink hlA (by omega)
      (fun p h => ((f5 p).1 (hlA p h)).2) (fun p h q h' => f9 2 (by omega) p (hlA p h) q (hlA q h'))
    rw [hlen] at hsim
    exact ErrV.bound hsim.2 f4 f4 rfl hV0

end Moo
