import Verif.Model.FloatWhv
import Verif.Lemmas.FloatErr
import Verif.Props.Whv

set_option autoImplicit false

/-!
# C107: the weighted hypervolume of rectangles in double precision
-/

namespace Moo

variable {rnd : ℝ → ℝ}

/-- The exact program and the program in floating point end in the same way, and their values are related. -/
inductive SameEnd (R : ℝ → ℝ → Prop) : Option ℝ → Option ℝ → Prop
  | fail : SameEnd R none none
  | value {a b : ℝ} : R a b → SameEnd R (some a) (some b)

theorem SameEnd.imp {R S : ℝ → ℝ → Prop} {x y : Option ℝ} (h : SameEnd R x y) (hi : ∀ a b, R a b → S a b) : SameEnd S x y := by
  cases h with
  | fail => exact .fail
  | value h => exact .value (hi _ _ h)

/-- The area added for a point and a rectangle. -/
noncomputable def whvStep (p0 p1 top : ℝ) (r : WRect ℝ) : ℝ := (r.u0 - max p0 r.l0) * (min top r.u1 - max p1 r.l1) * r.color

/-- The area added for a point and a rectangle, in floating point. -/
noncomputable def whvStepF (rnd : ℝ → ℝ) (p0 p1 top : ℝ) (r : WRect ℝ) : ℝ :=
  rnd (rnd (rnd (r.u0 - max p0 r.l0) * rnd (min top r.u1 - max p1 r.l1)) * r.color)

/-- The facts known when an area is added. -/
structure WhvCase (X Y : Set ℝ) (p0 p1 top : ℝ) (r : WRect ℝ) : Prop where
  ok : r.Ok
  hp0 : p0 ∈ X
  hl0 : r.l0 ∈ X
  hu0 : r.u0 ∈ X
  hp1 : p1 ∈ Y
  hl1 : r.l1 ∈ Y
  hu1 : r.u1 ∈ Y
  htop : top ∈ Y
  x : p0 < r.u0
  y : p1 < r.u1
  t : r.l1 < top
  pt : p1 < top

section
variable {X Y : Set ℝ} {I : ℕ → ℝ → ℝ → Prop} {C : ℝ → Prop}

/-- `I k a b` is an invariant of `k` additions. -/
def WhvInv (rnd : ℝ → ℝ) (X Y : Set ℝ) (C : ℝ → Prop) (I : ℕ → ℝ → ℝ → Prop) : Prop :=
  (∀ k a b, I k a b → I (k + 1) a b) ∧
  ∀ p0 p1 top r k a b, WhvCase X Y p0 p1 top r → C r.color → I k a b → I (k + 1) (a + whvStep p0 p1 top r) (rnd (b + whvStepF rnd p0 p1 top r))

theorem WhvInv.le (h : WhvInv rnd X Y C I) {k l : ℕ} (hkl : k ≤ l) {a b : ℝ} (hi : I k a b) : I l a b := by
  induction hkl with
  | refl => exact hi
  | step _ ih => exact h.1 _ _ _ ih

/-- The corners of the rectangle are among the given numbers and the weight is as assumed. -/
def WRect.In (X Y : Set ℝ) (C : ℝ → Prop) (r : WRect ℝ) : Prop := r.l0 ∈ X ∧ r.u0 ∈ X ∧ r.l1 ∈ Y ∧ r.u1 ∈ Y ∧ C r.color

theorem whvInnerF_same (h : WhvInv rnd X Y C I) {p0 p1 top : ℝ} (hp0 : p0 ∈ X) (hp1 : p1 ∈ Y) (ht : top ∈ Y) :
    ∀ (rs : List (WRect ℝ)) (first : Bool) (k : ℕ) (a b : ℝ), (∀ r ∈ rs, r.In X Y C) → I k a b →
      SameEnd (I (k + rs.length)) (whvInner p0 p1 top first rs a) (whvInnerF rnd p0 p1 top first rs b) := by
  intro rs
  induction rs with
  | nil => intro first k a b _ hi; exact .value hi
  | cons r rs ih =>
    intro first k a b hin hi
    have hr := hin r (List.mem_cons_self ..)
    have hin' : ∀ q ∈ rs, q.In X Y C := fun q hq => hin q (List.mem_cons_of_mem _ hq)
    have e : k + (r :: rs).length = k + 1 + rs.length := by rw [List.length_cons]; omega
    rw [e]
    unfold whvInner whvInnerF
    split_ifs with h1 h2 h3 h4
    · exact .value (h.le (by omega) hi)
    · exact .fail
    · refine ih _ _ _ _ hin' (h.2 _ _ _ _ _ _ _ ?_ hr.2.2.2.2 hi)
      push Not at h4
      exact ⟨h1, hp0, hr.1, hr.2.1, hp1, hr.2.2.1, hr.2.2.2.1, ht, h3.1, h4.1.2, h3.2, h4.2.2⟩
    · exact ih _ _ _ _ hin' (h.1 _ _ _ hi)
    · exact .fail

theorem whvGoF_same (h : WhvInv rnd X Y C I) (pts : ℕ → ℕ → ℝ) (rs : List (WRect ℝ)) (u1 lt lr : ℝ) (hin : ∀ r ∈ rs, r.In X Y C) :
    ∀ (ps : List ℕ) (again : Bool) (top : ℝ) (k : ℕ) (a b : ℝ), (∀ p ∈ ps, pts p 0 ∈ X ∧ pts p 1 ∈ Y) → top ∈ Y → I k a b →
      SameEnd (I (k + ps.length * rs.length)) (whvGo pts rs u1 lt lr again top ps a) (whvGoF rnd pts rs u1 lt lr again top ps b) := by
  intro ps
  induction ps with
  | nil => intro again top k a b _ _ hi; exact .value (h.le (by omega) hi)
  | cons p ps ih =>
    intro again top k a b hps ht hi
    have hp := hps p (List.mem_cons_self ..)
    have hps' : ∀ q ∈ ps, pts q 0 ∈ X ∧ pts q 1 ∈ Y := fun q hq => hps q (List.mem_cons_of_mem _ hq)
    have e : k + (p :: ps).length * rs.length = k + rs.length + ps.length * rs.length := by rw [List.length_cons]; ring
    rw [e]
    unfold whvGo whvGoF
    have hs := whvInnerF_same h hp.1 hp.2 ht rs true k a b hin hi
    by_cases h1 : again = true ∧ top = pts p 1 ∧ pts p 1 ≥ u1
    · rw [if_pos h1, if_pos h1]
      split_ifs with h2
      · exact .value (h.le (by omega) hi)
      · exact ih _ _ _ _ _ hps' hp.2 (h.le (by omega) hi)
    · rw [if_neg h1, if_neg h1]
      by_cases h2 : ¬ pts p 1 < u1
      · rw [if_pos h2, if_pos h2]; exact .fail
      · rw [if_neg h2, if_neg h2]
        generalize whvInner (pts p 0) (pts p 1) top true rs a = x at hs ⊢
        generalize whvInnerF rnd (pts p 0) (pts p 1) top true rs b = y at hs ⊢
        cases hs with
        | fail => exact .fail
        | value hv =>
          dsimp only
          split_ifs with h3
          · exact .value (h.le (by omega) hv)
          · exact ih _ _ _ _ _ hps' hp.2 hv

theorem whvFirstF_same (h : WhvInv rnd X Y C I) (pts : ℕ → ℕ → ℝ) (rs : List (WRect ℝ)) (u1 lt lr : ℝ) (hin : ∀ r ∈ rs, r.In X Y C) {k : ℕ} (h0 : I k 0 0) :
    ∀ (ps : List ℕ) (top : ℝ), (∀ p ∈ ps, pts p 0 ∈ X ∧ pts p 1 ∈ Y) → top ∈ Y →
      SameEnd (I (k + ps.length * rs.length)) (whvFirst pts rs u1 lt lr top ps) (whvFirstF rnd pts rs u1 lt lr top ps) := by
  intro ps
  induction ps with
  | nil => intro top _ _; exact .value (h.le (by omega) h0)
  | cons p ps ih =>
    intro top hps ht
    unfold whvFirst whvFirstF
    split_ifs with h1 h2
    · exact .value (h.le (by omega) h0)
    · refine (ih _ (fun q hq => hps q (List.mem_cons_of_mem _ hq)) (hps p (List.mem_cons_self ..)).2).imp fun a b hi => h.le ?_ hi
      rw [List.length_cons, Nat.succ_mul]; omega
    · exact whvGoF_same h pts rs u1 lt lr hin (p :: ps) false top k 0 0 hps ht h0

/-- The program in floating point keeps step with the exact one. -/
theorem rectWeightedHv2dF_same (h : WhvInv rnd X Y C I) {k : ℕ} (h0 : I k 0 0) (pts : ℕ → ℕ → ℝ) (n : ℕ) (rects : List (WRect ℝ)) (ref : ℕ → ℝ)
    (ps : List ℕ) (rs : List (WRect ℝ)) (hps : ps.Perm (List.range n)) (hrs : rs.Perm (whvPreprocess rects ref))
    (hp : ∀ i < n, pts i 0 ∈ X ∧ pts i 1 ∈ Y) (hr : ∀ r ∈ rects, r.In X Y C) (href : ref 0 ∈ X ∧ ref 1 ∈ Y) :
    SameEnd (I (k + n * rects.length)) (rectWeightedHv2d pts n rects ref ps rs) (rectWeightedHv2dF rnd pts n rects ref ps rs) := by
  have hp' : ∀ p ∈ ps, pts p 0 ∈ X ∧ pts p 1 ∈ Y := fun p hq => hp p (List.mem_range.1 (hps.mem_iff.1 hq))
  have hmin : ∀ (Z : Set ℝ) (a b : ℝ), a ∈ Z → b ∈ Z → min a b ∈ Z := by
    intro Z a b ha hb; rcases min_choice a b with e | e <;> rw [e] <;> assumption
  have hr' : ∀ r ∈ rs, r.In X Y C := by
    intro r hq
    have hq := hrs.mem_iff.1 hq
    rw [whvPreprocess_eq] at hq
    obtain ⟨q, hq', rfl⟩ := List.mem_map.1 (List.mem_filter.1 hq).1
    have := hr q hq'
    exact ⟨hmin _ _ _ this.1 href.1, hmin _ _ _ this.2.1 href.1, hmin _ _ _ this.2.2.1 href.2, hmin _ _ _ this.2.2.2.1 href.2, this.2.2.2.2⟩
  have hlen : rs.length ≤ rects.length := by
    rw [hrs.length_eq, whvPreprocess_eq]
    exact (List.length_filter_le _ _).trans (List.length_map _).le
  have hn : ps.length = n := by rw [hps.length_eq, List.length_range]
  unfold rectWeightedHv2d rectWeightedHv2dF
  split_ifs with h1 h2
  · exact .value (h.le (by omega) h0)
  · exact .value (h.le (by omega) h0)
  · cases rs with
    | nil => exact .fail
    | cons r rs' =>
      dsimp only
      split_ifs with h3
      · refine (whvFirstF_same h pts (r :: rs') _ _ _ hr' h0 ps r.u1 hp' (hr' r (List.mem_cons_self ..)).2.2.2.1).imp fun a b hi => h.le ?_ hi
        rw [hn]
        exact Nat.add_le_add_left (Nat.mul_le_mul_left _ hlen) _
      · exact .fail

theorem WhvCase.width {p0 p1 top : ℝ} {r : WRect ℝ} (h : WhvCase X Y p0 p1 top r) : max p0 r.l0 ∈ X ∧ max p0 r.l0 < r.u0 := by
  refine ⟨?_, max_lt h.x h.ok.1⟩
  rcases max_choice p0 r.l0 with e | e <;> rw [e]
  exacts [h.hp0, h.hl0]

theorem WhvCase.height {p0 p1 top : ℝ} {r : WRect ℝ} (h : WhvCase X Y p0 p1 top r) :
    min top r.u1 ∈ Y ∧ max p1 r.l1 ∈ Y ∧ max p1 r.l1 < min top r.u1 := by
  refine ⟨?_, ?_, max_lt (lt_min h.pt h.y) (lt_min h.t h.ok.2.1)⟩
  · rcases min_choice top r.u1 with e | e <;> rw [e]
    exacts [h.htop, h.hu1]
  · rcases max_choice p1 r.l1 with e | e <;> rw [e]
    exacts [h.hp1, h.hl1]

theorem WhvCase.nonneg {p0 p1 top : ℝ} {r : WRect ℝ} (h : WhvCase X Y p0 p1 top r) : 0 ≤ whvStep p0 p1 top r :=
  mul_nonneg (mul_nonneg (sub_nonneg.2 h.width.2.le) (sub_nonneg.2 h.height.2.2.le)) h.ok.2.2
end

/-- `2 ^ -340`: a product of three numbers that are not smaller is a normal number. -/
noncomputable def cbrtNormal : ℝ := (2 : ℝ) ^ (-340 : ℤ)

theorem cbrtNormal_pos : 0 < cbrtNormal := zpow_pos (by norm_num) _

theorem cbrtNormal_mem : cbrtNormal ∈ binary64 := ⟨1, -340, by norm_num, by norm_num, by unfold cbrtNormal; simp⟩

theorem cbrtNormal_sq_mem : cbrtNormal * cbrtNormal ∈ binary64 :=
  ⟨1, -680, by norm_num, by norm_num, by unfold cbrtNormal; rw [← zpow_add₀ (by norm_num : (2 : ℝ) ≠ 0)]; norm_num⟩

theorem cbrtNormal_cube : minNormal ≤ cbrtNormal * cbrtNormal * cbrtNormal := by
  unfold cbrtNormal minNormal
  rw [← zpow_add₀ (by norm_num : (2 : ℝ) ≠ 0), ← zpow_add₀ (by norm_num : (2 : ℝ) ≠ 0)]
  exact zpow_le_zpow_right₀ (by norm_num) (by norm_num)

theorem cbrtNormal_sq : minNormal ≤ cbrtNormal * cbrtNormal := by
  unfold cbrtNormal minNormal
  rw [← zpow_add₀ (by norm_num : (2 : ℝ) ≠ 0)]
  exact zpow_le_zpow_right₀ (by norm_num) (by norm_num)

/-- The rounded product of two rounded differences and a weight. -/
theorem within_weighted (hr : Nearest binary64 rnd) {a b c e w : ℝ} (ha : a ∈ binary64) (hb : b ∈ binary64) (hc : c ∈ binary64) (he : e ∈ binary64)
    (h1 : cbrtNormal ≤ a - b) (h2 : cbrtNormal ≤ c - e) (hw : w = 0 ∨ cbrtNormal ≤ w) :
    Within 4 ((a - b) * (c - e) * w) (rnd (rnd (rnd (a - b) * rnd (c - e)) * w)) := by
  have p1 : 0 ≤ a - b := cbrtNormal_pos.le.trans h1
  have p2 : 0 ≤ c - e := cbrtNormal_pos.le.trans h2
  have w1 : Within 1 (a - b) (rnd (a - b)) := (Within.refl _).round p1 (hr.rel_sub ha hb)
  have w2 : Within 1 (c - e) (rnd (c - e)) := (Within.refl _).round p2 (hr.rel_sub hc he)
  have g1 := hr.mono h1
  have g2 := hr.mono h2
  rw [hr.fix cbrtNormal_mem] at g1 g2
  have g3 : cbrtNormal * cbrtNormal ≤ rnd (a - b) * rnd (c - e) := mul_le_mul g1 g2 cbrtNormal_pos.le (cbrtNormal_pos.le.trans g1)
  have w3 : Within 3 ((a - b) * (c - e)) (rnd (rnd (a - b) * rnd (c - e))) :=
    (w1.mul w2 p1 p2).round (mul_nonneg p1 p2) (hr.rel (cbrtNormal_sq.trans (g3.trans (le_abs_self _))))
  have g4 := hr.mono g3
  rw [hr.fix cbrtNormal_sq_mem] at g4
  rcases hw with rfl | hw
  · rw [mul_zero, mul_zero, hr.fix binary64_zero]
    exact (Within.refl 0).mono le_rfl (by omega)
  · have p3 : 0 ≤ w := cbrtNormal_pos.le.trans hw
    have w4 : Within (3 + 0) ((a - b) * (c - e) * w) (rnd (rnd (a - b) * rnd (c - e)) * w) := w3.mul (Within.refl w) (mul_nonneg p1 p2) p3
    refine w4.round (mul_nonneg (mul_nonneg p1 p2) p3) (hr.rel (cbrtNormal_cube.trans (le_trans ?_ (le_abs_self _))))
    exact mul_le_mul g4 hw cbrtNormal_pos.le ((mul_nonneg cbrtNormal_pos.le cbrtNormal_pos.le).trans g4)

/-- The values of the objectives in the input of `rect_weighted_hv2d`: objective `k` of the points and of the reference point, and the sides of the rectangles. -/
def whvValues (n : ℕ) (pts : ℕ → ℕ → ℝ) (rects : List (WRect ℝ)) (ref : ℕ → ℝ) (k : ℕ) : Set ℝ :=
  {v | v = ref k ∨ (∃ i < n, v = pts i k) ∨ ∃ r ∈ rects, (k = 0 ∧ (v = r.l0 ∨ v = r.u0)) ∨ (k = 1 ∧ (v = r.l1 ∨ v = r.u1))}

theorem whvValues_in {n : ℕ} {pts : ℕ → ℕ → ℝ} {rects : List (WRect ℝ)} {ref : ℕ → ℝ} {C : ℝ → Prop} (hC : ∀ r ∈ rects, C r.color) :
    (∀ i < n, pts i 0 ∈ whvValues n pts rects ref 0 ∧ pts i 1 ∈ whvValues n pts rects ref 1) ∧
    (∀ r ∈ rects, r.In (whvValues n pts rects ref 0) (whvValues n pts rects ref 1) C) ∧
    (ref 0 ∈ whvValues n pts rects ref 0 ∧ ref 1 ∈ whvValues n pts rects ref 1) := by
  refine ⟨fun i hi => ⟨.inr (.inl ⟨i, hi, rfl⟩), .inr (.inl ⟨i, hi, rfl⟩)⟩, fun r hr => ⟨?_, ?_, ?_, ?_, hC r hr⟩, .inl rfl, .inl rfl⟩
  · exact .inr (.inr ⟨r, hr, .inl ⟨rfl, .inl rfl⟩⟩)
  · exact .inr (.inr ⟨r, hr, .inl ⟨rfl, .inr rfl⟩⟩)
  · exact .inr (.inr ⟨r, hr, .inr ⟨rfl, .inl rfl⟩⟩)
  · exact .inr (.inr ⟨r, hr, .inr ⟨rfl, .inr rfl⟩⟩)

/-- The invariant of the error bound. -/
theorem whvInv_within (hr : Nearest binary64 rnd) {X Y : Set ℝ} (hX : X ⊆ binary64) (hY : Y ⊆ binary64)
    (gX : ∀ a ∈ X, ∀ b ∈ X, b < a → (2 : ℝ) ^ (-340 : ℤ) ≤ a - b) (gY : ∀ a ∈ Y, ∀ b ∈ Y, b < a → (2 : ℝ) ^ (-340 : ℤ) ≤ a - b) :
    WhvInv rnd X Y (fun w => w = 0 ∨ (2 : ℝ) ^ (-340 : ℤ) ≤ w) (fun k a b => 4 ≤ k ∧ 0 ≤ a ∧ b ∈ binary64 ∧ Within k a b) := by
  refine ⟨fun k a b h => ⟨by omega, h.2.1, h.2.2.1, h.2.2.2.mono h.2.1 (by omega)⟩, ?_⟩
  intro p0 p1 top r k a b hc hw ⟨h4, ha, hb, hab⟩
  have w1 := within_weighted hr (hX hc.hu0) (hX hc.width.1) (hY hc.height.1) (hY hc.height.2.1) (gX _ hc.hu0 _ hc.width.1 hc.width.2)
    (gY _ hc.height.1 _ hc.height.2.1 hc.height.2.2) hw
  have hs := add_nonneg ha hc.nonneg
  refine ⟨by omega, hs, hr.mem _, ?_⟩
  exact (hab.add (w1.mono hc.nonneg h4)).round hs (hr.rel_add hb (hr.mem _))

/-- **C107 (error bound).** For `n` mutually nondominated points and `m` rectangles with positive sides and weights that are not negative, all in double precision, where
different values of an objective differ by at least `2 ^ -340` and a weight is `0` or at least `2 ^ -340`, and no point but the lowest is as high as the lowest upper side (the
condition of C34), `rect_weighted_hv2d` fails no assertion in double precision and returns the weighted area within a relative error of `(1 ± 2 ^ -53) ^ (n * m + 4)`. -/
theorem C107_whv_rect_float_error (hr : Nearest binary64 rnd) (n : ℕ) (pts : ℕ → ℕ → ℝ) (rects : List (WRect ℝ)) (ref : ℕ → ℝ) (ps : List ℕ) (rs : List (WRect ℝ))
    (hps : Qsort (cmpDataYDesc pts) (List.range n) ps) (hrs : Qsort cmpRectYDesc (whvPreprocess rects ref) rs)
    (hnd : ∀ i < n, ∀ j < n, i ≠ j → ¬ (pts i 0 ≤ pts j 0 ∧ pts i 1 ≤ pts j 1))
    (hrect : ∀ r ∈ rects, r.l0 < r.u0 ∧ r.l1 < r.u1 ∧ 0 ≤ r.color) (hstop : NoEarlyStop n pts rects ref)
    (hmem : ∀ k < 2, ∀ a ∈ whvValues n pts rects ref k, a ∈ binary64)
    (hgap : ∀ k < 2, ∀ a ∈ whvValues n pts rects ref k, ∀ b ∈ whvValues n pts rects ref k, b < a → (2 : ℝ) ^ (-340 : ℤ) ≤ a - b)
    (hcol : ∀ r ∈ rects, r.color = 0 ∨ (2 : ℝ) ^ (-340 : ℤ) ≤ r.color) :
    ∃ v, rectWeightedHv2dF rnd pts n rects ref ps rs = some v ∧
      (1 - (2 : ℝ) ^ (-53 : ℤ)) ^ (n * rects.length + 4) * (rects.map (fun r => r.color * vol (rectRegion n pts ref r))).sum ≤ v ∧
      v ≤ (1 + (2 : ℝ) ^ (-53 : ℤ)) ^ (n * rects.length + 4) * (rects.map (fun r => r.color * vol (rectRegion n pts ref r))).sum := by
  obtain ⟨i1, i2, i3⟩ := whvValues_in (n := n) (pts := pts) (ref := ref) (rects := rects) (C := fun w => w = 0 ∨ (2 : ℝ) ^ (-340 : ℤ) ≤ w) hcol
  have h := rectWeightedHv2dF_same (whvInv_within hr (hmem 0 (by omega)) (hmem 1 (by omega)) (hgap 0 (by omega)) (hgap 1 (by omega)))
    (k := 4) ⟨le_rfl, le_rfl, binary64_zero, (Within.refl 0).mono le_rfl (by omega)⟩ pts n rects ref ps rs hps.1 hrs.1 i1 i2 i3
  rw [C34_rect_weighted_hv2d_partial n pts rects ref ps rs hps hrs hnd hrect hstop] at h
  generalize rectWeightedHv2dF rnd pts n rects ref ps rs = x at h
  cases h with
  | value h =>
    have h := h.2.2.2
    rw [add_comm 4] at h
    exact ⟨_, rfl, h.lo, h.hi⟩

/-- **C107 (never less than zero, same failures).** For all inputs in double precision, without any further condition, the program in double precision fails an assertion exactly when the exact
one does, and a value it returns is a double that is not negative. -/
theorem C107_whv_rect_float_nonneg (hr : Nearest binary64 rnd) (n : ℕ) (pts : ℕ → ℕ → ℝ) (rects : List (WRect ℝ)) (ref : ℕ → ℝ) (ps : List ℕ) (rs : List (WRect ℝ))
    (hps : Qsort (cmpDataYDesc pts) (List.range n) ps) (hrs : Qsort cmpRectYDesc (whvPreprocess rects ref) rs) :
    (rectWeightedHv2dF rnd pts n rects ref ps rs = none ↔ rectWeightedHv2d pts n rects ref ps rs = none) ∧
    ∀ v, rectWeightedHv2dF rnd pts n rects ref ps rs = some v → v ∈ binary64 ∧ 0 ≤ v := by
  obtain ⟨i1, i2, i3⟩ := whvValues_in (n := n) (pts := pts) (ref := ref) (rects := rects) (C := fun _ => True) (fun _ _ => trivial)
  have hinv : WhvInv rnd (whvValues n pts rects ref 0) (whvValues n pts rects ref 1) (fun _ => True) (fun _ _ b => b ∈ binary64 ∧ 0 ≤ b) := by
    refine ⟨fun k a b h => h, ?_⟩
    intro p0 p1 top r k a b hc _ ⟨_, hb⟩
    have z := binary64_zero
    refine ⟨hr.mem _, hr.nonneg z (add_nonneg hb (hr.nonneg z (mul_nonneg (hr.nonneg z (mul_nonneg (hr.nonneg z ?_) (hr.nonneg z ?_))) hc.ok.2.2)))⟩
    · exact sub_nonneg.2 hc.width.2.le
    · exact sub_nonneg.2 hc.height.2.2.le
  have h := rectWeightedHv2dF_same hinv (k := 0) ⟨binary64_zero, le_rfl⟩ pts n rects ref ps rs hps.1 hrs.1 i1 i2 i3
  generalize rectWeightedHv2dF rnd pts n rects ref ps rs = x at h
  generalize rectWeightedHv2d pts n rects ref ps rs = y at h
  cases h with
  | fail => simp
  | value h => simpa using h

/-- **C107 (exact on integers).** If all coordinates are integers, at most `2 ^ 25` in absolute value, and the weights are integers, then the value in double precision is exactly the
weighted area, as long as this is at most `2 ^ 53`. -/
theorem C107_whv_rect_float_exact (hr : Nearest binary64 rnd) (n : ℕ) (pts : ℕ → ℕ → ℝ) (rects : List (WRect ℝ)) (ref : ℕ → ℝ) (ps : List ℕ) (rs : List (WRect ℝ))
    (hps : Qsort (cmpDataYDesc pts) (List.range n) ps) (hrs : Qsort cmpRectYDesc (whvPreprocess rects ref) rs)
    (hnd : ∀ i < n, ∀ j < n, i ≠ j → ¬ (pts i 0 ≤ pts j 0 ∧ pts i 1 ≤ pts j 1))
    (hrect : ∀ r ∈ rects, r.l0 < r.u0 ∧ r.l1 < r.u1 ∧ 0 ≤ r.color) (hstop : NoEarlyStop n pts rects ref)
    (hint : ∀ k < 2, ∀ a ∈ whvValues n pts rects ref k, ∃ z : ℤ, a = z ∧ |z| ≤ 2 ^ 25) (hcol : ∀ r ∈ rects, ∃ z : ℤ, r.color = z)
    (hsum : (rects.map (fun r => r.color * vol (rectRegion n pts ref r))).sum ≤ 2 ^ 53) :
    rectWeightedHv2dF rnd pts n rects ref ps rs = some ((rects.map (fun r => r.color * vol (rectRegion n pts ref r))).sum) := by
  obtain ⟨i1, i2, i3⟩ := whvValues_in (n := n) (pts := pts) (ref := ref) (rects := rects) (C := fun w => ∃ z : ℤ, w = z) hcol
  have hinv : WhvInv rnd (whvValues n pts rects ref 0) (whvValues n pts rects ref 1) (fun w => ∃ z : ℤ, w = z)
      (fun _ a b => 0 ≤ a ∧ (∃ z : ℤ, a = z) ∧ (a ≤ 2 ^ 53 → b = a)) := by
    refine ⟨fun k a b h => h, ?_⟩
    rintro p0 p1 top r k a b hc ⟨w, hw⟩ ⟨ha, ⟨z, hz⟩, hb⟩
    have hs := hc.nonneg
    have hw0 := hc.ok.2.2
    obtain ⟨c1, e1, b1⟩ := hint 0 (by omega) _ hc.hu0
    obtain ⟨c2, e2, b2⟩ := hint 0 (by omega) _ hc.width.1
    obtain ⟨c3, e3, b3⟩ := hint 1 (by omega) _ hc.height.1
    obtain ⟨c4, e4, b4⟩ := hint 1 (by omega) _ hc.height.2.1
    have l1 := hc.width.2
    have l2 := hc.height.2.2
    unfold whvStep at hs ⊢
    unfold whvStepF
    rw [e1, e2, e3, e4, hw] at hs ⊢
    rw [e1, e2] at l1
    rw [e3, e4] at l2
    rw [hw] at hw0
    have l1' : c2 < c1 := by exact_mod_cast l1
    have l2' : c4 < c3 := by exact_mod_cast l2
    have hw0' : 0 ≤ w := by exact_mod_cast hw0
    rw [abs_le] at b1 b2 b3 b4
    have fixi : ∀ t : ℤ, 0 ≤ t → t ≤ 2 ^ 53 → rnd (t : ℝ) = t := fun t h0 h1 => hr.fix (binary64_int (by rw [abs_of_nonneg h0]; exact h1))
    refine ⟨add_nonneg ha hs, ⟨z + (c1 - c2) * (c3 - c4) * w, by rw [hz]; push_cast; ring⟩, fun hle => ?_⟩
    have hb' := hb (by linarith)
    rw [hb', hz]
    have ha' : 0 ≤ z := by rw [hz] at ha; exact_mod_cast ha
    have hs' : 0 ≤ (c1 - c2) * (c3 - c4) * w := by exact_mod_cast hs
    have hle' : z + (c1 - c2) * (c3 - c4) * w ≤ 2 ^ 53 := by rw [hz] at hle; exact_mod_cast hle
    have f1 : rnd ((c1 : ℝ) - c2) = ((c1 - c2 : ℤ) : ℝ) := by rw [← Int.cast_sub]; exact fixi _ (by omega) (by omega)
    have f2 : rnd ((c3 : ℝ) - c4) = ((c3 - c4 : ℤ) : ℝ) := by rw [← Int.cast_sub]; exact fixi _ (by omega) (by omega)
    have hp : (c1 - c2) * (c3 - c4) ≤ 2 ^ 26 * 2 ^ 26 := mul_le_mul (by omega) (by omega) (by omega) (by norm_num)
    rw [f1, f2, ← Int.cast_mul, fixi _ (mul_nonneg (by omega) (by omega)) (hp.trans (by norm_num)), ← Int.cast_mul, fixi _ hs' (by omega), ← Int.cast_add,
      fixi _ (by omega) hle']
    push_cast
    ring
  have h := rectWeightedHv2dF_same hinv (k := 0) ⟨le_rfl, ⟨0, by simp⟩, fun _ => rfl⟩ pts n rects ref ps rs hps.1 hrs.1 i1 i2 i3
  rw [C34_rect_weighted_hv2d_partial n pts rects ref ps rs hps hrs hnd hrect hstop] at h
  generalize rectWeightedHv2dF rnd pts n rects ref ps rs = x at h
  cases h with
  | value h => rw [h.2.2 hsum]

/-! ### The hypotheses are satisfiable -/

theorem squareRect_values {k : ℕ} (hk : k < 2) {v : ℝ} (h : v ∈ whvValues 2 (twoPts 0 1 1 0) [squareRect] (fun _ => 5) k) :
    ∃ z : ℤ, v = z ∧ |z| ≤ 2 ^ 25 := by
  rcases h with h | ⟨i, hi, h⟩ | ⟨r, hr, h⟩
  · exact ⟨5, by rw [h]; norm_num, by norm_num⟩
  · have : v = 0 ∨ v = 1 := by
      rcases (by omega : i = 0 ∨ i = 1) with rfl | rfl <;> rcases (by omega : k = 0 ∨ k = 1) with rfl | rfl <;> simp [twoPts] at h <;> simp [h]
    rcases this with h | h
    exacts [⟨0, by rw [h]; norm_num, by norm_num⟩, ⟨1, by rw [h]; norm_num, by norm_num⟩]
  · simp only [List.mem_singleton] at hr
    subst hr
    simp only [squareRect] at h
    have h : v = 0 ∨ v = 2 := by tauto
    rcases h with h | h
    exacts [⟨0, by rw [h]; norm_num, by norm_num⟩, ⟨2, by rw [h]; norm_num, by norm_num⟩]

theorem square_sorted : Qsort (cmpDataYDesc (twoPts 0 1 1 0)) (List.range 2) [0, 1] ∧ Qsort cmpRectYDesc (whvPreprocess [squareRect] (fun _ => 5)) [squareRect] := by
  refine ⟨⟨by decide, ?_⟩, ?_⟩
  · simp [cmpDataYDesc, twoPts]
  · rw [pre_square]; exact ⟨List.Perm.refl _, by simp⟩

theorem square_front : ∀ i < 2, ∀ j < 2, i ≠ j → ¬ (twoPts 0 1 1 0 i 0 ≤ twoPts 0 1 1 0 j 0 ∧ twoPts 0 1 1 0 i 1 ≤ twoPts 0 1 1 0 j 1) := by
  intro i hi j hj hne
  rcases (by omega : i = 0 ∧ j = 1 ∨ i = 1 ∧ j = 0) with ⟨rfl, rfl⟩ | ⟨rfl, rfl⟩ <;> simp [twoPts]

theorem square_noStop : NoEarlyStop 2 (twoPts 0 1 1 0) [squareRect] (fun _ => 5) := by
  rintro i hi ⟨r, hr, _, h, _⟩
  simp only [List.mem_singleton] at hr
  subst hr
  rcases (by omega : i = 0 ∨ i = 1) with rfl | rfl <;> norm_num [twoPts, squareRect] at h

theorem square_ok : ∀ r ∈ [squareRect], r.l0 < r.u0 ∧ r.l1 < r.u1 ∧ 0 ≤ r.color := by simp [squareRect]

theorem square_area : ([squareRect].map (fun r => r.color * vol (rectRegion 2 (twoPts 0 1 1 0) (fun _ => 5) r))).sum = 3 := by
  have h := C34_rect_weighted_hv2d_partial 2 _ _ _ _ _ square_sorted.1 square_sorted.2 square_front square_ok square_noStop
  have h2 : rectWeightedHv2d (twoPts 0 1 1 0) 2 [squareRect] (fun _ => 5) [0, 1] [squareRect] = some 3 := by
    unfold rectWeightedHv2d
    rw [pre_square]
    norm_num [whvFirst, whvGo, whvInner, WRect.Ok, squareRect, twoPts]
  rw [h2] at h
  exact (Option.some.inj h).symm

example (hr : Nearest binary64 rnd) : rectWeightedHv2dF rnd (twoPts 0 1 1 0) 2 [squareRect] (fun _ => 5) [0, 1] [squareRect] = some 3 := by
  rw [← square_area]
  refine C107_whv_rect_float_exact hr 2 _ _ _ _ _ square_sorted.1 square_sorted.2 square_front square_ok square_noStop (fun k hk a ha => squareRect_values hk ha) ?_ ?_
  · intro r hq
    simp only [List.mem_singleton] at hq
    subst hq
    exact ⟨1, by simp [squareRect]⟩
  · rw [square_area]; norm_num

example (hr : Nearest binary64 rnd) : ∃ v, rectWeightedHv2dF rnd (twoPts 0 1 1 0) 2 [squareRect] (fun _ => 5) [0, 1] [squareRect] = some v ∧
    (1 - (2 : ℝ) ^ (-53 : ℤ)) ^ (2 * 1 + 4) * 3 ≤ v ∧ v ≤ (1 + (2 : ℝ) ^ (-53 : ℤ)) ^ (2 * 1 + 4) * 3 := by
  have hp : (2 : ℝ) ^ (-340 : ℤ) ≤ 1 := zpow_le_one_of_nonpos₀ (by norm_num) (by norm_num)
  have := C107_whv_rect_float_error hr 2 _ _ _ _ _ square_sorted.1 square_sorted.2 square_front square_ok square_noStop ?_ ?_ ?_
  · rwa [square_area] at this
  · intro k hk a ha
    obtain ⟨z, rfl, hz⟩ := squareRect_values hk ha
    exact binary64_int (hz.trans (by norm_num))
  · intro k hk a ha b hb hlt
    obtain ⟨z, rfl, -⟩ := squareRect_values hk ha
    obtain ⟨w, rfl, -⟩ := squareRect_values hk hb
    have : w + 1 ≤ z := by exact_mod_cast hlt
    have : (w : ℝ) + 1 ≤ z := by exact_mod_cast this
    linarith
  · intro r hq
    simp only [List.mem_singleton] at hq
    subst hq
    exact .inr (by simpa [squareRect] using hp)

end Moo
