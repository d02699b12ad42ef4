import Verif.Props.IndWrappers
import Verif.Props.HvLaws
import Mathlib.Analysis.SpecialFunctions.Log.Basic

/-!
# C84: laws of the epsilon indicators and of the distance indicators
-/

set_option autoImplicit false
set_option linter.unusedSectionVars false

namespace Moo

/-- The functions of both packages return this value of the indicator. -/
def BothInd (f : QualityIndicator) (nobj : ℕ) (A : ℕ → ℕ → ℝ) (nA : ℕ) (R : ℕ → ℕ → ℝ) (nR : ℕ) (maximise : List Bool) (v : ℝ) : Prop :=
  pyIndicator f (.mat nA nobj A) (.mat nR nobj R) maximise = .value (fin v) ∧ rIndicator f (.mat nA nobj A) (.mat nR nobj R) maximise = .value (fin v)

section

variable {nobj nA nB nC nR : ℕ} {A B C R : ℕ → ℕ → ℝ} {maximise : List Bool} {mx : ℕ → Bool}

theorem BothInd.isIndicator {f : QualityIndicator} {v : ℝ} (h : BothInd f nobj A nA R nR maximise v) (hd : 2 ≤ nobj) (hA : 1 ≤ nA) (hR : 1 ≤ nR)
    (hm : PerObjective nobj maximise mx) (hdef : IndicatorDefined nobj A nA R nR f) (hp : ExponentFits f) : IsIndicator nobj mx A nA R nR f v := by
  obtain ⟨w, e, hw⟩ := C73_py_indicator_partial f A R nobj nA nR (.mat nR nobj R) maximise mx (by omega) hA hR (Or.inl rfl) hm hdef hp
  have hv : v = w := by
    have := h.1.symm.trans e
    simpa [fin] using this
  rw [hv]; exact hw

theorem exists_bothInd (f : QualityIndicator) (hd : 2 ≤ nobj) (hA : 1 ≤ nA) (hR : 1 ≤ nR)
    (hm : PerObjective nobj maximise mx) (hdef : IndicatorDefined nobj A nA R nR f) (hp : ExponentFits f) : ∃ v, BothInd f nobj A nA R nR maximise v := by
  obtain ⟨v, h1, h2⟩ := C73_py_r_agree f A R nobj nA nR maximise hd hA hR hm.1 hdef hp
  exact ⟨v, h1, h2⟩

/-! ### Additive epsilon indicator -/

theorem weakDom_add_trans {a b c : ℕ → ℝ} {e f : ℝ} (h1 : WeakDom nobj mx (improveAdd mx e a) b) (h2 : WeakDom nobj mx (improveAdd mx f b) c) :
    WeakDom nobj mx (improveAdd mx (e + f) a) c := by
  intro d hd
  have a1 := h1 d hd
  have a2 := h2 d hd
  unfold AtLeastAsGood improveAdd at *
  cases h : mx d <;> simp_all <;> linarith

/-- **C84.** The additive epsilon indicator satisfies the triangle inequality. -/
theorem C84_add_triangle (hd : 2 ≤ nobj) (hA : 1 ≤ nA) (hB : 1 ≤ nB) (hC : 1 ≤ nC) (hm : PerObjective nobj maximise mx) (ac ab bc : ℝ)
    (h1 : BothInd .epsilonAdditive nobj A nA C nC maximise ac) (h2 : BothInd .epsilonAdditive nobj A nA B nB maximise ab)
    (h3 : BothInd .epsilonAdditive nobj B nB C nC maximise bc) : ac ≤ ab + bc := by
  have g1 := h1.isIndicator hd hA hC hm trivial trivial
  have g2 := h2.isIndicator hd hA hB hm trivial trivial
  have g3 := h3.isIndicator hd hB hC hm trivial trivial
  refine g1.2 ?_
  intro c hc
  obtain ⟨b, hb, hbc⟩ := g3.1 c hc
  obtain ⟨a, ha, hab⟩ := g2.1 b hb
  exact ⟨a, ha, weakDom_add_trans hab hbc⟩

theorem SetWeakDom.of_append_right (h1 : SetWeakDom nobj mx A nA B nB) (h2 : SetWeakDom nobj mx A nA C nC) : SetWeakDom nobj mx A nA (appendRows nB B C) (nB + nC) := by
  intro b hb
  unfold appendRows
  by_cases h : b < nB
  · simp only [if_pos h]; exact h1 b h
  · simp only [if_neg h]; exact h2 (b - nB) (by omega)

theorem SetWeakDom.append_right (h : SetWeakDom nobj mx A nA (appendRows nB B C) (nB + nC)) : SetWeakDom nobj mx A nA B nB ∧ SetWeakDom nobj mx A nA C nC := by
  constructor
  · intro b hb
    have := h b (by omega)
    simpa only [appendRows, if_pos hb] using this
  · intro c hc
    have := h (nB + c) (by omega)
    simpa only [appendRows, if_neg (show ¬ nB + c < nB by omega), Nat.add_sub_cancel_left] using this

theorem WeakDom.improveAdd_mono {a b : ℕ → ℝ} {e f : ℝ} (hef : e ≤ f) (h : WeakDom nobj mx (improveAdd mx e a) b) : WeakDom nobj mx (improveAdd mx f a) b := by
  intro d hd
  have := h d hd
  unfold AtLeastAsGood improveAdd at *
  cases h : mx d <;> simp_all <;> linarith

/-- **C84.** The additive epsilon indicator with respect to two reference sets together is the larger one of the two values. -/
theorem C84_add_union (hd : 2 ≤ nobj) (hA : 1 ≤ nA) (hB : 1 ≤ nB) (hC : 1 ≤ nC) (hm : PerObjective nobj maximise mx) (u b c : ℝ)
    (h1 : BothInd .epsilonAdditive nobj A nA (appendRows nB B C) (nB + nC) maximise u) (h2 : BothInd .epsilonAdditive nobj A nA B nB maximise b)
    (h3 : BothInd .epsilonAdditive nobj A nA C nC maximise c) : u = max b c := by
  have g1 := h1.isIndicator hd hA (by omega) hm trivial trivial
  have g2 := h2.isIndicator hd hA hB hm trivial trivial
  have g3 := h3.isIndicator hd hA hC hm trivial trivial
  apply le_antisymm
  · refine g1.2 (SetWeakDom.of_append_right (fun r hr => ?_) (fun r hr => ?_))
    · obtain ⟨a, ha, h⟩ := g2.1 r hr
      exact ⟨a, ha, h.improveAdd_mono (le_max_left _ _)⟩
    · obtain ⟨a, ha, h⟩ := g3.1 r hr
      exact ⟨a, ha, h.improveAdd_mono (le_max_right _ _)⟩
  · obtain ⟨k1, k2⟩ := SetWeakDom.append_right g1.1
    exact max_le (g2.2 k1) (g3.2 k2)

/-- **C84.** Adding points to a set does not increase its additive epsilon indicator. -/
theorem C84_add_more_points (hd : 2 ≤ nobj) (hA : 1 ≤ nA) (hB : 1 ≤ nB) (hR : 1 ≤ nR) (hm : PerObjective nobj maximise mx) (u a b : ℝ)
    (h1 : BothInd .epsilonAdditive nobj (appendRows nA A B) (nA + nB) R nR maximise u) (h2 : BothInd .epsilonAdditive nobj A nA R nR maximise a)
    (h3 : BothInd .epsilonAdditive nobj B nB R nR maximise b) : u ≤ min a b := by
  have g1 := h1.isIndicator hd (by omega) hR hm trivial trivial
  have g2 := h2.isIndicator hd hA hR hm trivial trivial
  have g3 := h3.isIndicator hd hB hR hm trivial trivial
  refine le_min (g1.2 (fun r hr => ?_)) (g1.2 (fun r hr => ?_))
  · obtain ⟨i, hi, h⟩ := g2.1 r hr
    exact ⟨i, by omega, by simpa only [appendRows, if_pos hi] using h⟩
  · obtain ⟨i, hi, h⟩ := g3.1 r hr
    exact ⟨nA + i, by omega, by simpa only [appendRows, if_neg (show ¬ nA + i < nA by omega), Nat.add_sub_cancel_left] using h⟩

/-- A row that is not strictly dominated in all objectives at once by any row. -/
theorem exists_not_strictly_dominated (hd : 1 ≤ nobj) (mx : ℕ → Bool) (A : ℕ → ℕ → ℝ) : ∀ n, 1 ≤ n → ∃ r < n, ∀ a < n, ∃ d < nobj, AtLeastAsGood (mx d) (A r d) (A a d)
  | 0, h => by omega
  | n + 1, _ => by
    -- the row with the best first objective
    have : ∃ r < n + 1, ∀ a < n + 1, AtLeastAsGood (mx 0) (A r 0) (A a 0) := by
      have key := Finset.exists_min_image (Finset.range (n + 1)) (fun r => if mx 0 then -A r 0 else A r 0) ⟨0, by simp⟩
      obtain ⟨r, hr, hmin⟩ := key
      refine ⟨r, Finset.mem_range.1 hr, fun a ha => ?_⟩
      have := hmin a (Finset.mem_range.2 ha)
      unfold AtLeastAsGood
      cases h : mx 0 <;> simp_all
    obtain ⟨r, hr, h⟩ := this
    exact ⟨r, hr, fun a ha => ⟨0, hd, h a ha⟩⟩

/-- **C84.** The additive epsilon indicator of a set with respect to itself is zero. -/
theorem C84_add_self (hd : 2 ≤ nobj) (hA : 1 ≤ nA) (hm : PerObjective nobj maximise mx) (v : ℝ) (h : BothInd .epsilonAdditive nobj A nA A nA maximise v) : v = 0 := by
  have g := h.isIndicator hd hA hA hm trivial trivial
  apply le_antisymm
  · refine g.2 (fun r hr => ⟨r, hr, fun d _ => ?_⟩)
    unfold AtLeastAsGood improveAdd
    cases mx d <;> simp
  · obtain ⟨r, hr, hbest⟩ := exists_not_strictly_dominated (nobj := nobj) (by omega) mx A nA hA
    obtain ⟨a, ha, hdom⟩ := g.1 r hr
    obtain ⟨d, hdn, hb⟩ := hbest a ha
    have := hdom d hdn
    unfold AtLeastAsGood improveAdd at *
    cases hmx : mx d <;> simp_all <;> linarith

/-! ### Multiplicative epsilon indicator -/

/-- **C84.** The multiplicative epsilon indicator is the additive one of the logarithms: its logarithm is the additive epsilon indicator of the sets of logarithms. -/
theorem C84_mult_log (hd : 2 ≤ nobj) (hA : 1 ≤ nA) (hR : 1 ≤ nR) (hm : PerObjective nobj maximise mx)
    (hApos : ∀ a < nA, ∀ d < nobj, 0 < A a d) (hRpos : ∀ r < nR, ∀ d < nobj, 0 < R r d) (v w : ℝ)
    (h1 : BothInd .epsilonMult nobj A nA R nR maximise v)
    (h2 : BothInd .epsilonAdditive nobj (fun i k => Real.log (A i k)) nA (fun i k => Real.log (R i k)) nR maximise w) : v = Real.exp w := by
  have g1 := h1.isIndicator hd hA hR hm ⟨hApos, hRpos⟩ trivial
  have g2 := h2.isIndicator hd hA hR hm trivial trivial
  have key : ∀ e : ℝ, SetWeakDom nobj mx (fun i => improveMult mx (Real.exp e) (A i)) nA R nR ↔
      SetWeakDom nobj mx (fun i => improveAdd mx e (fun k => Real.log (A i k))) nA (fun i k => Real.log (R i k)) nR := by
    intro e
    refine forall_congr' (fun r => forall_congr' (fun hr => exists_congr (fun a => and_congr_right (fun ha => forall_congr' (fun d => forall_congr' (fun hdn => ?_))))))
    have pa := hApos a ha d hdn
    have pr := hRpos r hr d hdn
    have pe := Real.exp_pos e
    unfold AtLeastAsGood improveMult improveAdd
    cases hmx : mx d
    · simp only [hmx, Bool.false_eq_true, if_false]
      rw [← Real.log_le_log_iff (by positivity) pr, Real.log_div pa.ne' pe.ne', Real.log_exp]
    · simp only [hmx, if_true]
      rw [← Real.log_le_log_iff pr (by positivity), Real.log_mul pa.ne' pe.ne', Real.log_exp]
  obtain ⟨⟨hv0, hv1⟩, hv2⟩ := g1
  apply le_antisymm
  · exact hv2 ⟨Real.exp_pos w, (key w).2 g2.1⟩
  · have : w ≤ Real.log v := by
      refine g2.2 ?_
      refine (key (Real.log v)).1 ?_
      rw [Real.exp_log hv0]; exact hv1
    calc Real.exp w ≤ Real.exp (Real.log v) := Real.exp_le_exp.2 this
      _ = v := Real.exp_log hv0

/-- **C84.** The multiplicative epsilon indicator satisfies the triangle inequality with products. -/
theorem C84_mult_triangle (hd : 2 ≤ nobj) (hA : 1 ≤ nA) (hB : 1 ≤ nB) (hC : 1 ≤ nC) (hm : PerObjective nobj maximise mx)
    (pA : ∀ a < nA, ∀ d < nobj, 0 < A a d) (pB : ∀ a < nB, ∀ d < nobj, 0 < B a d) (pC : ∀ a < nC, ∀ d < nobj, 0 < C a d) (ac ab bc : ℝ)
    (h1 : BothInd .epsilonMult nobj A nA C nC maximise ac) (h2 : BothInd .epsilonMult nobj A nA B nB maximise ab)
    (h3 : BothInd .epsilonMult nobj B nB C nC maximise bc) : ac ≤ ab * bc := by
  obtain ⟨x, hx⟩ := exists_bothInd (A := fun i k => Real.log (A i k)) (R := fun i k => Real.log (C i k)) .epsilonAdditive hd hA hC hm trivial trivial
  obtain ⟨y, hy⟩ := exists_bothInd (A := fun i k => Real.log (A i k)) (R := fun i k => Real.log (B i k)) .epsilonAdditive hd hA hB hm trivial trivial
  obtain ⟨z, hz⟩ := exists_bothInd (A := fun i k => Real.log (B i k)) (R := fun i k => Real.log (C i k)) .epsilonAdditive hd hB hC hm trivial trivial
  rw [C84_mult_log hd hA hC hm pA pC ac x h1 hx, C84_mult_log hd hA hB hm pA pB ab y h2 hy, C84_mult_log hd hB hC hm pB pC bc z h3 hz, ← Real.exp_add]
  exact Real.exp_le_exp.2 (C84_add_triangle hd hA hB hC hm x y z hx hy hz)

/-- **C84.** The multiplicative epsilon indicator of a set of positive vectors with respect to itself is one. -/
theorem C84_mult_self (hd : 2 ≤ nobj) (hA : 1 ≤ nA) (hm : PerObjective nobj maximise mx) (pA : ∀ a < nA, ∀ d < nobj, 0 < A a d) (v : ℝ)
    (h : BothInd .epsilonMult nobj A nA A nA maximise v) : v = 1 := by
  obtain ⟨x, hx⟩ := exists_bothInd (A := fun i k => Real.log (A i k)) (R := fun i k => Real.log (A i k)) .epsilonAdditive hd hA hA hm trivial trivial
  rw [C84_mult_log hd hA hA hm pA pA v x h hx, C84_add_self hd hA hm x hx, Real.exp_zero]

/-! ### Distance indicators -/

theorem lack_sq_le (m : Bool) (a r : ℝ) : lack m a r ^ 2 ≤ (r - a) ^ 2 := by
  have h : lack m a r ≤ |r - a| := by
    unfold lack
    split_ifs
    · exact max_le (le_abs_self _) (abs_nonneg _)
    · exact max_le (by rw [abs_sub_comm]; exact le_abs_self _) (abs_nonneg _)
  calc lack m a r ^ 2 ≤ |r - a| ^ 2 := by
        have := lack_nonneg m a r
        gcongr
    _ = (r - a) ^ 2 := sq_abs _

theorem avgNearest_one {dist : (ℕ → ℝ) → (ℕ → ℝ) → ℝ} {v : ℝ} (h : IsAvgNearest dist 1 R nR A nA v) :
    ∃ m : ℕ → ℝ, (∀ a < nR, IsNearest (dist (R a)) A nA (m a)) ∧ v = (∑ a ∈ Finset.range nR, m a) / nR := by
  obtain ⟨m, h1, h2⟩ := h
  exact ⟨m, h1, by simpa using h2⟩

/-- **C84.** IGD+ is at most IGD. -/
theorem C84_igd_plus_le_igd (hd : 2 ≤ nobj) (hA : 1 ≤ nA) (hR : 1 ≤ nR) (hm : PerObjective nobj maximise mx) (v w : ℝ)
    (h1 : BothInd .igdPlus nobj A nA R nR maximise v) (h2 : BothInd .igd nobj A nA R nR maximise w) : 0 ≤ v ∧ v ≤ w := by
  obtain ⟨m, hm1, hm2⟩ := avgNearest_one (dist := (fun r a => distPlus nobj mx a r)) (show IsAvgNearest (fun r a => distPlus nobj mx a r) 1 R nR A nA v from h1.isIndicator hd hA hR hm trivial trivial)
  obtain ⟨m', hm1', hm2'⟩ := avgNearest_one (h2.isIndicator hd hA hR hm trivial trivial)
  have hn : (0 : ℝ) < nR := by exact_mod_cast hR
  rw [hm2, hm2']
  constructor
  · refine div_nonneg (Finset.sum_nonneg (fun r hr => ?_)) hn.le
    obtain ⟨⟨a, _, e⟩, _⟩ := hm1 r (Finset.mem_range.1 hr)
    rw [e]; exact Real.sqrt_nonneg _
  · refine (div_le_div_iff_of_pos_right hn).2 (Finset.sum_le_sum (fun r hr => ?_))
    obtain ⟨⟨a, ha, e⟩, _⟩ := hm1' r (Finset.mem_range.1 hr)
    refine le_trans ((hm1 r (Finset.mem_range.1 hr)).2 a ha) ?_
    rw [e]
    refine Real.sqrt_le_sqrt (Finset.sum_le_sum (fun d _ => lack_sq_le _ _ _))

/-- **C84.** IGD+ is at most the positive part of the additive epsilon indicator, times the square root of the number of objectives. -/
theorem C84_igd_plus_le_epsilon (hd : 2 ≤ nobj) (hA : 1 ≤ nA) (hR : 1 ≤ nR) (hm : PerObjective nobj maximise mx) (v e : ℝ)
    (h1 : BothInd .igdPlus nobj A nA R nR maximise v) (h2 : BothInd .epsilonAdditive nobj A nA R nR maximise e) : v ≤ Real.sqrt nobj * max e 0 := by
  obtain ⟨m, hm1, hm2⟩ := avgNearest_one (dist := (fun r a => distPlus nobj mx a r)) (show IsAvgNearest (fun r a => distPlus nobj mx a r) 1 R nR A nA v from h1.isIndicator hd hA hR hm trivial trivial)
  have g := h2.isIndicator hd hA hR hm trivial trivial
  have hn : (0 : ℝ) < nR := by exact_mod_cast hR
  rw [hm2, div_le_iff₀ hn]
  have hsum : ∑ r ∈ Finset.range nR, m r ≤ ∑ _r ∈ Finset.range nR, Real.sqrt nobj * max e 0 := by
    refine Finset.sum_le_sum (fun r hr => ?_)
    obtain ⟨a, ha, hdom⟩ := g.1 r (Finset.mem_range.1 hr)
    refine le_trans ((hm1 r (Finset.mem_range.1 hr)).2 a ha) ?_
    have h0 : 0 ≤ max e 0 := le_max_right _ _
    have : ∑ d ∈ Finset.range nobj, (lack (mx d) (A a d) (R r d)) ^ 2 ≤ nobj * (max e 0) ^ 2 := by
      calc ∑ d ∈ Finset.range nobj, (lack (mx d) (A a d) (R r d)) ^ 2 ≤ ∑ _d ∈ Finset.range nobj, (max e 0) ^ 2 := by
            refine Finset.sum_le_sum (fun d hdn => ?_)
            have hl : lack (mx d) (A a d) (R r d) ≤ max e 0 := by
              have := hdom d (Finset.mem_range.1 hdn)
              unfold AtLeastAsGood improveAdd at this
              unfold lack
              cases hmx : mx d
              · simp only [hmx, Bool.false_eq_true, if_false] at this ⊢
                exact max_le_max (by linarith) le_rfl
              · simp only [hmx, if_true] at this ⊢
                exact max_le_max (by linarith) le_rfl
            have := lack_nonneg (mx d) (A a d) (R r d)
            gcongr
        _ = nobj * (max e 0) ^ 2 := by simp
    calc distPlus nobj mx (A a) (R r) ≤ Real.sqrt (nobj * (max e 0) ^ 2) := Real.sqrt_le_sqrt this
      _ = Real.sqrt nobj * max e 0 := by rw [Real.sqrt_mul (Nat.cast_nonneg _), Real.sqrt_sq h0]
  rw [Finset.sum_const, Finset.card_range, nsmul_eq_mul] at hsum
  linarith

/-- **C84.** IGD is at most the averaged Hausdorff distance with exponent 1, in either direction. -/
theorem C84_igd_le_hausdorff (hd : 2 ≤ nobj) (hA : 1 ≤ nA) (hR : 1 ≤ nR) (hm : PerObjective nobj maximise mx) (v w : ℝ)
    (h1 : BothInd .igd nobj A nA R nR maximise v) (h2 : BothInd (.avgHausdorff 1) nobj A nA R nR maximise w) : v ≤ w := by
  obtain ⟨m, hm1, hm2⟩ := avgNearest_one (dist := euclid nobj) (show IsAvgNearest (euclid nobj) 1 R nR A nA v from h1.isIndicator hd hA hR hm trivial trivial)
  obtain ⟨a, b, _, hb, e⟩ := h2.isIndicator hd hA hR hm (le_refl 1) (by show 1 < 2 ^ 31; norm_num)
  obtain ⟨m', hm1', hm2'⟩ := avgNearest_one hb
  have : v = b := by
    rw [hm2, hm2']
    congr 1
    refine Finset.sum_congr rfl (fun r hr => ?_)
    obtain ⟨⟨i, hi, e1⟩, g1⟩ := hm1 r (Finset.mem_range.1 hr)
    obtain ⟨⟨j, hj, e2⟩, g2⟩ := hm1' r (Finset.mem_range.1 hr)
    exact le_antisymm (e2 ▸ g1 j hj) (e1 ▸ g2 i hi)
  rw [this, e]
  exact le_max_right _ _

end

/-! ### Concrete cases -/

/-- Three sets, both directions: the indicators exist, so that the laws apply to them. -/
example : ∃ ac ab bc : ℝ, BothInd .epsilonAdditive 2 (fun i k => (i + k : ℝ)) 2 (fun i k => (3 * i - k : ℝ)) 3 [false, true] ac ∧
    BothInd .epsilonAdditive 2 (fun i k => (i + k : ℝ)) 2 (fun i _ => (i : ℝ)) 4 [false, true] ab ∧
    BothInd .epsilonAdditive 2 (fun i _ => (i : ℝ)) 4 (fun i k => (3 * i - k : ℝ)) 3 [false, true] bc ∧ ac ≤ ab + bc := by
  have hm : PerObjective 2 [false, true] (fun k => k = 1) := by
    refine ⟨by simp, fun k hk => ?_⟩
    rcases (show k = 0 ∨ k = 1 by omega) with rfl | rfl <;> simp
  obtain ⟨x, hx⟩ := exists_bothInd (A := fun i k => (i + k : ℝ)) (R := fun i k => (3 * i - k : ℝ)) (nA := 2) (nR := 3) .epsilonAdditive (le_refl 2) (by omega) (by omega) hm trivial trivial
  obtain ⟨y, hy⟩ := exists_bothInd (A := fun i k => (i + k : ℝ)) (R := fun i _ => (i : ℝ)) (nA := 2) (nR := 4) .epsilonAdditive (le_refl 2) (by omega) (by omega) hm trivial trivial
  obtain ⟨z, hz⟩ := exists_bothInd (A := fun i _ => (i : ℝ)) (R := fun i k => (3 * i - k : ℝ)) (nA := 4) (nR := 3) .epsilonAdditive (le_refl 2) (by omega) (by omega) hm trivial trivial
  exact ⟨x, y, z, hx, hy, hz, C84_add_triangle (le_refl 2) (by omega) (by omega) (by omega) hm x y z hx hy hz⟩

/-- Positive sets for the multiplicative indicator. -/
example : ∃ v, BothInd .epsilonMult 2 (fun i k => (i + k + 1 : ℝ)) 2 (fun i k => (2 * i + k + 1 : ℝ)) 3 [true] v := by
  have hm : PerObjective 2 [true] (fun _ => true) := ⟨by simp, fun k hk => by simp⟩
  exact exists_bothInd .epsilonMult (le_refl 2) (by omega) (by omega) hm ⟨fun a _ d _ => by positivity, fun a _ d _ => by positivity⟩ trivial

end Moo
