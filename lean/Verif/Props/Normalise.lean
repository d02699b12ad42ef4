import Verif.Model.Normalise
import Verif.Lemmas.NondominatedSpec
import Mathlib.Tactic.Linarith
import Mathlib.Tactic.FieldSimp
import Mathlib.Tactic.NormNum

set_option autoImplicit false
set_option linter.unusedSectionVars false

/-! # Properties of `agree_normalise` / `normalise()` -/

namespace Moo

variable {K : Type*} [Field K] [LinearOrder K] [IsStrictOrderedRing K]

omit [IsStrictOrderedRing K] in
/-- The value written for an entry. -/
theorem agreeNormalise_val (data : ℕ → ℕ → K) (nobj n : ℕ) (mx : ℕ → Bool) (lo hi : K) (L U : ℕ → K)
    {k d : ℕ} (hk : k < n) (hd : d < nobj) :
    agreeNormalise data nobj n mx lo hi L U k d =
      if mx d then lo + (hi - lo) * (U d - data k d) / normDiff L U d
      else lo + (hi - lo) * (data k d - L d) / normDiff L U d := by
  unfold agreeNormalise normalise agreeObjectives flipObjective minmaxFromBool AGREE_MINIMISE AGREE_MAXIMISE
  rcases Bool.eq_false_or_eq_true (mx d) with h | h <;> simp [hk, hd, h, sub_eq_add_neg]

/-- **C22 (end points).** The lower bound is mapped to the start and the upper bound to the end of the target range (the other way
round for a maximised objective). -/
theorem C22_normalise_bounds (data : ℕ → ℕ → K) (nobj n : ℕ) (mx : ℕ → Bool) (lo hi : K) (L U : ℕ → K)
    (k d : ℕ) (hk : k < n) (hd : d < nobj) (hLU : L d < U d) :
    (data k d = L d → agreeNormalise data nobj n mx lo hi L U k d = if mx d then hi else lo) ∧
    (data k d = U d → agreeNormalise data nobj n mx lo hi L U k d = if mx d then lo else hi) := by
  have h0 : U d - L d ≠ 0 := sub_ne_zero.2 hLU.ne'
  have hdiff : normDiff L U d = U d - L d := by unfold normDiff; rw [if_neg h0]
  rw [agreeNormalise_val data nobj n mx lo hi L U hk hd, hdiff]
  rcases Bool.eq_false_or_eq_true (mx d) with h | h <;> simp only [h, if_true, Bool.false_eq_true, if_false]
  · constructor
    · intro e; rw [e, mul_div_assoc, div_self h0]; ring
    · intro e; rw [e, sub_self]; simp
  · constructor
    · intro e; rw [e, sub_self]; simp
    · intro e; rw [e, mul_div_assoc, div_self h0]; ring

theorem normDiff_pos (L U : ℕ → K) (d : ℕ) (h : L d ≤ U d) : 0 < normDiff L U d := by
  unfold normDiff
  split_ifs with h0
  · exact zero_lt_one
  · exact lt_of_le_of_ne (sub_nonneg.2 h) (Ne.symm h0)

/-- **C22 (range).** A value inside the bounds is mapped into the target range; no division by zero occurs when the bounds
are equal. -/
theorem C22_normalise_in_range (data : ℕ → ℕ → K) (nobj n : ℕ) (mx : ℕ → Bool) (lo hi : K) (L U : ℕ → K)
    (k d : ℕ) (hk : k < n) (hd : d < nobj) (hlh : lo ≤ hi) (hL : L d ≤ data k d) (hU : data k d ≤ U d) :
    lo ≤ agreeNormalise data nobj n mx lo hi L U k d ∧ agreeNormalise data nobj n mx lo hi L U k d ≤ hi := by
  rw [agreeNormalise_val data nobj n mx lo hi L U hk hd]
  have hpos := normDiff_pos L U d (hL.trans hU)
  have hge : U d - L d ≤ normDiff L U d := by
    unfold normDiff; split_ifs with h0
    · rw [h0]; exact zero_le_one
    · exact le_rfl
  have key : ∀ t, 0 ≤ t → t ≤ U d - L d → lo ≤ lo + (hi - lo) * t / normDiff L U d ∧
      lo + (hi - lo) * t / normDiff L U d ≤ hi := by
    intro t ht0 ht1
    have h1 : 0 ≤ (hi - lo) * t / normDiff L U d := div_nonneg (mul_nonneg (by linarith) ht0) hpos.le
    have h2 : (hi - lo) * t / normDiff L U d ≤ hi - lo := by
      rw [div_le_iff₀ hpos]
      exact mul_le_mul_of_nonneg_left (ht1.trans hge) (by linarith)
    exact ⟨by linarith, by linarith⟩
  split
  · exact key _ (by linarith) (by linarith)
  · exact key _ (by linarith) (by linarith)

/-- **C22 (dominance).** With an increasing target range, row `i` dominates row `j` before iff it dominates it, all objectives being
minimised, afterwards. -/
theorem C22_normalise_dominance (data : ℕ → ℕ → K) (nobj n : ℕ) (mx : ℕ → Bool) (lo hi : K) (L U : ℕ → K)
    (hlh : lo < hi) (hLU : ∀ d < nobj, L d ≤ U d) (i j : ℕ) (hi' : i < n) (hj : j < n) :
    Dom nobj mx (data i) (data j) ↔
      Dom nobj (fun _ => false) (agreeNormalise data nobj n mx lo hi L U i)
        (agreeNormalise data nobj n mx lo hi L U j) := by
  have hw : ∀ i j, i < n → j < n → (WeakDom nobj mx (data i) (data j) ↔
      WeakDom nobj (fun _ => false) (agreeNormalise data nobj n mx lo hi L U i)
        (agreeNormalise data nobj n mx lo hi L U j)) := by
    intro i j hi' hj
    unfold WeakDom
    refine forall_congr' fun d => forall_congr' fun hd => ?_
    rw [agreeNormalise_val data nobj n mx lo hi L U hi' hd, agreeNormalise_val data nobj n mx lo hi L U hj hd]
    have hpos := normDiff_pos L U d (hLU d hd)
    have key : ∀ s t, lo + (hi - lo) * s / normDiff L U d ≤ lo + (hi - lo) * t / normDiff L U d ↔ s ≤ t := by
      intro s t
      rw [add_le_add_iff_left, div_le_div_iff_of_pos_right hpos, mul_le_mul_iff_right₀ (by linarith)]
    unfold AtLeastAsGood
    rcases Bool.eq_false_or_eq_true (mx d) with h | h <;> simp only [h, if_true, Bool.false_eq_true, if_false, key]
    · constructor <;> intro <;> linarith
    · constructor <;> intro <;> linarith
  rw [dom_iff, dom_iff, hw i j hi' hj, hw j i hj hi']

omit [IsStrictOrderedRing K] in
/-- **C22 (frame).** Entries outside of the table are not touched. -/
theorem C22_normalise_frame (data : ℕ → ℕ → K) (nobj n : ℕ) (mx : ℕ → Bool) (lo hi : K) (L U : ℕ → K)
    (k d : ℕ) (h : ¬ (k < n ∧ d < nobj)) :
    agreeNormalise data nobj n mx lo hi L U k d = data k d := by
  unfold agreeNormalise normalise agreeObjectives
  rw [if_neg h, if_neg (by tauto)]

/-- Non-vacuity: bounds, data and range as assumed above, with one maximised objective and one with equal bounds. -/
example : ∃ (data : ℕ → ℕ → ℚ) (L U : ℕ → ℚ) (mx : ℕ → Bool), L 0 < U 0 ∧ L 1 = U 1 ∧ mx 0 = true ∧
    (∀ d < 2, L d ≤ U d) ∧ L 0 ≤ data 0 0 ∧ data 0 0 ≤ U 0 ∧
    agreeNormalise data 2 1 mx 1 3 L U 0 0 = 3 / 2 ∧ agreeNormalise data 2 1 mx 1 3 L U 0 1 = 1 := by
  refine ⟨fun _ d => if d = 0 then 5 else 7, fun d => if d = 0 then 2 else 7, fun d => if d = 0 then 6 else 7,
    fun d => d = 0, by norm_num, by norm_num, by norm_num, ?_, by norm_num, by norm_num, ?_, ?_⟩
  · intro d _; dsimp only; split_ifs <;> norm_num
  · rw [agreeNormalise_val _ _ _ _ _ _ _ _ (by omega) (by omega)]; norm_num [normDiff]
  · rw [agreeNormalise_val _ _ _ _ _ _ _ _ (by omega) (by omega)]; norm_num [normDiff]

end Moo
