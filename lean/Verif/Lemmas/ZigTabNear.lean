import Verif.Lemmas.ZigCheck
import Verif.Lemmas.ZigNearSum

set_option autoImplicit false
set_option linter.unusedSectionVars false

/-!
# The tables of the code nearly satisfy the ziggurat equations
-/

namespace Moo

open MeasureTheory ProbabilityTheory Set

section
variable {rnd : ℝ → ℝ} (hr : Nearest binary64 rnd)
include hr

theorem lit_bounds (d e : ℕ) (hd : 0 < d) (he : e ≤ 37) :
    ((zLo ((d : ℚ) / 10 ^ e) : ℚ) : ℝ) ≤ rnd ((d : ℝ) / 10 ^ e) ∧ rnd ((d : ℝ) / 10 ^ e) ≤ ((zHi ((d : ℚ) / 10 ^ e) : ℚ) : ℝ) := by
  have hpos : (0 : ℝ) < (d : ℝ) / 10 ^ e := by positivity
  have hmin : minNormal ≤ |(d : ℝ) / 10 ^ e| := by
    rw [abs_of_pos hpos, le_div_iff₀ (by positivity)]
    have h1 : minNormal ≤ 1 / 10 ^ 37 := by
      have h4 : (2 : ℝ) ^ (-1022 : ℤ) ≤ 2 ^ (-123 : ℤ) := zpow_le_zpow_right₀ (by norm_num) (by norm_num)
      exact h4.trans (by norm_num)
    have h2 : (10 : ℝ) ^ e ≤ 10 ^ 37 := pow_le_pow_right₀ (by norm_num) he
    have h3 : (1 : ℝ) ≤ d := by exact_mod_cast hd
    calc minNormal * 10 ^ e ≤ 1 / 10 ^ 37 * 10 ^ 37 := mul_le_mul h1 h2 (by positivity) (by positivity)
      _ = 1 := by norm_num
      _ ≤ d := h3
  have h := hr.rel hmin
  rw [abs_of_pos hpos, abs_le] at h
  have hu : ulpU = 1 / 2 ^ 53 := by unfold ulpU; rw [zpow_neg]; norm_num
  rw [hu] at h
  unfold zLo zHi
  push_cast
  constructor <;> linarith [h.1, h.2]

/-- The tables of the code satisfy the equations of the ziggurat method up to `8 * 10^-13`. -/
theorem zigTab_near : ZigNear (zigTab rnd) 256 zV zE := by
  have hchk : ∀ i, 1 ≤ i → i < 256 → zigChk i = true := by
    intro i h1 hi
    have := List.all_eq_true.1 zigChk_ok (i - 1) (List.mem_range.2 (by omega))
    rwa [Nat.sub_add_cancel h1] at this
  have hw : ∀ i < 256, 0 < zigWLit.getD i 0 := by decide +kernel
  have hf : ∀ i < 256, 0 < zigFLit.getD i 0 := by decide +kernel
  have hk : ∀ i < 256, zigKLit.getD i 0 ≤ 2 ^ 52 := by decide +kernel
  have W : ∀ i < 256, ((2 ^ 52 * zLo (zW i) : ℚ) : ℝ) ≤ (zigTab rnd).w i ∧ (zigTab rnd).w i ≤ ((2 ^ 52 * zHi (zW i) : ℚ) : ℝ) := by
    intro i hi
    obtain ⟨a, b⟩ := lit_bounds hr _ 37 (hw i hi) le_rfl
    constructor
    · show _ ≤ (2 : ℝ) ^ 52 * rnd _
      rw [Rat.cast_mul]
      push_cast
      exact mul_le_mul_of_nonneg_left a (by positivity)
    · show (2 : ℝ) ^ 52 * rnd _ ≤ _
      rw [Rat.cast_mul]
      push_cast
      exact mul_le_mul_of_nonneg_left b (by positivity)
  have F : ∀ i < 256, ((zLo (zF i) : ℚ) : ℝ) ≤ (zigTab rnd).f i ∧ (zigTab rnd).f i ≤ ((zHi (zF i) : ℚ) : ℝ) := fun i hi => lit_bounds hr _ 23 (hf i hi) (by norm_num)
  have R : ((zLo zR : ℚ) : ℝ) ≤ (zigTab rnd).r ∧ (zigTab rnd).r ≤ ((zHi zR : ℚ) : ℝ) := lit_bounds hr _ 28 (by norm_num [zigRLit]) (by norm_num)
  have I : ((zLo zI : ℚ) : ℝ) ≤ (zigTab rnd).invR ∧ (zigTab rnd).invR ≤ ((zHi zI : ℚ) : ℝ) := lit_bounds hr _ 29 (by norm_num [zigInvLit]) (by norm_num)
  have K : ∀ i, (zigTab rnd).k i = ((zK i : ℚ) : ℝ) := by
    intro i
    show (zigKLit.getD i 0 : ℝ) / 2 ^ 52 = _
    unfold zK
    push_cast
    rfl
  have hLo : ∀ q : ℚ, 0 < q → 0 < zLo q := fun q hq => mul_pos hq (by norm_num)
  have wl : ∀ i < 256, (0 : ℚ) < 2 ^ 52 * zLo (zW i) := fun i hi => mul_pos (by norm_num) (hLo _ (div_pos (by exact_mod_cast hw i hi) (by norm_num)))
  have wl' : ∀ i < 256, (0 : ℝ) < ((2 ^ 52 * zLo (zW i) : ℚ) : ℝ) := fun i hi => by exact_mod_cast wl i hi
  have fl : ∀ i < 256, (0 : ℝ) < ((zLo (zF i) : ℚ) : ℝ) := fun i hi => by
    exact_mod_cast hLo _ (div_pos (by exact_mod_cast hf i hi) (by norm_num : (0 : ℚ) < 10 ^ 23))
  have hwp : ∀ i < 256, 0 < (zigTab rnd).w i := fun i hi => lt_of_lt_of_le (wl' i hi) (W i hi).1
  have hfp : ∀ i < 256, 0 < (zigTab rnd).f i := fun i hi => lt_of_lt_of_le (fl i hi) (F i hi).1
  have hv : (0 : ℝ) < ((zV : ℚ) : ℝ) := by exact_mod_cast (by norm_num [zV] : (0 : ℚ) < zV)
  have hE : (0 : ℝ) ≤ ((zE : ℚ) : ℝ) := by exact_mod_cast (by norm_num [zE] : (0 : ℚ) ≤ zE)
  have hk0 : ∀ i < 256, 0 ≤ (zigTab rnd).k i := fun i _ => by rw [K]; exact_mod_cast (by unfold zK; positivity : (0 : ℚ) ≤ zK i)
  have hk1 : ∀ i < 256, (zigTab rnd).k i ≤ 1 := fun i hi => by
    show (zigKLit.getD i 0 : ℝ) / 2 ^ 52 ≤ 1
    rw [div_le_one (by positivity)]
    exact_mod_cast hk i hi
  have h0 := zigChk0_ok
  simp only [zigChk0, Bool.and_eq_true, decide_eq_true_eq] at h0
  obtain ⟨⟨⟨⟨⟨⟨⟨⟨⟨⟨⟨⟨⟨-, -⟩, b1⟩, b2⟩, b3⟩, b4⟩, b5⟩, b6⟩, b7⟩, b8⟩, b9⟩, b10⟩, b11⟩, b12⟩ := h0
  have hIl : (0 : ℝ) < ((zLo zI : ℚ) : ℝ) := by exact_mod_cast hLo _ (by norm_num [zI, zigInvLit] : (0 : ℚ) < zI)
  have hIp : 0 < (zigTab rnd).invR := lt_of_lt_of_le hIl I.1
  have hIh : (0 : ℝ) < ((zHi zI : ℚ) : ℝ) := lt_of_lt_of_le hIp I.2
  have hRl : (1 : ℝ) ≤ ((zLo zR : ℚ) : ℝ) := by exact_mod_cast b6
  have hRp : 0 < (zigTab rnd).r := by linarith [R.1]
  have hRh : (1 : ℝ) ≤ ((zHi zR : ℚ) : ℝ) := by linarith [R.1, R.2]
  have ρl : ((1 / zHi zI : ℚ) : ℝ) ≤ 1 / (zigTab rnd).invR := by
    push_cast
    exact one_div_le_one_div_of_le hIp I.2
  have ρh : 1 / (zigTab rnd).invR ≤ ((1 / zLo zI : ℚ) : ℝ) := by
    push_cast
    exact one_div_le_one_div_of_le hIl I.1
  have hρ1 : (1 : ℝ) ≤ ((1 / zHi zI : ℚ) : ℝ) := by exact_mod_cast b5
  refine ⟨by norm_num, hv, hE, ?_, ?_, ?_, hfp, ?_, hwp, ?_, ?_, ?_, hk0, hk1, ?_, ?_, ?_, hRp, hIp, ?_, ?_, ?_, ?_, ?_, ?_⟩
  · have h : ((zE : ℚ) : ℝ) ≤ ((1 / 100 : ℚ) : ℝ) := by exact_mod_cast (by norm_num [zE] : zE ≤ 1 / 100)
    simpa using h
  · exact_mod_cast (by norm_num [zV] : ((256 : ℕ) : ℚ) * zV ≤ 2)
  · show rnd ((zigFLit.getD 0 0 : ℝ) / 10 ^ 23) = 1
    have e : ((zigFLit.getD 0 0 : ℕ) : ℝ) / 10 ^ 23 = 1 := by
      have : zigFLit.getD 0 0 = 10 ^ 23 := by decide
      rw [this]
      norm_num
    rw [e]
    exact hr.fix ⟨1, 0, by norm_num, by norm_num, by norm_num⟩
  · intro i hi
    have h := hchk (i + 1) (by omega) hi
    simp only [zigChk, Bool.and_eq_true, decide_eq_true_eq, Nat.add_sub_cancel] at h
    have h1 : ((zHi (zF (i + 1)) : ℚ) : ℝ) < ((zLo (zF i) : ℚ) : ℝ) := by exact_mod_cast h.1.1.1.1.2
    linarith [(F (i + 1) hi).2, (F i (by omega)).1]
  · intro i h1 hi
    have h := hchk i h1 hi
    simp only [zigChk, Bool.and_eq_true, decide_eq_true_eq] at h
    have h2 := bellLe_ok h.1.1.1.2
    have h3 : bell ((zigTab rnd).w i) ≤ bell ((2 ^ 52 * zLo (zW i) : ℚ) : ℝ) := (bell_le_iff (hwp i hi).le (wl' i hi).le).2 (W i hi).1
    refine h3.trans (h2.trans ?_)
    push_cast
    exact mul_le_mul_of_nonneg_left (F i hi).1 (by positivity)
  · intro i h1 hi
    have h := hchk i h1 hi
    simp only [zigChk, Bool.and_eq_true, decide_eq_true_eq] at h
    have h2 : ((2 ^ 52 * zHi (zW i) : ℚ) : ℝ) * (((zHi (zF (i - 1)) : ℚ) : ℝ) - ((zLo (zF i) : ℚ) : ℝ)) ≤ (1 + ((zE : ℚ) : ℝ)) * ((zV : ℚ) : ℝ) := by exact_mod_cast h.1.1.2
    have h3 : ((zHi (zF i) : ℚ) : ℝ) < ((zLo (zF (i - 1)) : ℚ) : ℝ) := by exact_mod_cast h.1.1.1.1.2
    have a1 := F i hi
    have a2 := F (i - 1) (by omega)
    refine le_trans (mul_le_mul (W i hi).2 ?_ (by linarith) ((hwp i hi).le.trans (W i hi).2)) h2
    linarith
  · intro i h1 hi
    have h := hchk i h1 hi
    simp only [zigChk, Bool.and_eq_true, decide_eq_true_eq] at h
    have h2 : ((zV : ℚ) : ℝ) ≤ (1 + ((zE : ℚ) : ℝ)) * (((2 ^ 52 * zLo (zW i) : ℚ) : ℝ) * (((zLo (zF (i - 1)) : ℚ) : ℝ) - ((zHi (zF i) : ℚ) : ℝ))) := by exact_mod_cast h.1.2
    have h3 : ((zHi (zF i) : ℚ) : ℝ) < ((zLo (zF (i - 1)) : ℚ) : ℝ) := by exact_mod_cast h.1.1.1.1.2
    have a1 := F i hi
    have a2 := F (i - 1) (by omega)
    refine h2.trans (mul_le_mul_of_nonneg_left (mul_le_mul (W i hi).1 ?_ (by linarith) (hwp i hi).le) (by linarith))
    linarith
  · intro i h1 hi
    have h := hchk i h1 hi
    simp only [zigChk, Bool.and_eq_true, decide_eq_true_eq] at h
    have h2 := bellGe_ok h.2
    have h3 : ((zHi (zF i) : ℚ) : ℝ) < ((zLo (zF (i - 1)) : ℚ) : ℝ) := by exact_mod_cast h.1.1.1.1.2
    have a1 := F i hi
    have a2 := F (i - 1) (by omega)
    have hk := hk0 i hi
    rw [K] at hk
    have h4 : bell ((zK i * (2 ^ 52 * zHi (zW i)) : ℚ) : ℝ) ≤ bell ((zigTab rnd).k i * (zigTab rnd).w i) := by
      rw [Rat.cast_mul, K]
      refine (bell_le_iff (mul_nonneg hk ((hwp i hi).le.trans (W i hi).2)) (mul_nonneg hk (hwp i hi).le)).2 ?_
      exact mul_le_mul_of_nonneg_left (W i hi).2 hk
    rw [Rat.cast_sub, Rat.cast_mul, Rat.cast_sub] at h2
    have h5 : ((zE : ℚ) : ℝ) * (((zLo (zF (i - 1)) : ℚ) : ℝ) - ((zHi (zF i) : ℚ) : ℝ)) ≤ ((zE : ℚ) : ℝ) * ((zigTab rnd).f (i - 1) - (zigTab rnd).f i) :=
      mul_le_mul_of_nonneg_left (by linarith) hE
    linarith
  · have h2 : ((2 ^ 52 * zHi (zW 0) : ℚ) : ℝ) * ((zHi (zF 255) : ℚ) : ℝ) ≤ (1 + ((zE : ℚ) : ℝ)) * ((zV : ℚ) : ℝ) := by exact_mod_cast b1
    exact le_trans (mul_le_mul (W 0 (by norm_num)).2 (F 255 (by norm_num)).2 (hfp 255 (by norm_num)).le ((hwp 0 (by norm_num)).le.trans (W 0 (by norm_num)).2)) h2
  · have h2 : (((zHi zR : ℚ) : ℝ) - ((zK 0 : ℚ) : ℝ) * ((2 ^ 52 * zLo (zW 0) : ℚ) : ℝ)) * ((zHi (zF 255) : ℚ) : ℝ) ≤ ((zE : ℚ) : ℝ) * ((zV : ℚ) : ℝ) := by exact_mod_cast b2
    have hk := hk0 0 (by norm_num)
    have h3 := mul_le_mul_of_nonneg_left (W 0 (by norm_num)).1 hk
    have hf := hfp 255 (by norm_num)
    have hF := (F 255 (by norm_num)).2
    rw [K] at h3 ⊢
    show ((zigTab rnd).r - ((zK 0 : ℚ) : ℝ) * (zigTab rnd).w 0) * (zigTab rnd).f 255 ≤ _
    rcases le_total ((zigTab rnd).r - ((zK 0 : ℚ) : ℝ) * (zigTab rnd).w 0) 0 with hn | hn
    · exact (mul_nonpos_of_nonpos_of_nonneg hn hf.le).trans (by positivity)
    · refine le_trans (mul_le_mul ?_ hF hf.le ?_) h2
      · linarith [R.2]
      · linarith [R.2]
  · -- the tail
    have h1 := bellTail_antitone ρl
    have h2 := millsJ_le hρ1 41 (by decide)
    have h3 := bellLe_ok b9
    have hm := millsRec_pos hρ1 41
    have e1 := congrArg Prod.fst (millsRec_cast (1 / zHi zI) 0 1 41)
    have e2 := congrArg Prod.fst (millsRec_cast (1 / zHi zI) 1 (1 / zHi zI) 41)
    simp only [Rat.cast_zero, Rat.cast_one] at e1 e2
    have h7 : (0 : ℝ) < (((millsRec (1 / zHi zI) 0 1 41).1 : ℚ) : ℝ) := by exact_mod_cast b7
    rw [e1, e2] at h2
    rw [e2] at hm
    refine h1.trans ?_
    rw [bellTail_eq, K]
    have hJ := millsJ_nonneg hρ1 0
    refine (mul_le_mul h3 h2 hJ ((bell_pos _).le.trans h3)).trans (le_of_eq ?_)
    rw [Rat.cast_div, Rat.cast_mul, Rat.cast_mul, Rat.cast_div, Rat.cast_add, Rat.cast_sub, Rat.cast_one]
    exact div_mul_cancel₀ _ (div_pos h7 hm.1).ne'
  · have h2 : (((1 / zLo zI : ℚ) : ℝ) - ((zLo zR : ℚ) : ℝ)) * 4 ≤ ((zE : ℚ) : ℝ) * ((zV : ℚ) : ℝ) := by exact_mod_cast b3
    linarith [R.1]
  · have h2 : ((1 / zLo zI : ℚ) : ℝ) ≤ 3 * ((zLo zR : ℚ) : ℝ) := by exact_mod_cast b4
    linarith [R.1]
  · have h2 := bellGe_ok b10
    have h3 : bell ((zHi zR : ℚ) : ℝ) ≤ bell (zigTab rnd).r := (bell_le_iff (by linarith) hRp.le).2 R.2
    push_cast at h2
    rw [div_le_iff₀ (by linarith)] at h2
    have := mul_le_mul_of_nonneg_right h3 (show (0 : ℝ) ≤ 1 + ((zE : ℚ) : ℝ) by linarith)
    have hF := (F 255 (by norm_num)).2
    show (zigTab rnd).f 255 ≤ _
    linarith
  · have h2 := bellLe_ok b11
    have h3 : bell (zigTab rnd).r ≤ bell ((zLo zR : ℚ) : ℝ) := (bell_le_iff hRp.le (by linarith)).2 R.1
    push_cast at h2
    have hF := mul_le_mul_of_nonneg_left (F 255 (by norm_num)).1 (show (0 : ℝ) ≤ 1 + ((zE : ℚ) : ℝ) by linarith)
    show _ ≤ _ * (zigTab rnd).f 255
    linarith
  · -- the area of the base
    have h1 := bellTail_antitone R.2
    have h2 := millsJ_ge hRh 40 (by decide)
    have h3 := bellGe_ok b12
    have hm := millsRec_pos hRh 40
    have e1 := congrArg Prod.fst (millsRec_cast (zHi zR) 0 1 40)
    have e2 := congrArg Prod.fst (millsRec_cast (zHi zR) 1 (zHi zR) 40)
    simp only [Rat.cast_zero, Rat.cast_one] at e1 e2
    have h7 : (0 : ℝ) < (((millsRec (zHi zR) 0 1 40).1 : ℚ) : ℝ) := by exact_mod_cast b8
    rw [e1, e2] at h2
    rw [e2] at hm
    rw [bellTail_eq] at h1
    rw [Rat.cast_div, Rat.cast_sub, Rat.cast_div, Rat.cast_div, Rat.cast_add, Rat.cast_mul, Rat.cast_one, div_le_iff₀ (div_pos h7 hm.1)] at h3
    have h4 := h3.trans (mul_le_mul_of_nonneg_left h2 (bell_pos _).le)
    have h5 : ((zLo zR : ℚ) : ℝ) * ((zLo (zF 255) : ℚ) : ℝ) ≤ (zigTab rnd).r * (zigTab rnd).f 255 :=
      mul_le_mul R.1 (F 255 (by norm_num)).1 (fl 255 (by norm_num)).le hRp.le
    have h6 : ((zV : ℚ) : ℝ) / (1 + ((zE : ℚ) : ℝ)) ≤ (zigTab rnd).r * (zigTab rnd).f 255 + bellTail (zigTab rnd).r := by linarith
    rw [div_le_iff₀ (by linarith)] at h6
    show _ ≤ (1 + ((zE : ℚ) : ℝ)) * ((zigTab rnd).r * (zigTab rnd).f 255 + _)
    linarith

end

end Moo
