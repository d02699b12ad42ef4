import Verif.Lemmas.ZigTabNear
import Verif.Props.Ziggurat

set_option autoImplicit false
set_option linter.unusedSectionVars false

/-!
# C110: the normal random numbers with the tables of the code

C106 says that `rng_standard_normal` has the normal distribution when its tables satisfy the equations of the ziggurat method exactly.  The tables in the code cannot: they are decimal literals that the
compiler rounds to double precision.  Here the 770 literals of `c/ziggurat_constants.h` are read as they are, and rounded by any rounding to nearest.

As in C106 the uniform random numbers are real numbers, and the operations inside the function, with the exponential and the logarithm, are exact: only the constants are rounded.
-/

namespace Moo

open MeasureTheory ProbabilityTheory Set

theorem zE_le : 10 * ((zE : ℚ) : ℝ) ≤ 1 / 10 ^ 11 := by
  norm_num [zE]

/-- **C110.**  With the tables that are in the code, rounded to double precision, the value of `rng_standard_normal` has the standard normal distribution up to `10^-11`: for every measurable set, the
probability that the value is in the set and the normal probability of the set differ by at most `10^-11`. -/
theorem C110_standard_normal {rnd : ℝ → ℝ} (hr : Nearest binary64 rnd) {Ω : Type*} [MeasurableSpace Ω] (P : Measure Ω) [IsProbabilityMeasure P]
    (D : ℕ → Ω → ZigDraw 256) (hm : ∀ n, Measurable (D n)) (hind : iIndepFun D P) (hlaw : ∀ n, P.map (D n) = zigLaw 256) (B : Set ℝ) (hB : MeasurableSet B) :
    |(P {ω | zigReturns (zigTab rnd) (fun n => D n ω) B}).toReal - (gaussianReal 0 1 B).toReal| ≤ 1 / 10 ^ 11 :=
  ((zigTab_near hr).law P D hm hind hlaw B hB).trans zE_le

/-- **C110.**  With these tables a call returns with probability one. -/
theorem C110_terminates {rnd : ℝ → ℝ} (hr : Nearest binary64 rnd) {Ω : Type*} [MeasurableSpace Ω] (P : Measure Ω) [IsProbabilityMeasure P]
    (D : ℕ → Ω → ZigDraw 256) (hm : ∀ n, Measurable (D n)) (hind : iIndepFun D P) (hlaw : ∀ n, P.map (D n) = zigLaw 256) :
    P {ω | ∃ tailFuel fuel x D', zigNormal (zigTab rnd) tailFuel fuel (fun n => D n ω) = some (x, D')} = 1 := by
  rw [← (zigTab_near hr).terminates P D hm hind hlaw]
  congr 1
  ext ω
  simp [zigReturns]

theorem list_prod_diff (l : List (ℝ × ℝ)) (e : ℝ) (he : 0 ≤ e) (h : ∀ p ∈ l, |p.1 - p.2| ≤ e ∧ 0 ≤ p.1 ∧ p.1 ≤ 1 ∧ 0 ≤ p.2 ∧ p.2 ≤ 1) :
    |(l.map Prod.fst).prod - (l.map Prod.snd).prod| ≤ l.length * e ∧ 0 ≤ (l.map Prod.snd).prod ∧ (l.map Prod.snd).prod ≤ 1 := by
  induction l with
  | nil => simp
  | cons p l ih =>
    obtain ⟨i1, i2, i3⟩ := ih fun q hq => h q (by simp [hq])
    obtain ⟨h1, h2, h3, h4, h5⟩ := h p (by simp)
    simp only [List.map_cons, List.prod_cons, List.length_cons]
    refine ⟨?_, mul_nonneg h4 i2, mul_le_one₀ h5 i2 i3⟩
    set a := (l.map Prod.fst).prod
    set b := (l.map Prod.snd).prod
    have e1 : p.1 * a - p.2 * b = p.1 * (a - b) + (p.1 - p.2) * b := by ring
    rw [e1]
    refine (abs_add_le _ _).trans ?_
    rw [abs_mul, abs_mul, abs_of_nonneg h2, abs_of_nonneg i2]
    push_cast
    have a1 := mul_le_mul h3 i1 (abs_nonneg _) zero_le_one
    have a2 := mul_le_mul h1 i3 i2 he
    linarith

/-- **C110.**  The values of `m` successive calls are, up to `m * 10^-11`, independent standard normal random numbers. -/
theorem C110_independent {rnd : ℝ → ℝ} (hr : Nearest binary64 rnd) {Ω : Type*} [MeasurableSpace Ω] (P : Measure Ω) [IsProbabilityMeasure P]
    (D : ℕ → Ω → ZigDraw 256) (hm : ∀ n, Measurable (D n)) (hind : iIndepFun D P) (hlaw : ∀ n, P.map (D n) = zigLaw 256)
    (Bs : List (Set ℝ)) (hBs : ∀ B ∈ Bs, MeasurableSet B) :
    |(P {ω | zigManyReturns (zigTab rnd) (fun n => D n ω) Bs}).toReal - (Bs.map fun B => (gaussianReal 0 1 B).toReal).prod| ≤ Bs.length / 10 ^ 11 := by
  rw [zigMany_prob P (by norm_num) D hm hind hlaw Bs hBs]
  have e1 : ((Bs.map fun B => P {ω | zigReturns (zigTab rnd) (fun n => D n ω) B}).prod).toReal =
      (Bs.map fun B => (P {ω | zigReturns (zigTab rnd) (fun n => D n ω) B}).toReal).prod := by
    clear hBs
    induction Bs with
    | nil => simp
    | cons B Bs ih => simp only [List.map_cons, List.prod_cons, ENNReal.toReal_mul, ih]
  have hone : ∀ (Q : Measure Ω) [IsProbabilityMeasure Q] (S : Set Ω), (Q S).toReal ≤ 1 := fun Q _ S => ENNReal.toReal_le_of_le_ofReal zero_le_one (by simpa using prob_le_one)
  have := list_prod_diff (Bs.map fun B => ((P {ω | zigReturns (zigTab rnd) (fun n => D n ω) B}).toReal, (gaussianReal 0 1 B).toReal)) (1 / 10 ^ 11) (by positivity) (by
    intro p hp
    obtain ⟨B, hB, rfl⟩ := List.mem_map.1 hp
    exact ⟨C110_standard_normal hr P D hm hind hlaw B (hBs B hB), ENNReal.toReal_nonneg, hone P _, ENNReal.toReal_nonneg,
      ENNReal.toReal_le_of_le_ofReal zero_le_one (by simpa using prob_le_one)⟩)
  rw [e1]
  simp only [List.map_map, List.length_map, Function.comp_def] at this
  refine this.1.trans (le_of_eq ?_)
  ring

/-- Non-vacuity: there are a rounding to nearest and independent random numbers that meet the hypotheses. -/
example : ∃ (rnd : ℝ → ℝ) (Ω : Type) (_ : MeasurableSpace Ω) (P : Measure Ω) (_ : IsProbabilityMeasure P) (D : ℕ → Ω → ZigDraw 256),
    ∀ B, MeasurableSet B → |(P {ω | zigReturns (zigTab rnd) (fun n => D n ω) B}).toReal - (gaussianReal 0 1 B).toReal| ≤ 1 / 10 ^ 11 := by
  obtain ⟨rnd, hr⟩ := exists_nearest64
  have hp := isProbabilityMeasure_zigLaw (N := 256) (by norm_num)
  refine ⟨rnd, ℕ → ZigDraw 256, inferInstance, Measure.infinitePi fun _ => zigLaw 256, inferInstance, fun n ω => ω n, fun B hB => ?_⟩
  exact C110_standard_normal hr _ _ (fun n => measurable_pi_apply n)
    (iIndepFun_infinitePi (P := fun _ : ℕ => zigLaw 256) (X := fun _ x => x) (fun _ => measurable_id)) (fun n => Measure.infinitePi_map_eval _ n) B hB

/-- The tables really have 256 entries. -/
example : zigKLit.length = 256 ∧ zigWLit.length = 256 ∧ zigFLit.length = 256 := by decide +kernel

/-- The layer at the top has no rectangle inside the bell. -/
example (rnd : ℝ → ℝ) : (zigTab rnd).k 1 = 0 := by
  show (zigKLit.getD 1 0 : ℝ) / 2 ^ 52 = 0
  have : zigKLit.getD 1 0 = 0 := by decide +kernel
  rw [this]
  norm_num

end Moo
