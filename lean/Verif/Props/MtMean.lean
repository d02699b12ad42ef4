import Verif.Props.MtEqui
import Verif.Lemmas.GridArea

/-!
# C112: the mean of the HypE estimate over the states of the generator
-/

set_option autoImplicit false
set_option linter.unusedSectionVars false

namespace Moo

open scoped Classical

noncomputable instance : Fintype (BitVec 32) := Fintype.ofFinite _

theorem uniformSamples_mt {rnd : ℝ → ℝ} (hrnd : Nearest binary64 rnd) (normal : MtState → ℝ × MtState) {x : ℕ → BitVec 32} (hx : MtRecurrence x) (N : ℕ) :
    ∀ (n : ℕ) (s : MtState), MtRep x n s → uniformSamples (mtRng rnd normal) N s =
      (List.range N).map (fun i => (mtPair (mtTemper (x (n + 4 * i))) (mtTemper (x (n + 4 * i + 1))), mtPair (mtTemper (x (n + 4 * i + 2))) (mtTemper (x (n + 4 * i + 3))))) := by
  induction N with
  | zero => intro n s _; rfl
  | succ N ih =>
    intro n s h
    obtain ⟨s1, h1, r1⟩ := mtNextDouble_spec hrnd hx h
    obtain ⟨s2, h2, r2⟩ := mtNextDouble_spec hrnd hx r1
    rw [uniformSamples, List.range_succ_eq_map, List.map_cons, List.map_map]
    simp only [mtRng, h1, h2, Option.getD_some, zero_add, mul_one, mul_zero, add_zero]
    have := ih (n + 2 + 2) s2 r2
    simp only [mtRng] at this
    rw [this]
    refine congrArg _ (List.map_congr_left fun i _ => ?_)
    simp only [Function.comp, Nat.succ_eq_add_one]
    rw [show n + 2 + 2 + 4 * i = n + 4 * (i + 1) by ring]

theorem mtPair_lt (w1 w2 : BitVec 32) : (w1.toNat / 2 ^ 5) * 2 ^ 26 + w2.toNat / 2 ^ 6 < 2 ^ 53 := by
  have := w1.isLt
  have := w2.isLt
  omega

theorem card_filter_fibers {α β : Type*} [Fintype α] (f : α → β) (T : Finset β) (K : ℕ) (P : α → Prop) (hP : ∀ a, P a ↔ f a ∈ T)
    (h : ∀ p ∈ T, Nat.card {a // f a = p} = K) : Nat.card {a // P a} = T.card * K := by
  rw [Nat.card_eq_fintype_card, Fintype.card_subtype,
    Finset.card_eq_sum_card_fiberwise (f := f) (t := T) (fun a ha => by simpa [hP] using ha), Finset.sum_const_nat (m := K)]
  intro p hp
  rw [← h p hp, Nat.card_eq_fintype_card, Fintype.card_subtype]
  congr 1
  ext a
  simp only [Finset.mem_filter, Finset.mem_univ, true_and, hP]
  exact ⟨fun h => h.2, fun h => ⟨h ▸ hp, h⟩⟩

theorem sum_indicator_card {α β : Type*} [Fintype α] (g : α → β) (D : Set β) :
    ∑ a, D.indicator (1 : β → ℝ) (g a) = (Nat.card {a // g a ∈ D} : ℝ) := by
  rw [Nat.card_eq_fintype_card, Fintype.card_subtype, Finset.card_filter, Nat.cast_sum]
  refine Finset.sum_congr rfl fun a _ => ?_
  rw [Set.indicator_apply]
  split <;> simp

/-- How many contents of the array put a sample into a set. -/
theorem mt_sample_count (m : ℕ) (M e : ℕ) (hM : M = 2 ^ 53) (he : 19968 - 53 * 2 = e) (U : Set (Fin 2 → ℝ)) :
    Nat.card {key : MtKey // (![mtPair (mtTemper (mtSeq key.ext (m + 1))) (mtTemper (mtSeq key.ext (m + 1 + 1))),
      mtPair (mtTemper (mtSeq key.ext (m + 1 + 2))) (mtTemper (mtSeq key.ext (m + 1 + 3)))] : Fin 2 → ℝ) ∈ U} = (gridIn M U).card * 2 ^ e := by
  let nat : BitVec 32 → BitVec 32 → Fin M := fun w1 w2 => ⟨(w1.toNat / 2 ^ 5) * 2 ^ 26 + w2.toNat / 2 ^ 6, by rw [hM]; exact mtPair_lt w1 w2⟩
  have hnat : ∀ w1 w2, mtPair w1 w2 = (nat w1 w2 : ℝ) / M := by
    intro w1 w2
    have e : (M : ℝ) = 2 ^ 53 := by rw [hM]; norm_num
    rw [e]
    rfl
  let f : MtKey → Fin M × Fin M := fun key => (nat (mtTemper (mtSeq key.ext (m + 1))) (mtTemper (mtSeq key.ext (m + 1 + 1))),
    nat (mtTemper (mtSeq key.ext (m + 1 + 2))) (mtTemper (mtSeq key.ext (m + 1 + 3))))
  have hf : ∀ key : MtKey, (![mtPair (mtTemper (mtSeq key.ext (m + 1))) (mtTemper (mtSeq key.ext (m + 1 + 1))),
      mtPair (mtTemper (mtSeq key.ext (m + 1 + 2))) (mtTemper (mtSeq key.ext (m + 1 + 3)))] : Fin 2 → ℝ) = gridPoint M (f key) := by
    intro key
    rw [hnat, hnat]
    rfl
  have hmem : ∀ key : MtKey, ((![mtPair (mtTemper (mtSeq key.ext (m + 1))) (mtTemper (mtSeq key.ext (m + 1 + 1))),
      mtPair (mtTemper (mtSeq key.ext (m + 1 + 2))) (mtTemper (mtSeq key.ext (m + 1 + 3)))] : Fin 2 → ℝ) ∈ U) ↔ f key ∈ gridIn M U := by
    intro key
    rw [hf]
    simp [gridIn]
  refine card_filter_fibers f _ _ _ hmem fun p hp => ?_
  have hM' : (M : ℝ) ≠ 0 := by rw [hM]; positivity
  have hcard := mt_pairs_card m 2 (by norm_num) (fun i => if i = 0 then p.1.1 else p.2.1) (by
    intro i _
    have := p.1.2
    have := p.2.2
    rw [← hM]
    split <;> assumption)
  rw [he] at hcard
  rw [← hcard]
  refine Nat.card_congr (Equiv.subtypeEquivRight fun key => ?_)
  have e2 : (2 : ℝ) ^ 53 = M := by rw [hM]; norm_num
  constructor
  · intro h i hi
    rw [e2]
    obtain rfl | rfl : i = 0 ∨ i = 1 := by omega
    · simp only [mul_zero, add_zero, if_true]
      rw [hnat, ← h]
    · simp only [mul_one, one_ne_zero, if_false]
      rw [hnat, ← h]
  · intro h
    have h0 := h 0 (by norm_num)
    have h1 := h 1 (by norm_num)
    simp only [mul_zero, add_zero, if_true, mul_one, one_ne_zero, if_false] at h0 h1
    rw [e2, hnat, div_left_inj' hM', Nat.cast_inj] at h0 h1
    exact Prod.ext (Fin.ext h0) (Fin.ext h1)

/-- **C112.**  `whv_hype` with the uniform distribution and the generator of the code: the mean of its results over all contents of the array of the
generator is the area of the dominated part of the box up to `2 ^ -52` times the area of the box, for every number of samples. -/
theorem C112_whv_hype_mean (rnd : ℝ → ℝ) (hrnd : Nearest binary64 rnd) (normal : MtState → ℝ × MtState) (pts : ℕ → ℕ → ℝ) (n : ℕ) (ideal ref : ℕ → ℝ) (mx : ℕ → Bool)
    (h : ∀ d < 2, StrictlyBetter (mx d) (ideal d) (ref d)) (nsamples : ℕ) (hN : 0 < nsamples) (pos : ℕ) (h0 : 0 < pos) (hpos : pos ≤ 624) :
    |(∑ key : MtKey, (pyWhvHypeUnif (mtRng rnd normal) pts n ideal ref mx nsamples (key.state pos)).getD 0) / (Fintype.card MtKey : ℝ) -
      vol (dominatedBetween 2 n mx pts ideal ref)| ≤ |ref 0 - ideal 0| * |ref 1 - ideal 1| / 2 ^ 52 := by
  have h' := negMax_lt mx ideal ref h
  obtain ⟨m, rfl⟩ : ∃ m, pos = m + 1 := ⟨pos - 1, by omega⟩
  obtain ⟨M, hM⟩ : ∃ M : ℕ, M = 2 ^ 53 := ⟨_, rfl⟩
  obtain ⟨e, he⟩ : ∃ e : ℕ, 19968 - 53 * 2 = e := ⟨_, rfl⟩
  have hMr : (M : ℝ) = 2 ^ 53 := by rw [hM]; norm_num
  have hMpos : 0 < M := by rw [hM]; positivity
  set D := hypeSet (fun i => negMax mx (pts i)) n (negMax mx ideal) (negMax mx ref) with hD
  set area := (negMax mx ref 0 - negMax mx ideal 0) * (negMax mx ref 1 - negMax mx ideal 1) with harea
  have e0 := sub_pos.2 (h' 0 (by omega))
  have e1 := sub_pos.2 (h' 1 (by omega))
  have hapos : 0 < area := mul_pos e0 e1
  have habs : |ref 0 - ideal 0| * |ref 1 - ideal 1| = area := by
    have : ∀ d < 2, |ref d - ideal d| = negMax mx ref d - negMax mx ideal d := by
      intro d hd
      have := sub_pos.2 (h' d hd)
      rw [← abs_of_pos this]
      unfold negMax
      split
      · rw [← abs_neg]; congr 1; ring
      · rfl
    rw [this 0 (by omega), this 1 (by omega)]
  have hup : IsUpperSet D := by
    rintro u v huv ⟨j, hj, a, b⟩
    refine ⟨j, hj, a.trans ?_, b.trans ?_⟩
    · exact add_le_add_right (mul_le_mul_of_nonneg_right (huv 0) e0.le) _
    · exact add_le_add_right (mul_le_mul_of_nonneg_right (huv 1) e1.le) _
  have hval : ∀ key : MtKey, (pyWhvHypeUnif (mtRng rnd normal) pts n ideal ref mx nsamples (key.state (m + 1))).getD 0 =
      ∑ i ∈ Finset.range nsamples, area / nsamples * D.indicator (1 : (Fin 2 → ℝ) → ℝ)
        ![mtPair (mtTemper (mtSeq key.ext (m + 4 * i + 1))) (mtTemper (mtSeq key.ext (m + 4 * i + 1 + 1))),
          mtPair (mtTemper (mtSeq key.ext (m + 4 * i + 1 + 2))) (mtTemper (mtSeq key.ext (m + 4 * i + 1 + 3)))] := by
    intro key
    unfold pyWhvHypeUnif whvHypeUnif
    rw [uniformSamples_mt hrnd normal (mtSeq_rec key.ext) nsamples (m + 1) _ (mtKey_rep key (m + 1) hpos)]
    have := whvHypeSample_sum (fun i => negMax mx (pts i)) n (negMax mx ideal) (negMax mx ref) h' nsamples
      (fun i => ![mtPair (mtTemper (mtSeq key.ext (m + 1 + 4 * i))) (mtTemper (mtSeq key.ext (m + 1 + 4 * i + 1))),
        mtPair (mtTemper (mtSeq key.ext (m + 1 + 4 * i + 2))) (mtTemper (mtSeq key.ext (m + 1 + 4 * i + 3)))])
    simp only [Matrix.cons_val_zero, Matrix.cons_val_one] at this
    rw [this, Option.getD_some, ← Finset.mul_sum, ← hD, ← harea]
    have hcong : ∀ i, m + 1 + 4 * i = m + 4 * i + 1 := fun i => by ring
    simp only [hcong]
    ring
  have hsum : ∑ key : MtKey, (pyWhvHypeUnif (mtRng rnd normal) pts n ideal ref mx nsamples (key.state (m + 1))).getD 0 =
      area * ((gridIn M D).card * 2 ^ e) := by
    simp only [hval]
    rw [Finset.sum_comm]
    have : ∀ i ∈ Finset.range nsamples, ∑ key : MtKey, area / nsamples * D.indicator (1 : (Fin 2 → ℝ) → ℝ)
        ![mtPair (mtTemper (mtSeq key.ext (m + 4 * i + 1))) (mtTemper (mtSeq key.ext (m + 4 * i + 1 + 1))),
          mtPair (mtTemper (mtSeq key.ext (m + 4 * i + 1 + 2))) (mtTemper (mtSeq key.ext (m + 4 * i + 1 + 3)))] =
        area / nsamples * ((gridIn M D).card * 2 ^ e) := by
      intro i _
      rw [← Finset.mul_sum]
      refine congrArg _ ((sum_indicator_card _ _).trans ?_)
      rw [mt_sample_count (m + 4 * i) M e hM he D, Nat.cast_mul, Nat.cast_pow, Nat.cast_ofNat]
    rw [Finset.sum_congr rfl this, Finset.sum_const, Finset.card_range, nsmul_eq_mul]
    have : (nsamples : ℝ) ≠ 0 := by exact_mod_cast hN.ne'
    field_simp
  have hcardR : (Fintype.card MtKey : ℝ) = (M : ℝ) ^ 2 * 2 ^ e := by
    rw [← Nat.card_eq_fintype_card, mtKey_card, hMr, ← he, Nat.cast_pow, Nat.cast_ofNat, ← pow_mul, ← pow_add]
  have hmean : (∑ key : MtKey, (pyWhvHypeUnif (mtRng rnd normal) pts n ideal ref mx nsamples (key.state (m + 1))).getD 0) / (Fintype.card MtKey : ℝ) =
      area * ((gridIn M D).card / (M : ℝ) ^ 2) := by
    rw [hsum, hcardR, ← mul_assoc, mul_div_mul_right _ _ (pow_ne_zero _ two_ne_zero), mul_div_assoc]
  have hvol : vol (dominatedBetween 2 n mx pts ideal ref) = area * unitSquare.real D := by
    rw [vol_dominatedBetween, ← unitSquare_hypeSet _ _ _ _ h']
  have hlo := grid_lower hMpos D hup
  have hhi := grid_upper hMpos D hup
  rw [hmean, hvol, ← mul_sub, abs_mul, abs_of_pos hapos, habs]
  refine (mul_le_mul_of_nonneg_left (c := (1 / 2 ^ 52 : ℝ)) ?_ hapos.le).trans (le_of_eq (mul_one_div _ _))
  rw [abs_sub_comm, abs_of_nonneg (sub_nonneg.2 hlo)]
  rw [add_div] at hhi
  have : 2 * (M : ℝ) / (M : ℝ) ^ 2 = 1 / 2 ^ 52 := by rw [hMr]; norm_num
  linarith

/-- Non-vacuity: a set of two points in the unit square; both objectives minimised. -/
example : ∃ (pts : ℕ → ℕ → ℝ) (ideal ref : ℕ → ℝ), (∀ d < 2, StrictlyBetter false (ideal d) (ref d)) ∧
    ∃ i < 2, ∀ d < 2, ideal d ≤ pts i d ∧ pts i d < ref d :=
  ⟨fun i d => if i = d then 1 / 4 else 1 / 2, fun _ => 0, fun _ => 1, fun d _ => by norm_num [StrictlyBetter], 0, by norm_num, fun d _ => by
    constructor
    · show (0 : ℝ) ≤ if 0 = d then 1 / 4 else 1 / 2
      split <;> norm_num
    · show (if 0 = d then (1 : ℝ) / 4 else 1 / 2) < 1
      split <;> norm_num⟩

end Moo
