import Verif.Spec.Random
import Verif.Model.Mt19937
import Mathlib.Tactic.Ring
import Mathlib.Tactic.Linarith
import Mathlib.Data.Fintype.Pigeonhole
import Mathlib.Data.Fintype.BigOperators

/-!
# Lemmas about the Mersenne twister
-/

set_option autoImplicit false

namespace Moo

theorem mtMix_eq (y : BitVec 32) : mtMix y = twistA y := by
  unfold mtMix twistA
  have h : y &&& 1#32 = if y.getLsbD 0 then 1#32 else 0#32 := by
    ext i hi
    by_cases h0 : i = 0
    · subst h0
      by_cases hy : y.getLsbD 0 <;> simp_all
    · by_cases hy : y.getLsbD 0
      · rw [if_pos hy]; simp [h0]
      · rw [if_neg hy]; simp [h0]
  rw [h]
  by_cases hy : y.getLsbD 0
  · rw [if_pos hy, if_pos hy]; rfl
  · rw [if_neg hy, if_neg hy]; simp

theorem upperLower_getLsbD (u l : BitVec 32) {b : ℕ} (hb : b < 32) : (upperLower u l).getLsbD b = if b = 31 then u.getLsbD 31 else l.getLsbD b := by
  unfold upperLower
  rw [BitVec.getLsbD_append]
  by_cases h : b = 31
  · subst h; simp
  · have h' : b < 31 := by omega
    simp [h, h']

theorem mtY_eq (key : ℕ → BitVec 32) (i j : ℕ) : mtY key i j = upperLower (key i) (key j) := by
  unfold mtY
  apply BitVec.eq_of_getLsbD_eq
  intro b hb
  have h1 : ∀ b : Fin 32, (0x80000000#32).getLsbD b = decide (b.1 = 31) := by decide
  have h2 : ∀ b : Fin 32, (0x7fffffff#32).getLsbD b = decide (b.1 ≠ 31) := by decide
  rw [upperLower_getLsbD _ _ hb, BitVec.getLsbD_or, BitVec.getLsbD_and, BitVec.getLsbD_and]
  have h1' := h1 ⟨b, hb⟩
  have h2' := h2 ⟨b, hb⟩
  dsimp only at h1' h2'
  rw [h1', h2']
  by_cases h : b = 31
  · subst h; simp
  · simp [h]

/-! ## Injectivity -/

theorem eq_zero_of_shift (g : BitVec 32 → BitVec 32) (hg : ∀ d, (∀ i < 32, (g d).getLsbD i → ∃ j < i, d.getLsbD j)) (d : BitVec 32) (h : d = g d) : d = 0#32 := by
  apply BitVec.eq_of_getLsbD_eq
  intro i
  induction i using Nat.strong_induction_on with
  | _ i ih =>
    intro hi
    by_contra hne
    have : d.getLsbD i = true := by simpa using hne
    rw [h] at this
    obtain ⟨j, hj, hdj⟩ := hg d i hi this
    have := ih j hj (by omega)
    rw [hdj] at this
    simp at this

theorem eq_zero_of_shift_right (g : BitVec 32 → BitVec 32) (hg : ∀ d, (∀ i < 32, (g d).getLsbD i → ∃ j, i < j ∧ j < 32 ∧ d.getLsbD j)) (d : BitVec 32) (h : d = g d) : d = 0#32 := by
  apply BitVec.eq_of_getLsbD_eq
  have key : ∀ k i, i < 32 → 31 - i = k → d.getLsbD i = false := by
    intro k
    induction k using Nat.strong_induction_on with
    | _ k ih =>
      intro i hi hk
      by_contra hne
      have : d.getLsbD i = true := by simpa using hne
      rw [h] at this
      obtain ⟨j, hj, hj2, hdj⟩ := hg d i hi this
      have := ih (31 - j) (by omega) j hj2 rfl
      rw [hdj] at this
      simp at this
  intro i hi
  rw [key _ i hi rfl]; simp

theorem xor_self_shr_injective (k : ℕ) (hk : 0 < k) : Function.Injective (fun y : BitVec 32 => y ^^^ (y >>> k)) := by
  intro y z h
  dsimp only at h
  have hd : (y ^^^ z) = (y ^^^ z) >>> k := by
    rw [BitVec.ushiftRight_xor_distrib]
    have : y ^^^ z ^^^ (y >>> k ^^^ z >>> k) = 0#32 := by
      have e : y ^^^ z ^^^ (y >>> k ^^^ z >>> k) = (y ^^^ y >>> k) ^^^ (z ^^^ z >>> k) := by
        ac_rfl
      rw [e, h, BitVec.xor_self]
    exact BitVec.xor_eq_zero_iff.mp this
  have := eq_zero_of_shift_right (fun d => d >>> k) (fun d i hi hb => ⟨k + i, by omega, by
    rw [BitVec.getLsbD_ushiftRight] at hb
    exact BitVec.lt_of_getLsbD hb, by rwa [BitVec.getLsbD_ushiftRight] at hb⟩) _ hd
  exact BitVec.xor_eq_zero_iff.mp this

theorem xor_self_shl_and_injective (k : ℕ) (hk : 0 < k) (m : BitVec 32) : Function.Injective (fun y : BitVec 32 => y ^^^ ((y <<< k) &&& m)) := by
  intro y z h
  dsimp only at h
  have hd : (y ^^^ z) = ((y ^^^ z) <<< k) &&& m := by
    rw [BitVec.shiftLeft_xor_distrib]
    have e0 : (y <<< k ^^^ z <<< k) &&& m = (y <<< k &&& m) ^^^ (z <<< k &&& m) := by
      ext i hi
      simp only [BitVec.getElem_and, BitVec.getElem_xor]
      cases (y <<< k)[i] <;> cases (z <<< k)[i] <;> cases m[i] <;> rfl
    rw [e0]
    have : y ^^^ z ^^^ ((y <<< k &&& m) ^^^ (z <<< k &&& m)) = 0#32 := by
      have e : y ^^^ z ^^^ ((y <<< k &&& m) ^^^ (z <<< k &&& m)) = (y ^^^ (y <<< k &&& m)) ^^^ (z ^^^ (z <<< k &&& m)) := by
        ac_rfl
      rw [e, h, BitVec.xor_self]
    exact BitVec.xor_eq_zero_iff.mp this
  have := eq_zero_of_shift (fun d => (d <<< k) &&& m) (fun d i hi hb => ⟨i - k, by
    rw [BitVec.getLsbD_and, BitVec.getLsbD_shiftLeft] at hb
    simp only [Bool.and_eq_true, Bool.not_eq_true', decide_eq_true_eq, decide_eq_false_iff_not] at hb
    omega, by
    rw [BitVec.getLsbD_and, BitVec.getLsbD_shiftLeft] at hb
    simp only [Bool.and_eq_true] at hb
    exact hb.1.2⟩) _ hd
  exact BitVec.xor_eq_zero_iff.mp this

theorem mtTemper_injective : Function.Injective mtTemper := by
  intro y z h
  unfold mtTemper at h
  exact xor_self_shr_injective 11 (by norm_num) (xor_self_shl_and_injective 7 (by norm_num) _
    (xor_self_shl_and_injective 15 (by norm_num) _ (xor_self_shr_injective 18 (by norm_num) h)))

theorem twistA_injective : Function.Injective twistA := by
  intro y z h
  have hmsb : ∀ y : BitVec 32, (twistA y).getLsbD 31 = y.getLsbD 0 := by
    intro y
    unfold twistA
    split_ifs with h0
    · rw [h0]; simp
    · simp at h0; simp [h0]
  have h0 : y.getLsbD 0 = z.getLsbD 0 := by rw [← hmsb, ← hmsb, h]
  have h1 : y >>> 1 = z >>> 1 := by
    unfold twistA at h
    rw [h0] at h
    split_ifs at h
    · have := congrArg (· ^^^ 0x9908b0df#32) h
      simpa [BitVec.xor_assoc] using this
    · exact h
  apply BitVec.eq_of_getLsbD_eq
  intro i hi
  rcases Nat.eq_zero_or_pos i with rfl | hp
  · exact h0
  · have := congrArg (fun v => v.getLsbD (i - 1)) h1
    simp only [BitVec.getLsbD_ushiftRight] at this
    have e : 1 + (i - 1) = i := by omega
    rwa [e] at this

theorem seedMix_injective (c : BitVec 32) : Function.Injective (fun s : BitVec 32 => 1812433253#32 * (s ^^^ (s >>> 30)) + c) := by
  intro s t h
  dsimp only at h
  have h1 : 1812433253#32 * (s ^^^ (s >>> 30)) = 1812433253#32 * (t ^^^ (t >>> 30)) := by
    have := congrArg (· - c) h
    simpa using this
  have hinv : 2520285293#32 * 1812433253#32 = 1#32 := by decide
  have h2 := congrArg (2520285293#32 * ·) h1
  simp only [← BitVec.mul_assoc, hinv, BitVec.one_mul] at h2
  exact xor_self_shr_injective 30 (by norm_num) h2

/-! ## The sequence -/

theorem upperLower_inj {u l u' l' : BitVec 32} (h : upperLower u l = upperLower u' l') :
    u.getLsbD 31 = u'.getLsbD 31 ∧ ∀ b < 31, l.getLsbD b = l'.getLsbD b := by
  have hb : ∀ b < 32, (upperLower u l).getLsbD b = (upperLower u' l').getLsbD b := fun b _ => by rw [h]
  refine ⟨?_, fun b hb' => ?_⟩
  · have := hb 31 (by norm_num)
    rwa [upperLower_getLsbD _ _ (by norm_num), upperLower_getLsbD _ _ (by norm_num), if_pos rfl, if_pos rfl] at this
  · have := hb b (by omega)
    rwa [upperLower_getLsbD _ _ (by omega), upperLower_getLsbD _ _ (by omega), if_neg (by omega), if_neg (by omega)] at this

/-- The part of the state that matters: the upper bit of `x k` and the following 623 words. -/
def MtAgree (x y : ℕ → BitVec 32) (i j : ℕ) : Prop :=
  (x i).getLsbD 31 = (y j).getLsbD 31 ∧ ∀ d, 0 < d → d < 624 → x (i + d) = y (j + d)

theorem mtAgree_pred {x y : ℕ → BitVec 32} (hx : MtRecurrence x) (hy : MtRecurrence y) {i j : ℕ} (h : MtAgree x y (i + 1) (j + 1)) : MtAgree x y i j := by
  have h624 : x (i + 624) = y (j + 624) := by
    have := h.2 623 (by norm_num) (by norm_num)
    rwa [show i + 1 + 623 = i + 624 by ring, show j + 1 + 623 = j + 624 by ring] at this
  have h397 : x (i + 397) = y (j + 397) := by
    have := h.2 396 (by norm_num) (by norm_num)
    rwa [show i + 1 + 396 = i + 397 by ring, show j + 1 + 396 = j + 397 by ring] at this
  rw [hx i, hy j, h397] at h624
  have h1 : twistA (upperLower (x i) (x (i + 1))) = twistA (upperLower (y j) (y (j + 1))) := by
    have := congrArg (y (j + 397) ^^^ ·) h624
    simpa [← BitVec.xor_assoc] using this
  obtain ⟨ha, hb⟩ := upperLower_inj (twistA_injective h1)
  refine ⟨ha, fun d hd hd' => ?_⟩
  rcases Nat.lt_or_ge 1 d with hd1 | hd1
  · have := h.2 (d - 1) (by omega) (by omega)
    rwa [show i + 1 + (d - 1) = i + d by omega, show j + 1 + (d - 1) = j + d by omega] at this
  · have : d = 1 := by omega
    subst this
    apply BitVec.eq_of_getLsbD_eq
    intro b hb'
    rcases Nat.lt_or_ge b 31 with h31 | h31
    · exact hb b h31
    · have : b = 31 := by omega
      subst this
      exact h.1

theorem mtAgree_back {x y : ℕ → BitVec 32} (hx : MtRecurrence x) (hy : MtRecurrence y) (n : ℕ) {i j : ℕ} (h : MtAgree x y (i + n) (j + n)) : MtAgree x y i j := by
  induction n with
  | zero => exact h
  | succ n ih => exact ih (mtAgree_pred hx hy h)

theorem mtAgree_succ {x y : ℕ → BitVec 32} (hx : MtRecurrence x) (hy : MtRecurrence y) {i j : ℕ} (h : MtAgree x y i j) : MtAgree x y (i + 1) (j + 1) := by
  refine ⟨by rw [h.2 1 (by norm_num) (by norm_num)], fun d hd hd' => ?_⟩
  rcases Nat.lt_or_ge d 623 with h1 | h1
  · have := h.2 (d + 1) (by omega) (by omega)
    rwa [show i + 1 + d = i + (d + 1) by ring, show j + 1 + d = j + (d + 1) by ring]
  · have : d = 623 := by omega
    subst this
    rw [show i + 1 + 623 = i + 624 by ring, show j + 1 + 623 = j + 624 by ring, hx i, hy j, h.2 397 (by norm_num) (by norm_num)]
    have e : upperLower (x i) (x (i + 1)) = upperLower (y j) (y (j + 1)) := by
      apply BitVec.eq_of_getLsbD_eq
      intro b hb
      rw [upperLower_getLsbD _ _ hb, upperLower_getLsbD _ _ hb, h.1, h.2 1 (by norm_num) (by norm_num)]
    rw [e]

theorem mtAgree_forward {x y : ℕ → BitVec 32} (hx : MtRecurrence x) (hy : MtRecurrence y) (n : ℕ) {i j : ℕ} (h : MtAgree x y i j) : MtAgree x y (i + n) (j + n) := by
  induction n with
  | zero => exact h
  | succ n ih => exact mtAgree_succ hx hy ih

/-- The part of the state that matters, as an element of a finite type. -/
def mtReduced (x : ℕ → BitVec 32) (i : ℕ) : Bool × (Fin 623 → Fin (2 ^ 32)) := ((x i).getLsbD 31, fun d => (x (i + (d + 1))).toFin)

theorem mtReduced_eq {x y : ℕ → BitVec 32} {i j : ℕ} (h : mtReduced x i = mtReduced y j) : MtAgree x y i j := by
  unfold mtReduced at h
  rw [Prod.mk.injEq] at h
  refine ⟨h.1, fun d hd hd' => ?_⟩
  have := congrFun h.2 ⟨d - 1, by omega⟩
  dsimp only at this
  rw [show d - 1 + 1 = d by omega] at this
  exact BitVec.toFin_inj.mp this

/-- The sequence is purely periodic. -/
theorem mt_periodic {x : ℕ → BitVec 32} (hx : MtRecurrence x) : ∃ p, 0 < p ∧ ∀ n, 0 < n → x (n + p) = x n := by
  obtain ⟨i, j, hij, h⟩ := Finite.exists_ne_map_eq_of_infinite (mtReduced x)
  wlog hlt : i < j generalizing i j
  · exact this j i hij.symm h.symm (by omega)
  obtain ⟨p, rfl⟩ := Nat.exists_eq_add_of_lt hlt
  have ha : MtAgree x x (0 + i) (p + 1 + i) := by
    have := mtReduced_eq h
    rw [show i + p + 1 = p + 1 + i by ring] at this
    rwa [zero_add]
  have h0 := mtAgree_back hx hx i ha
  refine ⟨p + 1, by omega, fun n hn => ?_⟩
  have := (mtAgree_forward hx hx (n - 1) h0).2 1 (by norm_num) (by norm_num)
  rw [show 0 + (n - 1) + 1 = n by omega, show p + 1 + (n - 1) + 1 = n + (p + 1) by omega] at this
  exact this.symm

theorem mt_init_inj {x y : ℕ → BitVec 32} {s t : BitVec 32} (hx : MtInit s x) (hy : MtInit t y) (h : x 1 = y 1) : s = t := by
  have h1 := hx.2 0 (by norm_num)
  have h2 := hy.2 0 (by norm_num)
  rw [hx.1] at h1
  rw [hy.1] at h2
  rw [zero_add] at h1 h2
  rw [h1, h2] at h
  exact seedMix_injective _ h

theorem mt_agree_of_window {x y : ℕ → BitVec 32} (hx : MtRecurrence x) (hy : MtRecurrence y) {i : ℕ} (h : ∀ d < 624, x (i + d) = y (i + d)) : MtAgree x y 0 0 := by
  have : MtAgree x y (0 + i) (0 + i) := by
    refine ⟨?_, fun d _ hd' => ?_⟩
    · have := h 0 (by norm_num)
      rw [add_zero] at this
      rw [zero_add, this]
    · rw [zero_add]; exact h d hd'
  exact mtAgree_back hx hy i this

/-- No window of 624 words is zero. -/
theorem mt_window_ne_zero {x : ℕ → BitVec 32} {s : BitVec 32} (hx : MtRecurrence x) (hi : MtInit s x) (n : ℕ) : ∃ d < 624, x (n + d) ≠ 0#32 := by
  by_contra hcon
  push Not at hcon
  have h0 : MtRecurrence (fun _ => 0#32) := fun k => (by decide : 0#32 = 0#32 ^^^ twistA (upperLower 0#32 0#32))
  have ha := mt_agree_of_window hx h0 (i := n) (fun d hd => hcon d hd)
  have h1 : x 1 = 0#32 := by simpa using ha.2 1 (by norm_num) (by norm_num)
  have h2 : x 2 = 0#32 := by simpa using ha.2 2 (by norm_num) (by norm_num)
  have := hi.2 1 (by norm_num)
  rw [show 1 + 1 = 2 by rfl, h1, h2] at this
  revert this
  decide

/-! ## The model computes the sequence -/

/-- The state holds the words `x b, ..., x (b + 623)`. -/
def MtBlock (x : ℕ → BitVec 32) (b : ℕ) (key : ℕ → BitVec 32) : Prop := ∀ i < 624, key i = x (b + i)

theorem mtGen_loop1 {x : ℕ → BitVec 32} (hx : MtRecurrence x) (b : ℕ) (key : ℕ → BitVec 32) (h : MtBlock x b key) (n : ℕ) (hn : n ≤ 227) :
    ∀ i < 624, (List.range n).foldl mtGenStep1 key i = if i < n then x (b + 624 + i) else x (b + i) := by
  induction n with
  | zero => intro i hi; rw [List.range_zero, List.foldl_nil, if_neg (by omega)]; exact h i hi
  | succ n ih =>
    intro i hi
    have ih := ih (by omega)
    rw [List.range_succ, List.foldl_append, List.foldl_cons, List.foldl_nil]
    set k := (List.range n).foldl mtGenStep1 key
    unfold mtGenStep1
    rw [upd_apply]
    by_cases hin : i = n
    · subst hin
      rw [if_pos rfl, if_pos (by omega), mtY_eq, mtMix_eq, ih (i + 397) (by omega), ih i hi, ih (i + 1) (by omega), if_neg (by omega), if_neg (by omega), if_neg (by omega)]
      have := hx (b + i)
      rw [show b + i + 624 = b + 624 + i by ring, show b + i + 397 = b + (i + 397) by ring, show b + i + 1 = b + (i + 1) by ring] at this
      exact this.symm
    · rw [if_neg hin, ih i hi]
      by_cases h1 : i < n
      · rw [if_pos h1, if_pos (by omega)]
      · rw [if_neg h1, if_neg (by omega)]

theorem mtGen_loop2 {x : ℕ → BitVec 32} (hx : MtRecurrence x) (b : ℕ) (key : ℕ → BitVec 32)
    (h : ∀ i < 624, key i = if i < 227 then x (b + 624 + i) else x (b + i)) (n : ℕ) (hn : n ≤ 396) :
    ∀ i < 624, (List.range' 227 n).foldl mtGenStep2 key i = if i < 227 + n then x (b + 624 + i) else x (b + i) := by
  induction n with
  | zero => intro i hi; exact h i hi
  | succ n ih =>
    intro i hi
    have ih := ih (by omega)
    rw [List.range'_concat, List.foldl_append, List.foldl_cons, List.foldl_nil, one_mul]
    set k := (List.range' 227 n).foldl mtGenStep2 key
    unfold mtGenStep2
    rw [upd_apply]
    by_cases hin : i = 227 + n
    · subst hin
      rw [if_pos rfl, if_pos (by omega), mtY_eq, mtMix_eq, ih (227 + n - 227) (by omega), ih (227 + n) hi, ih (227 + n + 1) (by omega), if_pos (by omega), if_neg (by omega), if_neg (by omega)]
      have := hx (b + (227 + n))
      rw [show b + (227 + n) + 624 = b + 624 + (227 + n) by ring, show b + (227 + n) + 397 = b + 624 + (227 + n - 227) by omega,
        show b + (227 + n) + 1 = b + (227 + n + 1) by ring] at this
      exact this.symm
    · rw [if_neg hin, ih i hi]
      by_cases h1 : i < 227 + n
      · rw [if_pos h1, if_pos (by omega)]
      · rw [if_neg h1, if_neg (by omega)]

theorem mtGen_spec {x : ℕ → BitVec 32} (hx : MtRecurrence x) (b : ℕ) (s : MtState) (h : MtBlock x b s.key) : MtBlock x (b + 624) (mtGen s).key ∧ (mtGen s).pos = 0 := by
  refine ⟨?_, rfl⟩
  intro i hi
  have h1 := mtGen_loop1 hx b s.key h 227 le_rfl
  have h2 := mtGen_loop2 hx b _ h1 396 le_rfl
  unfold mtGen
  dsimp only
  set k := (List.range' 227 396).foldl mtGenStep2 ((List.range 227).foldl mtGenStep1 s.key)
  rw [upd_apply]
  by_cases hin : i = 623
  · subst hin
    rw [if_pos rfl, mtY_eq, mtMix_eq, h2 396 (by omega), h2 623 (by omega), h2 0 (by omega), if_pos (by omega), if_neg (by omega), if_pos (by omega)]
    have := hx (b + 623)
    rw [show b + 623 + 624 = b + 624 + 623 by ring, show b + 623 + 397 = b + 624 + 396 by ring, show b + 623 + 1 = b + 624 + 0 by ring] at this
    exact this.symm
  · rw [if_neg hin, h2 i hi, if_pos (by omega)]

/-- The state whose next word is `x n`. -/
def MtRep (x : ℕ → BitVec 32) (n : ℕ) (s : MtState) : Prop := ∃ b, MtBlock x b s.key ∧ s.pos ≤ 624 ∧ n = b + s.pos

theorem mtNext_spec {x : ℕ → BitVec 32} (hx : MtRecurrence x) {n : ℕ} {s : MtState} (h : MtRep x n s) : ∃ s', mtNext s = some (mtTemper (x n), s') ∧ MtRep x (n + 1) s' := by
  obtain ⟨b, hb, hpos, rfl⟩ := h
  obtain ⟨s1, hs1⟩ : ∃ s1, s1 = if s.pos = 624 then mtGen s else s := ⟨_, rfl⟩
  have h1 : ∃ b', MtBlock x b' s1.key ∧ s1.pos < 624 ∧ b + s.pos = b' + s1.pos := by
    by_cases hp : s.pos = 624
    · rw [if_pos hp] at hs1
      subst hs1
      obtain ⟨h1, h2⟩ := mtGen_spec hx b s hb
      exact ⟨b + 624, h1, by rw [h2]; norm_num, by rw [h2, hp]⟩
    · rw [if_neg hp] at hs1
      subst hs1
      exact ⟨b, hb, by omega, rfl⟩
  obtain ⟨b', hb', hlt, heq⟩ := h1
  refine ⟨{ key := s1.key, pos := s1.pos + 1 }, ?_, b', hb', hlt, by dsimp only; omega⟩
  unfold mtNext
  simp only [← hs1]
  rw [if_pos hlt, hb' _ hlt, heq]
  rfl

theorem mtWords_spec {x : ℕ → BitVec 32} (hx : MtRecurrence x) (k n : ℕ) (s : MtState) (h : MtRep x n s) :
    ∃ s', mtWords k s = some ((List.range k).map (fun i => mtTemper (x (n + i))), s') ∧ MtRep x (n + k) s' := by
  induction k generalizing n s with
  | zero => exact ⟨s, rfl, h⟩
  | succ k ih =>
    obtain ⟨s1, h1, h1'⟩ := mtNext_spec hx h
    obtain ⟨s2, h2, h2'⟩ := ih (n + 1) s1 h1'
    refine ⟨s2, ?_, by rwa [show n + (k + 1) = n + 1 + k by ring]⟩
    rw [mtWords, h1]
    dsimp only
    rw [h2, List.range_succ_eq_map, List.map_cons, List.map_map]
    dsimp only
    congr 3
    refine List.map_congr_left (fun i _ => ?_)
    show mtTemper (x (n + 1 + i)) = mtTemper (x (n + (i + 1)))
    rw [show n + 1 + i = n + (i + 1) by ring]

theorem mtSeedLoop_spec {x : ℕ → BitVec 32} {seed : BitVec 32} (hx : MtInit seed x) (k n : ℕ) (hn : n + k = 624) (key : ℕ → BitVec 32) (h : ∀ i < n, key i = x i)
    (sd : BitVec 32) (hs : n < 624 → sd = x n) :
    ∀ i < 624, mtSeedLoop (List.range' n k) sd key i = x i := by
  induction k generalizing n key sd with
  | zero => intro i hi; exact h i (by omega)
  | succ k ih =>
    rw [List.range'_succ, mtSeedLoop]
    apply ih (n + 1) (by omega)
    · intro i hi
      rw [upd_apply]
      by_cases hin : i = n
      · subst hin; rw [if_pos rfl]; exact hs (by omega)
      · rw [if_neg hin]; exact h i (by omega)
    · intro hlt
      rw [hs (by omega), hx.2 n hlt, BitVec.add_assoc]
      congr 1
      rw [BitVec.ofNat_add]

theorem mtSeed_spec {x : ℕ → BitVec 32} {seed : BitVec 32} (hx : MtInit seed x) (key0 : ℕ → BitVec 32) : MtRep x 624 (mtSeed key0 seed) := by
  refine ⟨0, ?_, le_rfl, rfl⟩
  intro i hi
  rw [zero_add]
  unfold mtSeed
  dsimp only
  rw [List.range_eq_range']
  exact mtSeedLoop_spec hx 624 0 rfl key0 (fun i hi => absurd hi (by omega)) seed (fun _ => hx.1.symm) i hi

/-- The sequence exists and is unique. -/
theorem mt_exists (seed : BitVec 32) : ∃! x : ℕ → BitVec 32, MtInit seed x ∧ MtRecurrence x := by
  let f : (n : ℕ) → ((m : ℕ) → m < n → BitVec 32) → BitVec 32 := fun n ih =>
    if h0 : n = 0 then seed
    else if h1 : n < 624 then 1812433253#32 * (ih (n - 1) (by omega) ^^^ (ih (n - 1) (by omega) >>> 30)) + BitVec.ofNat 32 n
    else ih (n - 624 + 397) (by omega) ^^^ twistA (upperLower (ih (n - 624) (by omega)) (ih (n - 624 + 1) (by omega)))
  let x : ℕ → BitVec 32 := fun n => Nat.strongRec (motive := fun _ => BitVec 32) f n
  have hfix : ∀ n, x n = f n (fun m _ => x m) := by
    intro n
    exact Nat.strongRec_eq (motive := fun _ => BitVec 32) f n
  have hinit : MtInit seed x := by
    refine ⟨by rw [hfix]; simp [f], fun k hk => ?_⟩
    rw [hfix]
    simp only [f]
    rw [dif_neg (by omega), dif_pos hk]
    simp
  have hrec : MtRecurrence x := by
    intro k
    rw [hfix]
    simp only [f]
    rw [dif_neg (by omega), dif_neg (by omega)]
    simp
  refine ⟨x, ⟨hinit, hrec⟩, ?_⟩
  rintro y ⟨hi, hr⟩
  funext n
  induction n using Nat.strong_induction_on with
  | _ n ih =>
    by_cases h0 : n = 0
    · subst h0; rw [hi.1, hinit.1]
    by_cases h1 : n < 624
    · obtain ⟨m, rfl⟩ : ∃ m, n = m + 1 := ⟨n - 1, by omega⟩
      rw [hi.2 m h1, hinit.2 m h1, ih m (by omega)]
    · obtain ⟨m, rfl⟩ : ∃ m, n = m + 624 := ⟨n - 624, by omega⟩
      rw [hr m, hrec m, ih m (by omega), ih (m + 1) (by omega), ih (m + 397) (by omega)]

end Moo
