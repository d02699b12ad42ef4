import Verif.Model.Float
import Verif.Lemmas.Float
import Verif.Lemmas.Epsilon
import Mathlib.Tactic.FieldSimp

set_option autoImplicit false

namespace Moo

variable {rnd : ℝ → ℝ}

/-- Rounding of a value that may be infinite. -/
def extMap (rnd : ℝ → ℝ) : Ext ℝ → Ext ℝ := WithBot.map (WithTop.map rnd)

theorem extMap_fin (x : ℝ) : extMap rnd (fin x) = fin (rnd x) := rfl
theorem extMap_bot : extMap rnd ⊥ = ⊥ := rfl
theorem extMap_top : extMap rnd ⊤ = ⊤ := rfl

theorem extMap_mono (h : Monotone rnd) : Monotone (extMap rnd) :=
  (WithBot.monotone_map_iff.2 (WithTop.monotone_map_iff.2 h))

theorem foldMax_map {γ : Type*} (h : Monotone rnd) (f g : γ → Ext ℝ) (hfg : ∀ x, g x = extMap rnd (f x)) (l : List γ) (m : Ext ℝ) :
    l.foldl (fun m x => cMax m (g x)) (extMap rnd m) = extMap rnd (l.foldl (fun m x => cMax m (f x)) m) := by
  induction l generalizing m with
  | nil => rfl
  | cons a l ih =>
    rw [List.foldl_cons, List.foldl_cons, ← ih]
    congr 1
    rw [cMax_eq, cMax_eq, (extMap_mono h).map_max, hfg]

theorem foldMin_map {γ : Type*} (h : Monotone rnd) (f g : γ → Ext ℝ) (hfg : ∀ x, g x = extMap rnd (f x)) (l : List γ) (m : Ext ℝ) :
    l.foldl (fun m x => cMin m (g x)) (extMap rnd m) = extMap rnd (l.foldl (fun m x => cMin m (f x)) m) := by
  induction l generalizing m with
  | nil => rfl
  | cons a l ih =>
    rw [List.foldl_cons, List.foldl_cons, ← ih]
    congr 1
    rw [cMin_eq, cMin_eq, (extMap_mono h).map_min, hfg]

theorem epsAddTempF_eq (h0 : rnd 0 = 0) (dir : ℤ) (a b : ℝ) : epsAddTempF rnd dir a b = rnd (epsAddTemp dir a b) := by
  unfold epsAddTempF epsAddTemp
  split_ifs
  · rfl
  · rfl
  · exact h0.symm

/-- The additive indicator in floating point is the exact one, rounded once. -/
theorem epsAddF_eq (h : Monotone rnd) (h0 : rnd 0 = 0) (dim : ℕ) (minmax : ℕ → ℤ) (A : ℕ → ℕ → ℝ) (sizeA : ℕ) (B : ℕ → ℕ → ℝ) (sizeB : ℕ) :
    epsilonAdditiveMinmaxF rnd dim minmax A sizeA B sizeB = extMap rnd (epsilonAdditiveMinmax dim minmax A sizeA B sizeB) := by
  unfold epsilonAdditiveMinmaxF epsilonAdditiveMinmax
  refine foldMax_map h _ _ (fun b => ?_) _ ⊥
  unfold epsAddMinF epsAddMin
  refine foldMin_map h _ _ (fun a => ?_) _ ⊤
  unfold epsAddMaxF epsAddMax
  refine foldMax_map h _ _ (fun d => ?_) _ ⊥
  rw [extMap_fin, epsAddTempF_eq h0]

theorem epsAddF_le_iff (dim : ℕ) (minmax : ℕ → ℤ) (A : ℕ → ℕ → ℝ) (sizeA : ℕ) (B : ℕ → ℕ → ℝ) (sizeB : ℕ) (c : ℝ) :
    epsilonAdditiveMinmaxF rnd dim minmax A sizeA B sizeB ≤ fin c ↔
      ∀ b < sizeB, ∃ a < sizeA, ∀ d < dim, epsAddTempF rnd (minmax d) (A a d) (B b d) ≤ c := by
  unfold epsilonAdditiveMinmaxF epsAddMinF epsAddMaxF
  rw [foldMax_le]
  simp only [bot_le, true_and, List.mem_range]
  refine forall_congr' fun b => forall_congr' fun _ => ?_
  rw [foldMin_le]
  simp only [not_top_le_fin, false_or, List.mem_range]
  refine exists_congr fun a => and_congr_right fun _ => ?_
  rw [foldMax_le]
  simp only [bot_le, true_and, List.mem_range, fin_le_fin]

theorem epsMultTempF_eq (h1 : rnd 1 = 1) (dir : ℤ) (a b : ℝ) : epsMultTempF rnd dir a b = rnd (epsMultTemp dir a b) := by
  unfold epsMultTempF epsMultTemp
  split_ifs
  · rfl
  · rfl
  · exact h1.symm

theorem epsMultMaxF_eq (h : Monotone rnd) (h0 : rnd 0 = 0) (h1 : rnd 1 = 1) (minmax : ℕ → ℤ) (pa pb : ℕ → ℝ) (l : List ℕ) (m : Ext ℝ) :
    epsMultMaxF rnd minmax pa pb l (extMap rnd m) = (epsMultMax minmax pa pb l m).map (extMap rnd) := by
  induction l generalizing m with
  | nil => rfl
  | cons d l ih =>
    unfold epsMultMaxF epsMultMax
    by_cases hp : pa d ≤ 0 ∨ pb d ≤ 0
    · rw [if_pos hp, if_pos hp]; rfl
    · rw [if_neg hp, if_neg hp]
      push Not at hp
      have ht : 0 ≤ epsMultTemp (minmax d) (pa d) (pb d) := by
        unfold epsMultTemp
        split_ifs
        · exact div_nonneg hp.1.le hp.2.le
        · exact div_nonneg hp.2.le hp.1.le
        · exact zero_le_one
      have htF : 0 ≤ epsMultTempF rnd (minmax d) (pa d) (pb d) := by
        rw [epsMultTempF_eq h1, ← h0]; exact h ht
      dsimp only
      rw [if_neg (not_lt.2 ht), if_neg (not_lt.2 htF), ← ih]
      congr 1
      rw [cMax_eq, cMax_eq, (extMap_mono h).map_max, extMap_fin, epsMultTempF_eq h1]

theorem epsMultMinF_eq (h : Monotone rnd) (h0 : rnd 0 = 0) (h1 : rnd 1 = 1) (dim : ℕ) (minmax : ℕ → ℤ) (A : ℕ → ℕ → ℝ) (pb : ℕ → ℝ) (l : List ℕ)
    (m : Ext ℝ) : epsMultMinF rnd dim minmax A pb l (extMap rnd m) = (epsMultMin dim minmax A pb l m).map (extMap rnd) := by
  induction l generalizing m with
  | nil => rfl
  | cons a l ih =>
    unfold epsMultMinF epsMultMin
    have hz : (fin 0 : Ext ℝ) = extMap rnd (fin 0) := by rw [extMap_fin, h0]
    have := epsMultMaxF_eq h h0 h1 minmax (A a) pb (List.range dim) (fin 0)
    rw [← hz] at this
    rw [this]
    cases epsMultMax minmax (A a) pb (List.range dim) (fin 0) with
    | none => rfl
    | some mx =>
      simp only [Option.map_some]
      rw [← ih]
      congr 1
      rw [cMin_eq, cMin_eq, (extMap_mono h).map_min]

theorem epsMultOuterF_eq (h : Monotone rnd) (h0 : rnd 0 = 0) (h1 : rnd 1 = 1) (dim : ℕ) (minmax : ℕ → ℤ) (A : ℕ → ℕ → ℝ) (sizeA : ℕ)
    (B : ℕ → ℕ → ℝ) (l : List ℕ) (m : Ext ℝ) :
    epsMultOuterF rnd dim minmax A sizeA B l (extMap rnd m) = (epsMultOuter dim minmax A sizeA B l m).map (extMap rnd) := by
  induction l generalizing m with
  | nil => rfl
  | cons b l ih =>
    unfold epsMultOuterF epsMultOuter
    have := epsMultMinF_eq h h0 h1 dim minmax A (B b) (List.range sizeA) ⊤
    rw [extMap_top] at this
    rw [this]
    cases epsMultMin dim minmax A (B b) (List.range sizeA) ⊤ with
    | none => rfl
    | some mx =>
      simp only [Option.map_some]
      rw [← ih]
      congr 1
      rw [cMax_eq, cMax_eq, (extMap_mono h).map_max]

theorem epsMultF_eq (h : Monotone rnd) (h0 : rnd 0 = 0) (h1 : rnd 1 = 1) (data : ℕ → ℕ → ℝ) (nobj npoints : ℕ) (ref : ℕ → ℕ → ℝ) (refSize : ℕ)
    (maximise : ℕ → Bool) :
    epsilonMultF rnd data nobj npoints ref refSize maximise = (epsilonMult data nobj npoints ref refSize maximise).map (extMap rnd) := by
  have hz : (fin 0 : Ext ℝ) = extMap rnd (fin 0) := by rw [extMap_fin, h0]
  unfold epsilonMultF epsilonMult epsilonMultMinmax
  conv_lhs => rw [hz]
  exact epsMultOuterF_eq h h0 h1 _ _ _ _ _ _ _

/-! ### The quotient of two different floating-point numbers -/

theorem binary64_one : (1 : ℝ) ∈ binary64 := ⟨1, 0, by norm_num, by norm_num, by simp⟩

theorem ulpU_val : ulpU = 1 / 9007199254740992 := by
  unfold ulpU
  rw [zpow_neg, show (53 : ℤ) = ((53 : ℕ) : ℤ) from rfl, zpow_natCast]
  norm_num

theorem binary64_gap {a b : ℝ} (ha : a ∈ binary64) (hb : b ∈ binary64) (hpos : 0 < b) (hlt : b < a) : (1 + ulpU) * b < a := by
  obtain ⟨m1, e1, h1, h1', rfl⟩ := ha
  obtain ⟨m2, e2, h2, h2', rfl⟩ := hb
  have p1 : (0 : ℝ) < (2 : ℝ) ^ e1 := zpow_pos (by norm_num) _
  have p2 : (0 : ℝ) < (2 : ℝ) ^ e2 := zpow_pos (by norm_num) _
  have hm2 : 0 < m2 := by
    by_contra hn
    push Not at hn
    have : (m2 : ℝ) ≤ 0 := by exact_mod_cast hn
    nlinarith
  have h1 := (abs_le.1 h1).2
  have h2 := (abs_le.1 h2).2
  have hu := ulpU_val
  rcases le_or_gt e2 e1 with he | he
  · obtain ⟨j, rfl⟩ : ∃ j : ℕ, e1 = e2 + j := ⟨(e1 - e2).toNat, by omega⟩
    have hz : (2 : ℝ) ^ (e2 + (j : ℤ)) = (2 : ℝ) ^ j * (2 : ℝ) ^ e2 := by
      rw [zpow_add₀ (by norm_num), zpow_natCast, mul_comm]
    rw [hz, ← mul_assoc] at hlt ⊢
    have hk : (m2 : ℝ) < m1 * 2 ^ j := lt_of_mul_lt_mul_right hlt p2.le
    have hk' : m2 < m1 * 2 ^ j := by exact_mod_cast hk
    rw [← mul_assoc]
    apply mul_lt_mul_of_pos_right _ p2
    have hk1 : m2 + 1 ≤ m1 * 2 ^ j := hk'
    have hk1r : (m2 : ℝ) + 1 ≤ m1 * 2 ^ j := by exact_mod_cast hk1
    rcases lt_or_eq_of_le h2 with h2 | h2
    · have : (m2 : ℝ) ≤ 9007199254740991 := by
        have : m2 ≤ 9007199254740991 := by omega
        exact_mod_cast this
      have hm2r : (0 : ℝ) < m2 := by exact_mod_cast hm2
      rw [hu]
      refine lt_of_lt_of_le ?_ hk1r
      linarith
    · -- `m2 = 2 ^ 53`: the next multiple is even
      have hk2 : m2 + 2 ≤ m1 * 2 ^ j := by
        rcases Nat.eq_zero_or_pos j with rfl | hj
        · omega
        · obtain ⟨i, rfl⟩ : ∃ i, j = i + 1 := ⟨j - 1, by omega⟩
          have : m1 * 2 ^ (i + 1) = 2 * (m1 * 2 ^ i) := by rw [pow_succ]; ring
          rw [this] at hk1 ⊢
          omega
      have hk2r : (m2 : ℝ) + 2 ≤ m1 * 2 ^ j := by exact_mod_cast hk2
      have : (m2 : ℝ) = 9007199254740992 := by rw [h2]; norm_num
      rw [hu]
      refine lt_of_lt_of_le ?_ hk2r
      rw [this]; norm_num
  · obtain ⟨j, rfl⟩ : ∃ j : ℕ, e2 = e1 + j := ⟨(e2 - e1).toNat, by omega⟩
    have hz : (2 : ℝ) ^ (e1 + (j : ℤ)) = (2 : ℝ) ^ j * (2 : ℝ) ^ e1 := by
      rw [zpow_add₀ (by norm_num), zpow_natCast, mul_comm]
    rw [hz, ← mul_assoc] at hlt ⊢
    have hk : (m2 : ℝ) * 2 ^ j < m1 := lt_of_mul_lt_mul_right hlt p1.le
    have hk' : m2 * 2 ^ j < m1 := by exact_mod_cast hk
    rw [← mul_assoc]
    apply mul_lt_mul_of_pos_right _ p1
    have hk1 : m2 * 2 ^ j + 1 ≤ m1 := hk'
    have hk1r : (m2 : ℝ) * 2 ^ j + 1 ≤ m1 := by exact_mod_cast hk1
    have : (m2 : ℝ) * 2 ^ j ≤ 9007199254740991 := by
      have : m2 * 2 ^ j ≤ 9007199254740991 := by omega
      exact_mod_cast this
    rw [hu]
    refine lt_of_lt_of_le ?_ hk1r
    linarith

theorem Nearest.div_le_one (h : Nearest binary64 rnd) {a b : ℝ} (ha : a ∈ binary64) (hb : b ∈ binary64) (hpos : 0 < b) :
    rnd (a / b) ≤ 1 ↔ a ≤ b := by
  constructor
  · intro h1
    by_contra hlt
    push Not at hlt
    have hg := binary64_gap ha hb hpos hlt
    rw [← lt_div_iff₀ hpos] at hg
    have hs : (1 + 2 * ulpU) ∈ binary64 := by
      refine ⟨4503599627370497, -52, by norm_num, by norm_num, ?_⟩
      rw [ulpU_val, zpow_neg, show (52 : ℤ) = ((52 : ℕ) : ℤ) from rfl, zpow_natCast]
      norm_num
    have hu := ulpU_pos
    rcases le_or_gt (1 + 2 * ulpU) (a / b) with h2 | h2
    · have := h.mono h2
      rw [h.fix hs] at this
      linarith
    · have h3 := h.best (a / b) _ hs
      rw [abs_of_pos (by linarith : 0 < 1 + 2 * ulpU - a / b), abs_sub_comm, abs_of_pos (by linarith)] at h3
      linarith
  · intro h1
    have := h.mono ((_root_.div_le_one hpos).2 h1)
    rwa [h.fix binary64_one] at this

end Moo
