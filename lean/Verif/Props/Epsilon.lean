import Verif.Lemmas.Epsilon
import Verif.Spec.Sets
import Mathlib.Tactic.NormNum

set_option autoImplicit false

/-!
# Properties of the epsilon indicators (`c/epsilon.h`)

`K` is any ordered field (exact arithmetic). `fin e` is the finite value `e`; the C functions may also return an infinity.
-/

namespace Moo

variable {K : Type*} [Field K] [LinearOrder K] [IsStrictOrderedRing K]

theorem epsAddTemp_le_iff (mx : ℕ → Bool) (d : ℕ) (a b c : K) :
    epsAddTemp (minmaxFromBool mx d) a b ≤ c ↔
      AtLeastAsGood (mx d) (if mx d then a + c else a - c) b := by
  unfold epsAddTemp minmaxFromBool AGREE_MAXIMISE AGREE_MINIMISE AtLeastAsGood
  rcases Bool.eq_false_or_eq_true (mx d) with h | h <;> simp [h]
  · constructor <;> intro <;> linarith
  · constructor <;> intro <;> linarith

/-- **C17.** `epsilon_additive(A, R)` is the least `e` such that `A`, with every objective improved by `e`, weakly
dominates `R`. -/
theorem C17_epsilon_additive_least (A R : ℕ → ℕ → K) (nobj nA nR : ℕ) (mx : ℕ → Bool)
    (hd : 0 < nobj) (hA : 0 < nA) (hR : 0 < nR) :
    ∃ e : K, epsilonAdditive A nobj nA R nR mx = fin e ∧
      SetWeakDom nobj mx (fun i => improveAdd mx e (A i)) nA R nR ∧
      ∀ e', SetWeakDom nobj mx (fun i => improveAdd mx e' (A i)) nA R nR → e ≤ e' := by
  obtain ⟨e, he⟩ := epsAdd_finite nobj (minmaxFromBool mx) A nA R nR hd hA hR
  have key : ∀ c, fin e ≤ (fin c : Ext K) ↔ SetWeakDom nobj mx (fun i => improveAdd mx c (A i)) nA R nR := by
    intro c
    rw [← he, epsAdd_le_iff]
    simp only [epsAddTemp_le_iff]
    rfl
  exact ⟨e, he, (key e).1 le_rfl, fun e' h => fin_le_fin.1 ((key e').2 h)⟩

omit [IsStrictOrderedRing K] in
/-- C17, the degenerate cases: an empty reference set gives -∞, an empty set against a non-empty reference gives ∞. -/
theorem C17_epsilon_additive_empty (A R : ℕ → ℕ → K) (nobj nA nR : ℕ) (mx : ℕ → Bool) :
    epsilonAdditive A nobj nA R 0 mx = ⊥ ∧ (0 < nR → epsilonAdditive A nobj 0 R nR mx = ⊤) := by
  constructor
  · rfl
  · intro h
    unfold epsilonAdditive epsilonAdditiveMinmax
    have : ∀ m : Ext K, cMax m (⊤ : Ext K) = ⊤ := by intro m; rw [cMax_eq]; simp
    have h2 : ∀ (l : List ℕ) (m : Ext K), l ≠ [] →
        l.foldl (fun m b => cMax m (epsAddMin nobj (minmaxFromBool mx) A 0 (R b))) m = ⊤ := by
      intro l
      induction l with
      | nil => intro m h; exact absurd rfl h
      | cons a l ih =>
        intro m _
        rw [List.foldl_cons]
        have h1 : epsAddMin nobj (minmaxFromBool mx) A 0 (R a) = ⊤ := rfl
        rw [h1, this]
        by_cases hl : l = []
        · subst hl; rfl
        · exact ih _ hl
    exact h2 _ _ (range_ne_nil h)

/-- C17: the indicator is 0 or less exactly if `A` weakly dominates `R` already. -/
theorem C17_epsilon_additive_nonpos_iff (A R : ℕ → ℕ → K) (nobj nA nR : ℕ) (mx : ℕ → Bool) :
    epsilonAdditive A nobj nA R nR mx ≤ fin 0 ↔ SetWeakDom nobj mx A nA R nR := by
  unfold epsilonAdditive
  rw [epsAdd_le_iff]
  simp only [epsAddTemp_le_iff, add_zero, sub_zero, ite_self]
  rfl

/-- **C18.** With positive values `epsilon_mult(A, R)` is the least factor `e > 0` such that `A`, with every objective improved by
the factor `e`, weakly dominates `R`. -/
theorem C18_epsilon_mult_least (A R : ℕ → ℕ → K) (nobj nA nR : ℕ) (mx : ℕ → Bool)
    (hd : 0 < nobj) (hA : 0 < nA) (hR : 0 < nR)
    (hApos : ∀ a < nA, ∀ d < nobj, 0 < A a d) (hRpos : ∀ r < nR, ∀ d < nobj, 0 < R r d) :
    ∃ e : K, epsilonMult A nobj nA R nR mx = some (fin e) ∧ 0 < e ∧
      SetWeakDom nobj mx (fun i => improveMult mx e (A i)) nA R nR ∧
      ∀ e', 0 < e' → SetWeakDom nobj mx (fun i => improveMult mx e' (A i)) nA R nR → e ≤ e' := by
  have hok := epsMultOuter_ok nobj (minmaxFromBool mx) A nA R (List.range nR) (fin 0)
    (fun b hb a ha d hd => ⟨hApos a ha d hd, hRpos b (List.mem_range.1 hb) d hd⟩)
  have hfin : ∃ e, (List.range nR).foldl (fun m b => cMax m ((List.range nA).foldl
        (fun m a => cMin m (epsMultMaxV nobj (minmaxFromBool mx) (A a) (R b))) ⊤)) (fin 0) = fin e := by
    refine foldMax_finite _ _ (range_ne_nil hR) (fun b _ => ?_) _ (Or.inr ⟨0, rfl⟩)
    refine foldMin_finite _ _ (range_ne_nil hA) (fun a _ => ?_)
    exact foldMax_finite _ _ (range_ne_nil hd) (fun d _ => ⟨_, rfl⟩) _ (Or.inr ⟨0, rfl⟩)
  obtain ⟨e, he⟩ := hfin
  have key : ∀ c, 0 < c → ((fin e : Ext K) ≤ fin c ↔
      SetWeakDom nobj mx (fun i => improveMult mx c (A i)) nA R nR) := by
    intro c hc
    rw [← he, epsMult_le_iff _ _ _ _ _ _ _ hc.le]
    unfold SetWeakDom WeakDom
    refine forall_congr' fun b => forall_congr' fun hb => exists_congr fun a => and_congr_right fun ha =>
      forall_congr' fun d => forall_congr' fun hd => ?_
    have pa := hApos a ha d hd
    have pb := hRpos b hb d hd
    unfold epsMultTemp minmaxFromBool AGREE_MAXIMISE AGREE_MINIMISE AtLeastAsGood improveMult
    rcases Bool.eq_false_or_eq_true (mx d) with h | h <;> simp [h]
    · rw [div_le_iff₀ pa, mul_comm]
    · rw [div_le_iff₀ pb, div_le_iff₀ hc, mul_comm]
  -- the value is positive: it is the maximum of minima of maxima of positive values
  have hle0 : (0 : K) ≤ e := by
    have := ((foldMax_le _ _ _ _).1 he.le).1
    exact fin_le_fin.1 this
  have hpos : 0 < e := by
    rcases hle0.lt_or_eq with h | h
    · exact h
    · exfalso
      have h0 : (fin e : Ext K) ≤ fin 0 := by rw [← h]
      rw [← he, epsMult_le_iff _ _ _ _ _ _ _ le_rfl] at h0
      obtain ⟨a, ha, hh⟩ := h0 0 hR
      have h1 := hh 0 hd
      have pa := hApos a ha 0 hd
      have pb := hRpos 0 hR 0 hd
      unfold epsMultTemp at h1
      split_ifs at h1
      · exact absurd (div_pos pa pb) (not_lt.2 h1)
      · exact absurd (div_pos pb pa) (not_lt.2 h1)
      · exact absurd zero_lt_one (not_lt.2 h1)
  refine ⟨e, ?_, hpos, (key e hpos).1 le_rfl, fun e' he' h => fin_le_fin.1 ((key e' he').2 h)⟩
  unfold epsilonMult epsilonMultMinmax
  rw [hok, he]

/-- **C18 (error).** For non-empty sets `epsilon_mult` reports an error exactly when some value is not positive. -/
theorem C18_epsilon_mult_error_iff (A R : ℕ → ℕ → K) (nobj nA nR : ℕ) (mx : ℕ → Bool)
    (hA : 0 < nA) (hR : 0 < nR) :
    epsilonMult A nobj nA R nR mx = none ↔
      (∃ a < nA, ∃ d < nobj, A a d ≤ 0) ∨ (∃ r < nR, ∃ d < nobj, R r d ≤ 0) := by
  constructor
  · intro h
    by_contra hn
    push Not at hn
    have hok := epsMultOuter_ok nobj (minmaxFromBool mx) A nA R (List.range nR) (fin 0)
      (fun b hb a ha d hd => ⟨hn.1 a ha d hd, hn.2 b (List.mem_range.1 hb) d hd⟩)
    unfold epsilonMult epsilonMultMinmax at h
    rw [hok] at h
    exact absurd h (by simp)
  · intro h
    apply epsMultOuter_err
    rcases h with ⟨a, ha, d, hd, h⟩ | ⟨b, hb, d, hd, h⟩
    · exact ⟨0, List.mem_range.2 hR, a, ha, d, hd, Or.inl h⟩
    · exact ⟨b, List.mem_range.2 hb, 0, hA, d, hd, Or.inr h⟩

/-- **C19.** `epsilon_additive_ind` returns -1 iff `A` weakly dominates `B` as a set and not conversely, 1 for the
converse, and 0 otherwise.  It holds for any directions (also ignored objectives) and for empty sets. -/
theorem C19_epsilon_additive_ind (A B : ℕ → ℕ → K) (dim nA nB : ℕ) (dir : ℕ → ℤ) :
    (epsilonAdditiveInd dim dir A nA B nB = -1 ↔
      SetWeakDomDir dim dir A nA B nB ∧ ¬ SetWeakDomDir dim dir B nB A nA) ∧
    (epsilonAdditiveInd dim dir A nA B nB = 1 ↔
      SetWeakDomDir dim dir B nB A nA ∧ ¬ SetWeakDomDir dim dir A nA B nB) ∧
    (epsilonAdditiveInd dim dir A nA B nB = 0 ↔
      (SetWeakDomDir dim dir A nA B nB ↔ SetWeakDomDir dim dir B nB A nA)) := by
  have key : ∀ (A B : ℕ → ℕ → K) (nA nB : ℕ), epsilonAdditiveMinmax dim dir A nA B nB ≤ fin 0 ↔
      SetWeakDomDir dim dir A nA B nB := by
    intro A B nA nB
    rw [epsAdd_le_iff]
    unfold SetWeakDomDir WeakDomDir
    refine forall_congr' fun b => forall_congr' fun hb => exists_congr fun a => and_congr_right fun ha =>
      forall_congr' fun d => forall_congr' fun hd => ?_
    unfold epsAddTemp
    rcases lt_trichotomy (dir d) 0 with h | h | h
    · simp [h, not_lt.2 h.le]
    · simp [h]
    · simp [h, not_lt.2 h.le]
  unfold epsilonAdditiveInd
  rw [← key A B, ← key B A]
  by_cases h1 : epsilonAdditiveMinmax dim dir A nA B nB ≤ fin 0 <;>
    by_cases h2 : epsilonAdditiveMinmax dim dir B nB A nA ≤ fin 0 <;>
    simp [h1, h2, ← not_le]

/-! ## Non-vacuity -/

/-- A set of two rows, a reference set of two rows, objective 1 maximised: the hypotheses hold, and no hypothesis
forces the value to be trivial. -/
example : ∃ (A R : ℕ → ℕ → ℚ) (mx : ℕ → Bool),
    (∀ a < 2, ∀ d < 2, 0 < A a d) ∧ (∀ r < 2, ∀ d < 2, 0 < R r d) ∧
    ¬ SetWeakDom 2 mx A 2 R 2 ∧ SetWeakDom 2 mx (fun i => improveAdd mx 2 (A i)) 2 R 2 := by
  refine ⟨fun i d => if i = 0 then (if d = 0 then 3 else 2) else 4,
    fun i d => if i = 0 then 2 else (if d = 0 then 3 else 5), fun d => d = 1, ?_, ?_, ?_, ?_⟩
  · intro a _ d _; dsimp only; split_ifs <;> norm_num
  · intro a _ d _; dsimp only; split_ifs <;> norm_num
  · intro h
    obtain ⟨a, ha, h⟩ := h 0 (by omega)
    have := h 0 (by omega)
    simp only [AtLeastAsGood] at this
    rcases a with _ | a
    · norm_num at this
    · norm_num at this
  · intro b hb
    refine ⟨1, by omega, ?_⟩
    intro d hd
    rcases b with _ | b <;> rcases d with _ | _ | d <;> simp [AtLeastAsGood, improveAdd] <;> norm_num

end Moo
