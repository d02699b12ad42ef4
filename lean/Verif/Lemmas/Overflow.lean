import Verif.Spec.Overflow
import Verif.Lemmas.FloatHvTop
import Verif.Lemmas.Epsilon

/-!
# Arithmetic with and without a largest exponent agree on small numbers
-/

set_option autoImplicit false
set_option linter.unusedSectionVars false

namespace Moo

/-- Every machine rounding extends a rounding without a largest exponent. -/
theorem Machine64.extend {f : ℝ → ℝ} (hf : Machine64 f) : ∃ rnd, Nearest binary64 rnd ∧ ∀ z, |z| ≤ 2 ^ 1023 → f z = rnd z := by
  obtain ⟨r0, h0⟩ := exists_nearest64
  classical
  refine ⟨fun z => if |z| ≤ 2 ^ 1023 then f z else r0 z, ⟨fun z => ?_, fun z y hy => ?_⟩, fun z hz => by simp only [if_pos hz]⟩
  · split
    · rename_i h; exact (hf z h).1
    · exact h0.mem z
  · split
    · rename_i h; exact (hf z h).2 y hy
    · exact h0.best z y hy

/-- A rounding without a largest exponent is a machine rounding. -/
theorem Nearest.machine {rnd : ℝ → ℝ} (h : Nearest binary64 rnd) : Machine64 rnd := fun z _ => ⟨h.mem z, h.best z⟩

/-- Two roundings that agree up to `2 ^ 1023`. -/
structure SameUpTo (f g : ℝ → ℝ) : Prop where
  near : Nearest binary64 g
  eq : ∀ z, |z| ≤ 2 ^ 1023 → f z = g z

theorem binary64_mul_pow {c e : ℕ} (hc : c ≤ 2 ^ 53) : (c : ℝ) * 2 ^ e ∈ binary64 :=
  ⟨c, e, by rw [abs_of_nonneg (by positivity)]; exact_mod_cast hc, by omega, by simp⟩

theorem Nearest.abs_le {g : ℝ → ℝ} (hg : Nearest binary64 g) {z b : ℝ} (hb : b ∈ binary64) (h : |z| ≤ b) : |g z| ≤ b := by
  rw [_root_.abs_le] at h ⊢
  have h1 := hg.mono h.1
  have h2 := hg.mono h.2
  rw [hg.fix hb] at h2
  rw [hg.fix (binary64_neg hb)] at h1
  exact ⟨h1, h2⟩

variable {f g : ℝ → ℝ}

/-- One operation. -/
theorem SameUpTo.op (h : SameUpTo f g) {z : ℝ} (c κ e : ℕ) (hz : |z| ≤ c * 2 ^ e) (hc : c ≤ 2 ^ κ) (hκ : κ ≤ 53) (hcap : κ + e ≤ 1023) :
    f z = g z ∧ |g z| ≤ c * 2 ^ e := by
  have hc53 : c ≤ 2 ^ 53 := hc.trans (Nat.pow_le_pow_right (by norm_num) hκ)
  refine ⟨h.eq z (hz.trans ?_), h.near.abs_le (binary64_mul_pow hc53) hz⟩
  calc (c : ℝ) * 2 ^ e ≤ 2 ^ κ * 2 ^ e := mul_le_mul_of_nonneg_right (by exact_mod_cast hc) (by positivity)
    _ = 2 ^ (κ + e) := by rw [pow_add]
    _ ≤ 2 ^ 1023 := pow_le_pow_right₀ (by norm_num) hcap

theorem SameUpTo.op1 (h : SameUpTo f g) {z : ℝ} (e : ℕ) (hz : |z| ≤ 2 ^ e) (hcap : e ≤ 1023) : f z = g z ∧ |g z| ≤ 2 ^ e := by
  have := h.op 1 0 e (by simpa using hz) (by simp) (by norm_num) (by omega)
  simpa using this

theorem abs_mul_le {a b A B : ℝ} (ha : |a| ≤ A) (hb : |b| ≤ B) : |a * b| ≤ A * B := by
  rw [abs_mul]; exact mul_le_mul ha hb (abs_nonneg _) ((abs_nonneg _).trans ha)

theorem abs_add_le' {a b A B : ℝ} (ha : |a| ≤ A) (hb : |b| ≤ B) : |a + b| ≤ A + B := (abs_add_le _ _).trans (add_le_add ha hb)

theorem abs_sub_le' {a b A B : ℝ} (ha : |a| ≤ A) (hb : |b| ≤ B) : |a - b| ≤ A + B := (abs_sub _ _).trans (add_le_add ha hb)

/-- Differences of two numbers up to `2 ^ m`. -/
theorem SameUpTo.sub (h : SameUpTo f g) {a b : ℝ} (m : ℕ) (ha : |a| ≤ 2 ^ m) (hb : |b| ≤ 2 ^ m) (hcap : m + 1 ≤ 1023) :
    f (a - b) = g (a - b) ∧ |g (a - b)| ≤ 2 ^ (m + 1) := by
  refine h.op1 (m + 1) ((abs_sub_le' ha hb).trans (by rw [pow_succ]; linarith)) hcap

/-- Products. -/
theorem SameUpTo.mul (h : SameUpTo f g) {a b : ℝ} (c κ e e' : ℕ) (ha : |a| ≤ c * 2 ^ e) (hb : |b| ≤ 2 ^ e') (hc : c ≤ 2 ^ κ) (hκ : κ ≤ 53)
    (hcap : κ + (e + e') ≤ 1023) : f (a * b) = g (a * b) ∧ |g (a * b)| ≤ c * 2 ^ (e + e') :=
  h.op c κ (e + e') ((abs_mul_le ha hb).trans (by rw [pow_add, mul_assoc])) hc hκ hcap

/-- Sums and differences with one more unit. -/
theorem SameUpTo.add (h : SameUpTo f g) {a b : ℝ} (c κ e : ℕ) (ha : |a| ≤ c * 2 ^ e) (hb : |b| ≤ 2 ^ e) (hc : c + 1 ≤ 2 ^ κ) (hκ : κ ≤ 53)
    (hcap : κ + e ≤ 1023) : f (a + b) = g (a + b) ∧ |g (a + b)| ≤ (c + 1 : ℕ) * 2 ^ e :=
  h.op (c + 1) κ e ((abs_add_le' ha hb).trans (by push_cast; linarith)) hc hκ hcap

theorem SameUpTo.subc (h : SameUpTo f g) {a b : ℝ} (c κ e : ℕ) (ha : |a| ≤ c * 2 ^ e) (hb : |b| ≤ 2 ^ e) (hc : c + 1 ≤ 2 ^ κ) (hκ : κ ≤ 53)
    (hcap : κ + e ≤ 1023) : f (a - b) = g (a - b) ∧ |g (a - b)| ≤ (c + 1 : ℕ) * 2 ^ e :=
  h.op (c + 1) κ e ((abs_sub_le' ha hb).trans (by push_cast; linarith)) hc hκ hcap

/-! ### Epsilon -/

theorem epsAddMaxF_agree (h : SameUpTo f g) (dim : ℕ) (minmax : ℕ → ℤ) (pa pb : ℕ → ℝ) (ha : ∀ d < dim, |pa d| ≤ 2 ^ 1022) (hb : ∀ d < dim, |pb d| ≤ 2 ^ 1022) :
    epsAddMaxF f dim minmax pa pb = epsAddMaxF g dim minmax pa pb := by
  unfold epsAddMaxF
  refine List.foldl_ext _ _ _ fun m d hd => ?_
  have hd' := List.mem_range.1 hd
  unfold epsAddTempF
  rw [(h.sub 1022 (ha d hd') (hb d hd') (by norm_num)).1, (h.sub 1022 (hb d hd') (ha d hd') (by norm_num)).1]

theorem epsilonAdditiveMinmaxF_agree (h : SameUpTo f g) (dim : ℕ) (minmax : ℕ → ℤ) (A : ℕ → ℕ → ℝ) (nA : ℕ) (B : ℕ → ℕ → ℝ) (nB : ℕ)
    (ha : ∀ a < nA, ∀ d < dim, |A a d| ≤ 2 ^ 1022) (hb : ∀ b < nB, ∀ d < dim, |B b d| ≤ 2 ^ 1022) :
    epsilonAdditiveMinmaxF f dim minmax A nA B nB = epsilonAdditiveMinmaxF g dim minmax A nA B nB := by
  unfold epsilonAdditiveMinmaxF
  refine List.foldl_ext _ _ _ fun m b hb' => ?_
  congr 1
  unfold epsAddMinF
  refine List.foldl_ext _ _ _ fun m a ha' => ?_
  rw [epsAddMaxF_agree h dim minmax (A a) (B b) (ha a (List.mem_range.1 ha')) (hb b (List.mem_range.1 hb'))]

theorem epsMultMaxF_agree (h : SameUpTo f g) (minmax : ℕ → ℤ) (pa pb : ℕ → ℝ) : ∀ (ds : List ℕ) (m : Ext ℝ),
    (∀ d ∈ ds, 0 < pa d → 0 < pb d → pa d / pb d ≤ 2 ^ 1023 ∧ pb d / pa d ≤ 2 ^ 1023) →
    epsMultMaxF f minmax pa pb ds m = epsMultMaxF g minmax pa pb ds m
  | [], _, _ => rfl
  | d :: ds, m, hd => by
    unfold epsMultMaxF
    by_cases hp : pa d ≤ 0 ∨ pb d ≤ 0
    · rw [if_pos hp, if_pos hp]
    · rw [if_neg hp, if_neg hp]
      push Not at hp
      obtain ⟨q1, q2⟩ := hd d (by simp) hp.1 hp.2
      have e1 : epsMultTempF f (minmax d) (pa d) (pb d) = epsMultTempF g (minmax d) (pa d) (pb d) := by
        unfold epsMultTempF
        rw [h.eq _ (by rw [abs_of_nonneg (div_nonneg hp.1.le hp.2.le)]; exact q1), h.eq _ (by rw [abs_of_nonneg (div_nonneg hp.2.le hp.1.le)]; exact q2)]
      simp only [e1]
      split
      · rfl
      · exact epsMultMaxF_agree h minmax pa pb ds _ fun d hd' => hd d (by simp [hd'])

theorem epsMultMinF_agree (h : SameUpTo f g) (dim : ℕ) (minmax : ℕ → ℤ) (A : ℕ → ℕ → ℝ) (pb : ℕ → ℝ) : ∀ (as : List ℕ) (m : Ext ℝ),
    (∀ a ∈ as, ∀ d < dim, 0 < A a d → 0 < pb d → A a d / pb d ≤ 2 ^ 1023 ∧ pb d / A a d ≤ 2 ^ 1023) →
    epsMultMinF f dim minmax A pb as m = epsMultMinF g dim minmax A pb as m
  | [], _, _ => rfl
  | a :: as, m, ha => by
    unfold epsMultMinF
    rw [epsMultMaxF_agree h minmax (A a) pb _ _ fun d hd => ha a (by simp) d (List.mem_range.1 hd)]
    split
    · rfl
    · exact epsMultMinF_agree h dim minmax A pb as _ fun a ha' => ha a (by simp [ha'])

theorem epsMultOuterF_agree (h : SameUpTo f g) (dim : ℕ) (minmax : ℕ → ℤ) (A : ℕ → ℕ → ℝ) (nA : ℕ) (B : ℕ → ℕ → ℝ) : ∀ (bs : List ℕ) (m : Ext ℝ),
    (∀ b ∈ bs, ∀ a < nA, ∀ d < dim, 0 < A a d → 0 < B b d → A a d / B b d ≤ 2 ^ 1023 ∧ B b d / A a d ≤ 2 ^ 1023) →
    epsMultOuterF f dim minmax A nA B bs m = epsMultOuterF g dim minmax A nA B bs m
  | [], _, _ => rfl
  | b :: bs, m, hb => by
    unfold epsMultOuterF
    rw [epsMultMinF_agree h dim minmax A (B b) _ _ fun a ha => hb b (by simp) a (List.mem_range.1 ha)]
    split
    · rfl
    · exact epsMultOuterF_agree h dim minmax A nA B bs _ fun b hb' => hb b (by simp [hb'])

/-! ### IGD -/

theorem gdDiffF_agree (h : SameUpTo f g) (plus : Bool) (dir : ℤ) {a r : ℝ} (m : ℕ) (ha : |a| ≤ 2 ^ m) (hr : |r| ≤ 2 ^ m) (hm : m + 1 ≤ 1023) :
    gdDiffF f plus dir a r = gdDiffF g plus dir a r ∧ |gdDiffF g plus dir a r| ≤ 2 ^ (m + 1) := by
  obtain ⟨e1, b1⟩ := h.sub m ha hr hm
  obtain ⟨e2, b2⟩ := h.sub m hr ha hm
  unfold gdDiffF
  rw [e1, e2]
  refine ⟨rfl, ?_⟩
  have hmax : ∀ t : ℝ, |t| ≤ 2 ^ (m + 1) → |cMax t 0| ≤ 2 ^ (m + 1) := by
    intro t ht
    rw [cMax_eq]
    rcases max_choice t 0 with h | h <;> rw [h]
    · exact ht
    · rw [abs_zero]; positivity
  split
  · exact b2
  · apply hmax
    split
    · exact b2
    · exact b1

theorem gdDistF_agree (h : SameUpTo f g) (dim : ℕ) (minmax : ℕ → ℤ) (plus : Bool) (pa pr : ℕ → ℝ) (m κ : ℕ) (ha : ∀ d < dim, |pa d| ≤ 2 ^ m)
    (hr : ∀ d < dim, |pr d| ≤ 2 ^ m) (hdim : dim ≤ 2 ^ κ) (hκ : κ ≤ 53) (hcap : κ + 2 * (m + 1) ≤ 1023) :
    gdDistF f dim minmax plus pa pr = gdDistF g dim minmax plus pa pr ∧ 0 ≤ gdDistF g dim minmax plus pa pr ∧ gdDistF g dim minmax plus pa pr ∈ binary64 ∧
      gdDistF g dim minmax plus pa pr ≤ 2 ^ (κ + 2 * (m + 1)) := by
  have key : ∀ k ≤ dim,
      (List.range k).foldl (fun dist d => if minmax d = 0 then dist
        else f (dist + f (gdDiffF f plus (minmax d) (pa d) (pr d) * gdDiffF f plus (minmax d) (pa d) (pr d)))) 0 =
      (List.range k).foldl (fun dist d => if minmax d = 0 then dist
        else g (dist + g (gdDiffF g plus (minmax d) (pa d) (pr d) * gdDiffF g plus (minmax d) (pa d) (pr d)))) 0 ∧
      0 ≤ (List.range k).foldl (fun dist d => if minmax d = 0 then dist
        else g (dist + g (gdDiffF g plus (minmax d) (pa d) (pr d) * gdDiffF g plus (minmax d) (pa d) (pr d)))) 0 ∧
      (List.range k).foldl (fun dist d => if minmax d = 0 then dist
        else g (dist + g (gdDiffF g plus (minmax d) (pa d) (pr d) * gdDiffF g plus (minmax d) (pa d) (pr d)))) 0 ∈ binary64 ∧
      |(List.range k).foldl (fun dist d => if minmax d = 0 then dist
        else g (dist + g (gdDiffF g plus (minmax d) (pa d) (pr d) * gdDiffF g plus (minmax d) (pa d) (pr d)))) 0| ≤ k * 2 ^ (2 * (m + 1)) := by
    intro k
    induction k with
    | zero => intro _; simp [binary64_zero]
    | succ k ih =>
      intro hk
      obtain ⟨i1, i2, i3, i4⟩ := ih (by omega)
      rw [List.range_succ, List.foldl_append, List.foldl_append]
      simp only [List.foldl_cons, List.foldl_nil]
      rw [i1]
      set D := (List.range k).foldl (fun dist d => if minmax d = 0 then dist
        else g (dist + g (gdDiffF g plus (minmax d) (pa d) (pr d) * gdDiffF g plus (minmax d) (pa d) (pr d)))) 0
      have hpow : (0 : ℝ) < 2 ^ (2 * (m + 1)) := by positivity
      by_cases h0 : minmax k = 0
      · simp only [if_pos h0]
        refine ⟨trivial, i2, i3, i4.trans ?_⟩
        push_cast; nlinarith
      · simp only [if_neg h0]
        obtain ⟨d1, d2⟩ := gdDiffF_agree h plus (minmax k) m (ha k (by omega)) (hr k (by omega)) (by omega)
        rw [d1]
        set q := gdDiffF g plus (minmax k) (pa k) (pr k)
        obtain ⟨s1, s2⟩ := h.op1 (z := q * q) (2 * (m + 1)) ((abs_mul_le d2 d2).trans (by rw [← pow_add, two_mul])) (by omega)
        rw [s1]
        obtain ⟨t1, t2⟩ := h.add k κ (2 * (m + 1)) i4 s2 (by omega) hκ hcap
        rw [t1]
        exact ⟨rfl, h.near.nonneg binary64_zero (add_nonneg i2 (h.near.nonneg binary64_zero (mul_self_nonneg _))), h.near.mem _, t2⟩
  obtain ⟨k1, k2, k3, k4⟩ := key dim (le_refl _)
  refine ⟨k1, k2, k3, (le_abs_self _).trans (k4.trans ?_)⟩
  rw [pow_add]
  exact mul_le_mul_of_nonneg_right (by exact_mod_cast hdim) (by positivity)

theorem gdMinF_agree (h : SameUpTo f g) (dim : ℕ) (minmax : ℕ → ℤ) (plus : Bool) (pa : ℕ → ℝ) (R : ℕ → ℕ → ℝ) (nR m κ : ℕ) (hR0 : 0 < nR)
    (ha : ∀ d < dim, |pa d| ≤ 2 ^ m) (hr : ∀ r < nR, ∀ d < dim, |R r d| ≤ 2 ^ m) (hdim : dim ≤ 2 ^ κ) (hκ : κ ≤ 53) (hcap : κ + 2 * (m + 1) ≤ 1023) :
    gdMinF f dim minmax plus pa R nR = gdMinF g dim minmax plus pa R nR ∧
      ∃ v : ℝ, gdMinF g dim minmax plus pa R nR = v ∧ 0 ≤ v ∧ v ∈ binary64 ∧ v ≤ 2 ^ (κ + 2 * (m + 1)) := by
  have hd : ∀ r < nR, _ := fun r hr' => gdDistF_agree h dim minmax plus pa (R r) m κ ha (hr r hr') hdim hκ hcap
  have e1 : gdMinF f dim minmax plus pa R nR = gdMinF g dim minmax plus pa R nR := by
    unfold gdMinF
    refine List.foldl_ext _ _ _ fun t r hr' => ?_
    rw [(hd r (List.mem_range.1 hr')).1]
  refine ⟨e1, ?_⟩
  have key : ∀ k, 0 < k → k ≤ nR → ∃ r < k, gdMinF g dim minmax plus pa R k = (gdDistF g dim minmax plus pa (R r) : WithTop ℝ) := by
    intro k
    induction k with
    | zero => intro h; omega
    | succ k ih =>
      intro _ hk
      unfold gdMinF
      rw [List.range_succ, List.foldl_append]
      simp only [List.foldl_cons, List.foldl_nil]
      change ∃ r < k + 1, (if _ < gdMinF g dim minmax plus pa R k then _ else gdMinF g dim minmax plus pa R k) = _
      by_cases hc : ((gdDistF g dim minmax plus pa (R k) : ℝ) : WithTop ℝ) < gdMinF g dim minmax plus pa R k
      · rw [if_pos hc]; exact ⟨k, by omega, rfl⟩
      · rw [if_neg hc]
        rcases Nat.eq_zero_or_pos k with rfl | hk0
        · exfalso; exact hc (by unfold gdMinF; simp)
        · obtain ⟨r, hr1, hr2⟩ := ih hk0 (by omega)
          exact ⟨r, by omega, hr2⟩
  obtain ⟨r, hr1, hr2⟩ := key nR hR0 (le_refl _)
  obtain ⟨-, d2, d3, d4⟩ := hd r hr1
  exact ⟨_, hr2, d2, d3, d4⟩

/-- The square root of a number up to `2 ^ e` is at most `2 ^ e`. -/
def SqrtBounded (fsqrt : ℝ → ℝ) : Prop := ∀ x ∈ binary64, 0 ≤ x → 0 ≤ fsqrt x ∧ ∀ e : ℕ, x ≤ 2 ^ (2 * e) → fsqrt x ≤ 2 ^ (e + 1)

theorem gdCommonF_agree (h : SameUpTo f g) {fsqrt : ℝ → ℝ} (hs : SqrtBounded fsqrt) (dim : ℕ) (minmax : ℕ → ℤ) (A : ℕ → ℕ → ℝ) (nA : ℕ) (R : ℕ → ℕ → ℝ)
    (nR : ℕ) (plus : Bool) (m κ α : ℕ) (hR0 : 0 < nR) (ha : ∀ a < nA, ∀ d < dim, |A a d| ≤ 2 ^ m) (hr : ∀ r < nR, ∀ d < dim, |R r d| ≤ 2 ^ m)
    (hdim : dim ≤ 2 ^ (2 * κ)) (hκ : 2 * κ ≤ 53) (hn : nA ≤ 2 ^ α) (hα : α ≤ 53) (hcap : 2 * κ + 2 * (m + 1) ≤ 1023) (hcap2 : α + (κ + m + 2) ≤ 1023) :
    gdCommonF f fsqrt dim minmax A nA R nR plus = gdCommonF g fsqrt dim minmax A nA R nR plus := by
  unfold gdCommonF
  by_cases h0 : nA = 0
  · rw [if_pos h0, if_pos h0]
  rw [if_neg h0, if_neg h0]
  have key : ∀ k ≤ nA, ∃ v : ℝ,
      (List.range k).foldl (fun (gd : WithTop ℝ) a => WithTop.map f (gd + (gdMinF f dim minmax plus (A a) R nR).map fsqrt)) (0 : WithTop ℝ) = v ∧
      (List.range k).foldl (fun (gd : WithTop ℝ) a => WithTop.map g (gd + (gdMinF g dim minmax plus (A a) R nR).map fsqrt)) (0 : WithTop ℝ) = v ∧
      |v| ≤ k * 2 ^ (κ + m + 2) := by
    intro k
    induction k with
    | zero => intro _; exact ⟨0, by simp, by simp, by simp⟩
    | succ k ih =>
      intro hk
      obtain ⟨v, i1, i2, i3⟩ := ih (by omega)
      obtain ⟨m1, w, m2, w0, wm, wb⟩ := gdMinF_agree h dim minmax plus (A k) R nR m (2 * κ) hR0 (ha k (by omega)) hr hdim hκ hcap
      rw [List.range_succ, List.foldl_append, List.foldl_append]
      simp only [List.foldl_cons, List.foldl_nil]
      rw [i1, i2, m1, m2]
      obtain ⟨s0, s1⟩ := hs w wm w0
      have s2 := s1 (κ + m + 1) (wb.trans (le_of_eq (by ring)))
      obtain ⟨t1, t2⟩ := h.add (a := v) (b := fsqrt w) k α (κ + m + 2) i3 (by rw [abs_of_nonneg s0]; exact s2) (by omega) hα hcap2
      refine ⟨g (v + fsqrt w), ?_, ?_, t2⟩
      · rw [← t1]; rfl
      · rfl
  obtain ⟨v, k1, k2, k3⟩ := key nA (le_refl _)
  rw [k1, k2]
  have hpos : (0 : ℝ) < nA := by exact_mod_cast Nat.pos_of_ne_zero h0
  have : f (v / nA) = g (v / nA) := by
    refine (h.op1 (κ + m + 2) ?_ (by omega)).1
    rw [abs_div, abs_of_pos hpos, div_le_iff₀ hpos]
    linarith
  show ((f (v / nA) : ℝ) : WithTop ℝ) = ((g (v / nA) : ℝ) : WithTop ℝ)
  rw [this]

/-! ### Normalisation -/

theorem normaliseF_agree (h : SameUpTo f g) (flip : Bool) {lo hi l u x : ℝ} (m s : ℕ) (hlo : |lo| ≤ 2 ^ m) (hhi : |hi| ≤ 2 ^ m) (hl : |l| ≤ 2 ^ m)
    (hu : |u| ≤ 2 ^ m) (hx : |x| ≤ 2 ^ m) (hcap : 2 * (m + 1) + s ≤ 1022) (hgap : u = l ∨ (2 : ℝ) ^ (-(s : ℤ)) ≤ u - l) :
    normaliseF f flip lo hi l u x = normaliseF g flip lo hi l u x := by
  obtain ⟨r1, r2⟩ := h.sub m hhi hlo (by omega)
  obtain ⟨d1, d2⟩ := h.sub m hu hl (by omega)
  obtain ⟨a1, a2⟩ := h.sub m hx hl (by omega)
  have hb : |u + x| ≤ 2 ^ (m + 1) := (abs_add_le' hu hx).trans (by rw [pow_succ]; linarith)
  obtain ⟨b1, b2⟩ := h.op1 (m + 1) hb (by omega)
  have hs1 : (2 : ℝ) ^ (-(s : ℤ)) ≤ 1 := zpow_le_one_of_nonpos₀ (by norm_num) (by omega)
  have hs0 : (0 : ℝ) < (2 : ℝ) ^ (-(s : ℤ)) := zpow_pos (by norm_num) _
  have hss : (2 : ℝ) ^ s * (2 : ℝ) ^ (-(s : ℤ)) = 1 := by rw [zpow_neg, zpow_natCast]; exact mul_inv_cancel₀ (by positivity)
  have hD : normDiffF f l u = normDiffF g l u ∧ (2 : ℝ) ^ (-(s : ℤ)) ≤ normDiffF g l u := by
    unfold normDiffF
    rw [d1]
    refine ⟨rfl, ?_⟩
    split
    · exact hs1
    · rename_i hne
      rcases hgap with rfl | hg1
      · rw [sub_self, h.near.fix binary64_zero] at hne; exact absurd rfl hne
      · have h1 : (2 : ℝ) ^ (-(s : ℤ)) ∈ binary64 := ⟨1, -(s : ℤ), by norm_num, by omega, by simp⟩
        have := h.near.mono hg1
        rwa [h.near.fix h1] at this
  have step : ∀ t : ℝ, |t| ≤ 2 ^ (m + 1) →
      f (lo + f (f (g (hi - lo) * t) / normDiffF f l u)) = g (lo + g (g (g (hi - lo) * t) / normDiffF g l u)) := by
    intro t ht
    rw [hD.1]
    obtain ⟨p1, p2⟩ := h.op1 (z := g (hi - lo) * t) (2 * (m + 1)) ((abs_mul_le r2 ht).trans (by rw [← pow_add, two_mul])) (by omega)
    rw [p1]
    have hq : |g (g (hi - lo) * t) / normDiffF g l u| ≤ 2 ^ (2 * (m + 1) + s) := by
      have hn : 0 < normDiffF g l u := by linarith [hD.2]
      rw [abs_div, abs_of_pos hn, div_le_iff₀ hn]
      have h2 : (0 : ℝ) < 2 ^ (2 * (m + 1)) := by positivity
      calc |g (g (hi - lo) * t)| ≤ 2 ^ (2 * (m + 1)) * ((2 : ℝ) ^ s * (2 : ℝ) ^ (-(s : ℤ))) := by rw [hss, mul_one]; exact p2
        _ = 2 ^ (2 * (m + 1) + s) * (2 : ℝ) ^ (-(s : ℤ)) := by rw [pow_add]; ring
        _ ≤ _ := mul_le_mul_of_nonneg_left hD.2 (by positivity)
    obtain ⟨q1, q2⟩ := h.op1 _ hq (by omega)
    rw [q1]
    refine (h.op1 (2 * (m + 1) + s + 1) ?_ (by omega)).1
    have hlo2 : |lo| ≤ 2 ^ (2 * (m + 1) + s) := hlo.trans (pow_le_pow_right₀ (by norm_num) (by omega))
    exact (abs_add_le' hlo2 q2).trans (by rw [pow_succ _ (2 * (m + 1) + s)]; linarith)
  unfold normaliseF
  dsimp only
  rw [a1, b1, r1, step _ a2, step _ b2]

/-! ### Two objectives -/

theorem hv2dLoopF_agree (h : SameUpTo f g) (pts : ℕ → ℕ → ℝ) (ref : ℕ → ℝ) (m ν : ℕ) (href : ∀ k < 2, |ref k| ≤ 2 ^ m) (hν : ν ≤ 53)
    (hcap : ν + 2 * (m + 1) ≤ 1023) : ∀ (ps : List ℕ) (b : Bool) (prevJ hv : ℝ) (c : ℕ), (∀ p ∈ ps, ∀ k < 2, |pts p k| ≤ 2 ^ m) → |prevJ| ≤ 2 ^ m →
    |hv| ≤ c * 2 ^ (2 * (m + 1)) → c + ps.length ≤ 2 ^ ν →
    hv2dLoopF f pts ref b ps prevJ hv = hv2dLoopF g pts ref b ps prevJ hv ∧ |hv2dLoopF g pts ref b ps prevJ hv| ≤ (c + ps.length : ℕ) * 2 ^ (2 * (m + 1)) := by
  intro ps
  induction ps with
  | nil => intro b prevJ hv c _ _ hh _; exact ⟨rfl, by simpa [hv2dLoopF] using hh⟩
  | cons p ps ih =>
    intro b prevJ hv c hp hj hh hc
    have hlen : (p :: ps).length = ps.length + 1 := rfl
    have hpw : (0 : ℝ) < 2 ^ (2 * (m + 1)) := by positivity
    have stop : |hv| ≤ (c + (p :: ps).length : ℕ) * 2 ^ (2 * (m + 1)) := by
      refine hh.trans (mul_le_mul_of_nonneg_right ?_ hpw.le)
      exact_mod_cast Nat.le_add_right _ _
    have hp' : ∀ q ∈ ps, ∀ k < 2, |pts q k| ≤ 2 ^ m := fun q hq => hp q (by simp [hq])
    unfold hv2dLoopF
    by_cases h1 : b = true ∧ ¬ pts p 0 < ref 0
    · rw [if_pos h1, if_pos h1]; exact ⟨rfl, stop⟩
    rw [if_neg h1, if_neg h1]
    by_cases h2 : pts p 1 ≥ prevJ
    · rw [if_pos h2, if_pos h2]
      obtain ⟨i1, i2⟩ := ih false prevJ hv c hp' hj hh (by rw [hlen] at hc; omega)
      refine ⟨i1, i2.trans (mul_le_mul_of_nonneg_right ?_ hpw.le)⟩
      rw [hlen]; exact_mod_cast (by omega : c + ps.length ≤ c + (ps.length + 1))
    rw [if_neg h2, if_neg h2]
    by_cases h3 : pts p 0 ≥ ref 0
    · rw [if_pos h3, if_pos h3]; exact ⟨rfl, stop⟩
    rw [if_neg h3, if_neg h3]
    have hpp := hp p (by simp)
    obtain ⟨a1, a2⟩ := h.sub m (href 0 (by omega)) (hpp 0 (by omega)) (by omega)
    obtain ⟨b1, b2⟩ := h.sub m hj (hpp 1 (by omega)) (by omega)
    rw [a1, b1]
    obtain ⟨m1, m2⟩ := h.op1 (z := g (ref 0 - pts p 0) * g (prevJ - pts p 1)) (2 * (m + 1)) ((abs_mul_le a2 b2).trans (by rw [← pow_add, two_mul])) (by omega)
    rw [m1]
    obtain ⟨s1, s2⟩ := h.add c ν (2 * (m + 1)) hh m2 (by rw [hlen] at hc; omega) hν hcap
    rw [s1]
    obtain ⟨i1, i2⟩ := ih true (pts p 1) _ (c + 1) hp' (hpp 1 (by omega)) s2 (by rw [hlen] at hc; omega)
    refine ⟨i1, i2.trans (le_of_eq ?_)⟩
    rw [hlen]; congr 2; omega

end Moo
