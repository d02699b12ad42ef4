import Verif.Lemmas.MtEqui
import Verif.Props.Mt19937
import Mathlib.Tactic.NormNum

/-!
# C112: the random numbers are equidistributed
-/

set_option autoImplicit false
set_option linter.unusedSectionVars false

namespace Moo

/-- There are `2 ^ 19968` contents of the array of 624 words. -/
theorem mtKey_card : Nat.card MtKey = 2 ^ 19968 := by
  rw [Nat.card_fun, natCard_bitVec, Nat.card_eq_fintype_card, Fintype.card_fin, ← pow_mul]

/-- **C112.**  Whatever the position, each sequence of 623 words is what the calls number `j`, ..., `j + 622` of the generator return for exactly
`2 ^ 32` of the `2 ^ (32 * 624)` contents of its array: if all contents are equally likely, any 623 successive words are independent and each is
uniform. -/
theorem C112_words (pos j : ℕ) (h0 : 0 < pos) (hpos : pos ≤ 624) (w : Fin 623 → BitVec 32) :
    Nat.card {key : MtKey // ∃ l s, mtWords (j + 623) (key.state pos) = some (l, s) ∧ ∀ d : Fin 623, l[j + d.1]? = some (w d)} = 2 ^ 32 := by
  obtain ⟨m, rfl⟩ : ∃ m, pos = m + 1 := ⟨pos - 1, by omega⟩
  have hsurj : Function.Surjective mtTemper := (Finite.injective_iff_bijective.1 mtTemper_injective).2
  choose v hv using fun d => hsurj (w d)
  have hS := mt_window_card (m + j) {v}
  rw [show Nat.card ({v} : Set (Fin 623 → BitVec 32)) = 1 from Nat.card_unique, mul_one] at hS
  rw [← hS]
  refine Nat.card_congr (Equiv.subtypeEquivRight fun key => ?_)
  obtain ⟨s, h, _⟩ := mtWords_spec (mtSeq_rec key.ext) (j + 623) (m + 1) _ (mtKey_rep key (m + 1) hpos)
  rw [h, Set.mem_singleton_iff, funext_iff]
  have hget : ∀ d : Fin 623, ((List.range (j + 623)).map fun i => mtTemper (mtSeq key.ext (m + 1 + i)))[j + d.1]? =
      some (mtTemper (mtSeq key.ext (m + j + 1 + d))) := by
    intro d
    rw [List.getElem?_map, List.getElem?_range (by omega), Option.map_some]
    congr 3
    omega
  constructor
  · rintro ⟨l, s', e, hl⟩ d
    simp only [Option.some.injEq, Prod.mk.injEq] at e
    have := hl d
    rw [← e.1, hget, ← hv d, Option.some.injEq] at this
    exact mtTemper_injective this
  · intro hd
    refine ⟨_, s, rfl, fun d => ?_⟩
    rw [hget, hd d, hv d]

/-- The number made of two words. -/
noncomputable def mtPair (w1 w2 : BitVec 32) : ℝ := (((w1.toNat / 2 ^ 5) * 2 ^ 26 + w2.toNat / 2 ^ 6 : ℕ) : ℝ) / 2 ^ 53

theorem mtNextDouble_spec {rnd : ℝ → ℝ} (hrnd : Nearest binary64 rnd) {x : ℕ → BitVec 32} (hx : MtRecurrence x) {n : ℕ} {s : MtState} (h : MtRep x n s) :
    ∃ s', mtNextDouble rnd s = some (mtPair (mtTemper (x n)) (mtTemper (x (n + 1))), s') ∧ MtRep x (n + 2) s' := by
  obtain ⟨s', hw, hr⟩ := mtWords_spec hx 2 n s h
  exact ⟨s', (C58_random rnd hrnd s _ _ s' hw).1, hr⟩

theorem mtDoubles_spec {rnd : ℝ → ℝ} (hrnd : Nearest binary64 rnd) {x : ℕ → BitVec 32} (hx : MtRecurrence x) (k : ℕ) : ∀ (n : ℕ) (s : MtState), MtRep x n s →
    ∃ s', mtDoubles rnd k s = some ((List.range k).map (fun i => mtPair (mtTemper (x (n + 2 * i))) (mtTemper (x (n + 2 * i + 1)))), s') := by
  induction k with
  | zero => intro n s _; exact ⟨s, rfl⟩
  | succ k ih =>
    intro n s h
    obtain ⟨s1, h1, r1⟩ := mtNextDouble_spec hrnd hx h
    obtain ⟨s2, h2⟩ := ih (n + 2) s1 r1
    refine ⟨s2, ?_⟩
    rw [mtDoubles, h1]
    dsimp only
    rw [h2, List.range_succ_eq_map, List.map_cons, List.map_map]
    simp only [mul_zero, add_zero]
    have : (List.range k).map (fun i => mtPair (mtTemper (x (n + 2 + 2 * i))) (mtTemper (x (n + 2 + 2 * i + 1)))) =
        (List.range k).map ((fun i => mtPair (mtTemper (x (n + 2 * i))) (mtTemper (x (n + 2 * i + 1)))) ∘ Nat.succ) := by
      refine List.map_congr_left fun i _ => ?_
      simp only [Function.comp, Nat.succ_eq_add_one]
      rw [show n + 2 + 2 * i = n + 2 * (i + 1) by ring]
    rw [this]

theorem mtPair_eq (w1 w2 : BitVec 32) (a : ℕ) : mtPair w1 w2 = (a : ℝ) / 2 ^ 53 ↔ w1.toNat / 2 ^ 5 = a / 2 ^ 26 ∧ w2.toNat / 2 ^ 6 = a % 2 ^ 26 := by
  have h2 : w2.toNat / 2 ^ 6 < 2 ^ 26 := by have := w2.isLt; omega
  unfold mtPair
  rw [div_left_inj' (by positivity), Nat.cast_inj]
  omega

/-- The words that may be at a place so that the doubles are the given ones. -/
def mtFix (k : ℕ) (a : ℕ → ℕ) (d : ℕ) : Set (BitVec 32) :=
  if d < 2 * k then (if d % 2 = 0 then {v | v.toNat / 2 ^ 5 = a (d / 2) / 2 ^ 26} else {v | v.toNat / 2 ^ 6 = a (d / 2) % 2 ^ 26}) else Set.univ

theorem mtFix_card (k : ℕ) (a : ℕ → ℕ) (ha : ∀ i < k, a i < 2 ^ 53) (d : ℕ) :
    Nat.card (mtFix k a d) = if d < 2 * k then (if d % 2 = 0 then 2 ^ 5 else 2 ^ 6) else 2 ^ 32 := by
  unfold mtFix
  split_ifs with h1 h2
  · have := ha (d / 2) (by omega)
    exact natCard_high (2 ^ 5) (2 ^ 27) _ (by norm_num) (by norm_num) (by omega)
  · exact natCard_high (2 ^ 6) (2 ^ 26) _ (by norm_num) (by norm_num) (by omega)
  · rw [Nat.card_univ, natCard_bitVec]

theorem mtFix_prod (k m : ℕ) (hk : 2 * k ≤ m) :
    ∏ d ∈ Finset.range m, (if d < 2 * k then (if d % 2 = 0 then 2 ^ 5 else 2 ^ 6) else 2 ^ 32) = 2 ^ (11 * k + 32 * (m - 2 * k)) := by
  obtain ⟨r, rfl⟩ := Nat.exists_eq_add_of_le hk
  rw [Finset.prod_range_add, pow_add, Nat.add_sub_cancel_left]
  congr 1
  · have : ∀ q ≤ k, ∏ d ∈ Finset.range (2 * q), (if d < 2 * k then (if d % 2 = 0 then 2 ^ 5 else 2 ^ 6) else 2 ^ 32) = 2 ^ (11 * q) := by
      intro q
      induction q with
      | zero => intro _; rfl
      | succ q ih =>
        intro hq
        rw [show 2 * (q + 1) = 2 * q + 1 + 1 by ring, Finset.prod_range_succ, Finset.prod_range_succ, ih (by omega),
          if_pos (by omega), if_pos (by omega), if_pos (by omega), if_neg (by omega), mul_add, pow_add, mul_assoc]
        norm_num
    exact this k le_rfl
  · have : ∀ d ∈ Finset.range r, (if 2 * k + d < 2 * k then (if (2 * k + d) % 2 = 0 then 2 ^ 5 else 2 ^ 6) else 2 ^ 32) = 2 ^ 32 := by
      intro d _
      rw [if_neg (by omega)]
    rw [Finset.prod_congr rfl this, Finset.prod_const, Finset.card_range, ← pow_mul]

/-- The number of contents for which the sequence has given doubles from the place `m + 1` on. -/
theorem mt_pairs_card (m k : ℕ) (hk : k ≤ 311) (a : ℕ → ℕ) (ha : ∀ i < k, a i < 2 ^ 53) :
    Nat.card {key : MtKey // ∀ i < k, mtPair (mtTemper (mtSeq key.ext (m + 1 + 2 * i))) (mtTemper (mtSeq key.ext (m + 1 + 2 * i + 1))) = (a i : ℝ) / 2 ^ 53} =
      2 ^ (19968 - 53 * k) := by
  have hbij : Function.Bijective mtTemper := Finite.injective_iff_bijective.1 mtTemper_injective
  let e : BitVec 32 ≃ BitVec 32 := Equiv.ofBijective _ hbij
  let S : Set (Fin 623 → BitVec 32) := {w | ∀ d : Fin 623, mtTemper (w d) ∈ mtFix k a d}
  have hS : Nat.card S = 2 ^ (11 * k + 32 * (623 - 2 * k)) := by
    have e1 : S ≃ {w : Fin 623 → BitVec 32 // ∀ d : Fin 623, w d ∈ mtFix k a d} :=
      (Equiv.arrowCongr (Equiv.refl (Fin 623)) e).subtypeEquiv fun w => Iff.rfl
    have e2 : {w : Fin 623 → BitVec 32 // ∀ d : Fin 623, w d ∈ mtFix k a d} ≃ ∀ d : Fin 623, mtFix k a d := Equiv.subtypePiEquivPi
    rw [Nat.card_congr (e1.trans e2), Nat.card_pi, ← mtFix_prod k 623 (by omega), ← Fin.prod_univ_eq_prod_range]
    exact Finset.prod_congr rfl fun d _ => mtFix_card k a ha d
  have hw := mt_window_card m S
  rw [hS, ← pow_add] at hw
  rw [show 19968 - 53 * k = 32 + (11 * k + 32 * (623 - 2 * k)) by omega, ← hw]
  refine Nat.card_congr (Equiv.subtypeEquivRight fun key => ?_)
  show _ ↔ ∀ d : Fin 623, mtTemper (mtSeq key.ext (m + 1 + d)) ∈ mtFix k a d
  constructor
  · intro h d
    unfold mtFix
    split_ifs with h1 h2
    · have := ((mtPair_eq _ _ _).1 (h (d / 2) (by omega))).1
      rwa [show m + 1 + 2 * (d.1 / 2) = m + 1 + d by omega] at this
    · have := ((mtPair_eq _ _ _).1 (h (d / 2) (by omega))).2
      rwa [show m + 1 + 2 * (d.1 / 2) + 1 = m + 1 + d by omega] at this
    · trivial
  · intro h i hi
    rw [mtPair_eq]
    constructor
    · have := h ⟨2 * i, by omega⟩
      unfold mtFix at this
      dsimp only at this
      rw [if_pos (by omega), if_pos (by omega), show 2 * i / 2 = i by omega] at this
      exact this
    · have := h ⟨2 * i + 1, by omega⟩
      unfold mtFix at this
      dsimp only at this
      rw [if_pos (by omega), if_neg (by omega), show (2 * i + 1) / 2 = i by omega] at this
      exact this

/-- **C112.**  For at most 311 successive calls of `rng_random`, whatever the position and the number of calls before: each sequence of `k`
multiples of `2 ^ -53` in `[0, 1)` is returned for exactly a fraction `2 ^ (- 53 k)` of the contents of the array. -/
theorem C112_random (rnd : ℝ → ℝ) (hrnd : Nearest binary64 rnd) (pos j k : ℕ) (h0 : 0 < pos) (hpos : pos ≤ 624) (hk : k ≤ 311) (a : ℕ → ℕ)
    (ha : ∀ i < k, a i < 2 ^ 53) :
    Nat.card {key : MtKey // ∃ l s, mtDoubles rnd (j + k) (key.state pos) = some (l, s) ∧ ∀ i < k, l[j + i]? = some ((a i : ℝ) / 2 ^ 53)} * 2 ^ (53 * k) =
      Nat.card MtKey := by
  obtain ⟨m, rfl⟩ : ∃ m, pos = m + 1 := ⟨pos - 1, by omega⟩
  have key' := mt_pairs_card (m + 2 * j) k hk a ha
  have hc : ∀ A B : ℕ, A = B → B = 2 ^ (19968 - 53 * k) → A * 2 ^ (53 * k) = 2 ^ 19968 := by
    rintro A B rfl h
    rw [h, ← pow_add]
    congr 1
    omega
  rw [mtKey_card]
  refine hc _ _ ?_ key'
  refine Nat.card_congr (Equiv.subtypeEquivRight fun key => ?_)
  obtain ⟨s, h⟩ := mtDoubles_spec hrnd (mtSeq_rec key.ext) (j + k) (m + 1) _ (mtKey_rep key (m + 1) hpos)
  rw [h]
  have hget : ∀ i < k, ((List.range (j + k)).map fun i => mtPair (mtTemper (mtSeq key.ext (m + 1 + 2 * i))) (mtTemper (mtSeq key.ext (m + 1 + 2 * i + 1))))[j + i]? =
      some (mtPair (mtTemper (mtSeq key.ext (m + 2 * j + 1 + 2 * i))) (mtTemper (mtSeq key.ext (m + 2 * j + 1 + 2 * i + 1)))) := by
    intro i hi
    rw [List.getElem?_map, List.getElem?_range (by omega), Option.map_some, show m + 1 + 2 * (j + i) = m + 2 * j + 1 + 2 * i by ring]
  constructor
  · rintro ⟨l, s', e, hl⟩ i hi
    simp only [Option.some.injEq, Prod.mk.injEq] at e
    have := hl i hi
    rw [← e.1, hget i hi, Option.some.injEq] at this
    exact this
  · intro hd
    refine ⟨_, s, rfl, fun i hi => ?_⟩
    rw [hget i hi, hd i hi]

/-- **C112.**  623 is the limit: there is a sequence of 624 words that the generator never returns, whatever the contents of its array, the
position and the number of calls before. -/
theorem C112_limit (pos j : ℕ) (h0 : 0 < pos) (hpos : pos ≤ 624) (key : MtKey) (l : List (BitVec 32)) (s : MtState)
    (h : mtWords (j + 624) (key.state pos) = some (l, s)) : ¬ ∀ d < 624, l[j + d]? = some (if d = 623 then mtTemper 1#32 else 0#32) := by
  obtain ⟨m, rfl⟩ : ∃ m, pos = m + 1 := ⟨pos - 1, by omega⟩
  intro hl
  obtain ⟨s', h', _⟩ := mtWords_spec (mtSeq_rec key.ext) (j + 624) (m + 1) _ (mtKey_rep key (m + 1) hpos)
  rw [h', Option.some.injEq, Prod.mk.injEq] at h
  have hget : ∀ d < 624, mtTemper (mtSeq key.ext (m + j + 1 + d)) = if d = 623 then mtTemper 1#32 else 0#32 := by
    intro d hd
    have := hl d hd
    rw [← h.1, List.getElem?_map, List.getElem?_range (by omega), Option.map_some, Option.some.injEq] at this
    rw [← this, show m + 1 + (j + d) = m + j + 1 + d by ring]
  have h0' : ∀ d < 623, mtSeq key.ext (m + j + 1 + d) = 0#32 := by
    intro d hd
    have := hget d (by omega)
    rw [if_neg (by omega)] at this
    exact mtTemper_injective (this.trans (by decide))
  have h1 : mtSeq key.ext (m + j + 1 + 623) = 1#32 := by
    have := hget 623 (by omega)
    rw [if_pos rfl] at this
    exact mtTemper_injective this
  have hr := mtSeq_rec key.ext (m + j)
  rw [show m + j + 624 = m + j + 1 + 623 by ring, h1, show m + j + 397 = m + j + 1 + 396 by ring, h0' 396 (by omega),
    show m + j + 1 = m + j + 1 + 0 by ring, h0' 0 (by omega)] at hr
  have h4 : ∀ u : BitVec 32, upperLower u 0#32 = 0#32 ∨ upperLower u 0#32 = 0x80000000#32 := by
    intro u
    cases hb : u.getLsbD 31
    · left
      apply BitVec.eq_of_getLsbD_eq
      intro i hi
      rw [upperLower_getLsbD _ _ hi]
      split
      · rw [hb]; simp
      · rfl
    · right
      apply bv_eq_of_bits
      · rw [upperLower_getLsbD _ _ (by norm_num), if_pos rfl, hb]; rfl
      · intro i hi
        rw [upperLower_getLsbD _ _ (by omega), if_neg (by omega)]
        revert i
        decide
  rcases h4 (mtSeq key.ext (m + j)) with h5 | h5
  · rw [h5] at hr; exact absurd hr (by decide)
  · rw [h5] at hr; exact absurd hr (by decide)

/-- Non-vacuity: the position after seeding, and a sequence of words for `C112_words`. -/
example (key0 : ℕ → BitVec 32) (seed : BitVec 32) : 0 < (mtSeed key0 seed).pos ∧ (mtSeed key0 seed).pos ≤ 624 := ⟨show 0 < 624 by norm_num, le_refl 624⟩

example : Nat.card {key : MtKey // ∃ l s, mtWords (1000 + 623) (key.state 624) = some (l, s) ∧ ∀ d : Fin 623, l[1000 + d.1]? = some (BitVec.ofNat 32 d)} = 2 ^ 32 :=
  C112_words 624 1000 (by norm_num) le_rfl _

end Moo
