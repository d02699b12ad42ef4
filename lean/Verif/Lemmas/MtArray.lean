import Verif.Spec.MtArray
import Verif.Model.MtArray
import Verif.Lemmas.Mt19937
import Verif.Lemmas.MtEqui

/-!
# Lemmas for C119
-/

set_option autoImplicit false
set_option linter.unusedSectionVars false

namespace Moo

/-- After `t` words have been written: the next position, the last word, and the words to be replaced. -/
def MtInv (g y : ℕ → BitVec 32) (t : ℕ) (mt : ℕ → BitVec 32) (i : ℕ) : Prop :=
  i = t % 623 + 1 ∧ mt (t % 623) = y t ∧ ∀ d, 1 ≤ d → d ≤ 623 → mt ((t + d - 1) % 623 + 1) = mtOld g y (t + d)

theorem mtPut_inv {g y : ℕ → BitVec 32} {t : ℕ} {mt : ℕ → BitVec 32} {i : ℕ} (h : MtInv g y t mt i) {v : BitVec 32} (hv : v = y (t + 1)) :
    MtInv g y (t + 1) (mtPut mt i v).1 (mtPut mt i v).2 := by
  obtain ⟨rfl, _, ho⟩ := h
  have hold : mtOld g y (t + 1 + 623) = y (t + 1) := by
    unfold mtOld
    rw [if_neg (by omega), show t + 1 + 623 - 623 = t + 1 by omega]
  unfold mtPut
  dsimp only
  split
  · rename_i hw
    have ht : t % 623 = 622 := by omega
    refine ⟨by dsimp only; omega, ?_, fun d h1 h2 => ?_⟩
    · dsimp only
      rw [show (t + 1) % 623 = 0 by omega, upd_apply, if_pos rfl, upd_apply, if_pos (by omega), hv]
    · dsimp only
      rw [upd_apply, if_neg (by omega), upd_apply]
      by_cases hd : d = 623
      · subst hd
        rw [if_pos (by omega), hold, hv]
      · rw [if_neg (by omega), show t + 1 + d = t + (d + 1) by omega]
        exact ho (d + 1) (by omega) (by omega)
  · rename_i hw
    refine ⟨by dsimp only; omega, ?_, fun d h1 h2 => ?_⟩
    · dsimp only
      rw [upd_apply, if_pos (by omega), hv]
    · dsimp only
      rw [upd_apply]
      by_cases hd : d = 623
      · subst hd
        rw [if_pos (by omega), hold, hv]
      · rw [if_neg (by omega), show t + 1 + d = t + (d + 1) by omega]
        exact ho (d + 1) (by omega) (by omega)

theorem mtInv_read {g y : ℕ → BitVec 32} {t : ℕ} {mt : ℕ → BitVec 32} {i : ℕ} (h : MtInv g y t mt i) (c : BitVec 32) :
    mt i ^^^ ((mt (i - 1) ^^^ (mt (i - 1) >>> 30)) * c) = mtBlend c (mtOld g y (t + 1)) (y t) := by
  obtain ⟨rfl, hp, ho⟩ := h
  have := ho 1 le_rfl (by norm_num)
  rw [show t + 1 - 1 = t by omega] at this
  rw [this, show t % 623 + 1 - 1 = t % 623 by omega, hp]
  rfl

theorem initGenrandLoop_spec {g : ℕ → BitVec 32} {s : BitVec 32} (hg : MtInit s g) (k n : ℕ) (h0 : 0 < n) (hn : n + k = 624) (mt : ℕ → BitVec 32)
    (h : ∀ i < n, mt i = g i) : ∀ i < 624, initGenrandLoop (List.range' n k) mt i = g i := by
  induction k generalizing n mt with
  | zero => intro i hi; exact h i (by omega)
  | succ k ih =>
    rw [List.range'_succ, initGenrandLoop]
    apply ih (n + 1) (by omega) (by omega)
    intro i hi
    rw [upd_apply]
    by_cases hin : i = n
    · subst hin
      rw [if_pos rfl, h (i - 1) (by omega)]
      have := hg.2 (i - 1) (by omega)
      rw [show i - 1 + 1 = i by omega] at this
      exact this.symm
    · rw [if_neg hin]; exact h i (by omega)

theorem initGenrand_spec {g : ℕ → BitVec 32} {s : BitVec 32} (hg : MtInit s g) (key0 : ℕ → BitVec 32) : ∀ i < 624, (initGenrand key0 s).key i = g i := by
  intro i hi
  unfold initGenrand
  dsimp only
  refine initGenrandLoop_spec hg 623 1 (by norm_num) (by norm_num) (upd key0 0 s) (fun i hi => ?_) i hi
  rw [upd_apply, if_pos (by omega), show i = 0 by omega, hg.1]

theorem mtInv_start {g y : ℕ → BitVec 32} {s : BitVec 32} (hg : MtInit s g) (hy : y 0 = g 0) (key0 : ℕ → BitVec 32) : MtInv g y 0 (initGenrand key0 s).key 1 := by
  refine ⟨rfl, ?_, fun d h1 h2 => ?_⟩
  · rw [hy]; exact initGenrand_spec hg key0 0 (by norm_num)
  · unfold mtOld
    rw [if_pos (by omega), show (0 + d - 1) % 623 + 1 = d by omega, zero_add]
    exact initGenrand_spec hg key0 d (by omega)

theorem mod_succ_wrap {t n : ℕ} (hn : 0 < n) : (if ((t % n + 1 : ℕ) : ℤ) ≥ (n : ℤ) then 0 else t % n + 1) = (t + 1) % n := by
  have := Nat.mod_lt t hn
  have e : (t + 1) % n = (t % n + 1) % n := (Nat.mod_add_mod t n 1).symm
  split
  · rename_i h
    have : t % n + 1 = n := by omega
    rw [e, this, Nat.mod_self]
  · rename_i h
    exact (e.trans (Nat.mod_eq_of_lt (by omega))).symm

theorem mtArrayLoop1_spec {g y : ℕ → BitVec 32} {a : List (BitVec 32)} (more : List (BitVec 32)) (ha : a ≠ []) (T : ℕ)
    (hy : ∀ t, 1 ≤ t → t ≤ T → y t = mtBlend 1664525#32 (mtOld g y t) (y (t - 1)) + a.getD ((t - 1) % a.length) 0 + BitVec.ofNat 32 ((t - 1) % a.length))
    (k : ℕ) : ∀ (t : ℕ) (mt : ℕ → BitVec 32) (i : ℕ), t + k = T → MtInv g y t mt i →
    ∃ mt' i', mtArrayLoop1 (a ++ more) a.length k mt i (t % a.length) = some (mt', i') ∧ MtInv g y T mt' i' := by
  have hpos : 0 < a.length := List.length_pos_iff.2 ha
  induction k with
  | zero => intro t mt i ht h; exact ⟨mt, i, rfl, by rwa [show T = t by omega]⟩
  | succ k ih =>
    intro t mt i ht h
    have hj := Nat.mod_lt t hpos
    have hw : (a ++ more)[t % a.length]? = some (a.getD (t % a.length) 0) := by
      rw [List.getElem?_append_left hj, List.getD_eq_getElem?_getD, List.getElem?_eq_getElem hj]
      rfl
    rw [mtArrayLoop1, if_pos ⟨by rw [h.1]; omega, by rw [h.1]; omega⟩, hw]
    dsimp only
    rw [mod_succ_wrap hpos]
    refine ih (t + 1) _ _ (by omega) (mtPut_inv h ?_)
    rw [mtInv_read h, hy (t + 1) (by omega) (by omega), show t + 1 - 1 = t by omega]

theorem mtArrayLoop2_spec {g y : ℕ → BitVec 32} (S : ℕ) (k : ℕ) : ∀ (t : ℕ) (mt : ℕ → BitVec 32) (i : ℕ), t + k = S →
    (∀ s, t < s → s ≤ S → y s = mtBlend 1566083941#32 (mtOld g y s) (y (s - 1)) - BitVec.ofNat 32 (mtPos s)) → MtInv g y t mt i →
    ∃ mt' i', mtArrayLoop2 k mt i = some mt' ∧ MtInv g y S mt' i' := by
  induction k with
  | zero => intro t mt i ht _ h; exact ⟨mt, i, rfl, by rwa [show S = t by omega]⟩
  | succ k ih =>
    intro t mt i ht hy h
    rw [mtArrayLoop2, if_pos ⟨by rw [h.1]; omega, by rw [h.1]; omega⟩]
    dsimp only
    refine ih (t + 1) _ _ (by omega) (fun s h1 h2 => hy s (by omega) h2) (mtPut_inv h ?_)
    rw [mtInv_read h, hy (t + 1) (by omega) (by omega), show t + 1 - 1 = t by omega]
    congr 2
    rw [h.1]
    rfl

/-- The state after seeding holds the words of the specification. -/
theorem mtInitByArray_block {a : List (BitVec 32)} {x : ℕ → BitVec 32} (ha : a ≠ []) (hx : MtArrayInit a x) (more : List (BitVec 32)) (key0 : ℕ → BitVec 32) :
    ∃ s, mtInitByArray key0 (a ++ more) a.length = some s ∧ s.pos = 624 ∧ MtBlock x 0 s.key := by
  obtain ⟨g, y, hg, hy0, hy1, hy2, hx0, hxt⟩ := hx
  have hk : (if (624 : ℤ) > (a.length : ℤ) then 624 else (a.length : ℤ).toNat) = max 624 a.length := by
    split <;> omega
  obtain ⟨mt, i, e1, h1⟩ := mtArrayLoop1_spec more ha (max 624 a.length) hy1 (max 624 a.length) 0 _ 1 (by omega) (mtInv_start hg hy0 key0)
  obtain ⟨mt', i', e2, h2⟩ := mtArrayLoop2_spec (max 624 a.length + 623) 623 _ mt i rfl hy2 h1
  rw [Nat.zero_mod] at e1
  unfold mtInitByArray
  dsimp only
  rw [hk, e1]
  dsimp only
  rw [e2]
  refine ⟨_, rfl, rfl, fun j hj => ?_⟩
  dsimp only
  rw [upd_apply, zero_add]
  by_cases h0 : j = 0
  · rw [if_pos h0, h0, hx0]
  · rw [if_neg h0]
    set T := max 624 a.length with hT
    -- the last time position `j` was written
    obtain ⟨t, ht1, ht2, htp⟩ : ∃ t, T < t ∧ t ≤ T + 623 ∧ mtPos t = j := by
      unfold mtPos
      refine ⟨T + 1 + (j + 622 - T % 623) % 623, by omega, by omega, ?_⟩
      omega
    rw [← htp, hxt t ht1 ht2]
    have := h2.2.2 (t - T) (by omega) (by omega)
    rw [mtOld, if_neg (by omega), show T + 623 + (t - T) - 623 = t by omega] at this
    rw [← this]
    have e : mtPos t = (T + 623 + (t - T) - 1) % 623 + 1 := by unfold mtPos; omega
    rw [e]

/-- The words written one after the other. -/
def mtYs (g : ℕ → BitVec 32) (a : List (BitVec 32)) (t : ℕ) : BitVec 32 :=
  if t = 0 then g 0
  else
    let old := if t < 624 then g t else mtYs g a (t - 623)
    if t ≤ max 624 a.length then mtBlend 1664525#32 old (mtYs g a (t - 1)) + a.getD ((t - 1) % a.length) 0 + BitVec.ofNat 32 ((t - 1) % a.length)
    else mtBlend 1566083941#32 old (mtYs g a (t - 1)) - BitVec.ofNat 32 (mtPos t)
  termination_by t
  decreasing_by all_goals omega

theorem mtArrayInit_exists (a : List (BitVec 32)) : ∃ x, MtArrayInit a x := by
  obtain ⟨g, ⟨hg, _⟩, _⟩ := mt_exists 19650218#32
  refine ⟨fun i => if i = 0 then 0x80000000#32 else mtYs g a (max 624 a.length + 1 + (i + 622 - max 624 a.length % 623) % 623), g, mtYs g a, hg, ?_, ?_, ?_, ?_, ?_⟩
  · rw [mtYs, if_pos rfl]
  · intro t h1 h2
    rw [mtYs, if_neg (by omega)]
    dsimp only
    rw [if_pos h2]
    rfl
  · intro t h1 h2
    rw [mtYs, if_neg (by omega)]
    dsimp only
    rw [if_neg (by omega)]
    rfl
  · rfl
  · intro t h1 h2
    dsimp only
    rw [if_neg (by unfold mtPos; omega)]
    congr 1
    unfold mtPos
    omega

theorem mtPos_lt (t : ℕ) : mtPos t < 624 := by unfold mtPos; omega

theorem mtArrayInit_congr {a : List (BitVec 32)} {x x' : ℕ → BitVec 32} (h : MtArrayInit a x) (e : ∀ i < 624, x' i = x i) : MtArrayInit a x' := by
  obtain ⟨g, y, hg, h0, h1, h2, hx0, hxt⟩ := h
  exact ⟨g, y, hg, h0, h1, h2, by rw [e 0 (by norm_num), hx0], fun t ht ht' => by rw [e _ (mtPos_lt t), hxt t ht ht']⟩

/-- The sequence exists and is unique. -/
theorem mtArray_exists (a : List (BitVec 32)) (ha : a ≠ []) : ∃! x : ℕ → BitVec 32, MtArrayInit a x ∧ MtRecurrence x := by
  obtain ⟨z, hz⟩ := mtArrayInit_exists a
  refine ⟨mtSeq z, ⟨mtArrayInit_congr hz (fun i hi => mtSeq_init z i hi), mtSeq_rec z⟩, ?_⟩
  rintro w ⟨hw, hr⟩
  obtain ⟨s, e, _, hb⟩ := mtInitByArray_block ha hz [] (fun _ => 0)
  obtain ⟨s', e', _, hb'⟩ := mtInitByArray_block ha hw [] (fun _ => 0)
  rw [e, Option.some.injEq] at e'
  subst e'
  funext n
  induction n using Nat.strong_induction_on with
  | _ n ih =>
    by_cases hn : n < 624
    · rw [mtSeq_init z n hn]
      have h1 := hb n hn
      have h2 := hb' n hn
      rw [zero_add] at h1 h2
      rw [← h1, h2]
    · obtain ⟨k, rfl⟩ : ∃ k, n = k + 624 := ⟨n - 624, by omega⟩
      rw [hr k, mtSeq_rec z k, ih (k + 397) (by omega), ih k (by omega), ih (k + 1) (by omega)]

theorem mtBlend_left_inj {c u v p : BitVec 32} (h : mtBlend c u p = mtBlend c v p) : u = v := by
  unfold mtBlend at h
  exact (BitVec.xor_left_inj _).1 h

/-- Arrays of the same length of at most 622 words with the same state are equal. -/
theorem mtArrayInit_inj {a b : List (BitVec 32)} {x z : ℕ → BitVec 32} (ha : a ≠ []) (hl : a.length = b.length) (hn : a.length ≤ 622)
    (hx : MtArrayInit a x) (hz : MtArrayInit b z) (h : ∀ i, 0 < i → i < 624 → x i = z i) : a = b := by
  obtain ⟨g, y, hg, hy0, hy1, hy2, _, hyt⟩ := hx
  obtain ⟨g', y', hg', hy0', hy1', hy2', _, hyt'⟩ := hz
  have hpos : 0 < a.length := List.length_pos_iff.2 ha
  rw [← hl] at hy1' hy2' hyt'
  rw [show max 624 a.length = 624 by omega] at hy1 hy2 hyt hy1' hy2' hyt'
  have hgg : ∀ i < 624, g i = g' i := by
    intro i hi
    induction i with
    | zero => rw [hg.1, hg'.1]
    | succ i ih => rw [hg.2 i hi, hg'.2 i hi, ih (by omega)]
  have s1 : ∀ t, 624 < t → t ≤ 624 + 623 → y t = y' t := by
    intro t h1 h2
    rw [← hyt t h1 h2, ← hyt' t h1 h2]
    exact h _ (by unfold mtPos; omega) (mtPos_lt t)
  have back : ∀ t, 624 < t → t ≤ 624 + 623 → y (t - 1) = y' (t - 1) → y (t - 623) = y' (t - 623) := by
    intro t h1 h2 hp
    have e := s1 t h1 h2
    rw [hy2 t h1 h2, hy2' t h1 h2, hp, mtOld, if_neg (by omega), mtOld, if_neg (by omega)] at e
    exact mtBlend_left_inj ((BitVec.sub_left_inj _).1 e)
  have s2 : ∀ t, 3 ≤ t → t ≤ 624 → y t = y' t := by
    intro t h1 h2
    have := back (t + 623) (by omega) (by omega) (s1 _ (by omega) (by omega))
    rwa [show t + 623 - 623 = t by omega] at this
  have s3 : ∀ t, 2 ≤ t → t ≤ 624 → y t = y' t := by
    intro t h1 h2
    by_cases h3 : t = 2
    · subst h3
      exact back 625 (by norm_num) (by norm_num) (s2 624 (by norm_num) le_rfl)
    · exact s2 t (by omega) h2
  have get : ∀ t, 1 ≤ t → t ≤ 624 → y t = y' t → y (t - 1) = y' (t - 1) → mtOld g y t = mtOld g' y' t →
      a.getD ((t - 1) % a.length) 0 = b.getD ((t - 1) % a.length) 0 := by
    intro t h1 h2 e1 e2 e3
    rw [hy1 t h1 h2, hy1' t h1 h2, e2, e3] at e1
    exact (BitVec.add_right_inj _).1 ((BitVec.add_left_inj _).1 e1)
  have s4 : ∀ n, 2 ≤ n → n ≤ 622 → a.getD (n % a.length) 0 = b.getD (n % a.length) 0 := by
    intro n h1 h2
    exact get (n + 1) (by omega) (by omega) (s3 _ (by omega) (by omega)) (s3 _ (by omega) (by omega))
      (by unfold mtOld; rw [if_pos (by omega), if_pos (by omega), hgg _ (by omega)])
  have key : ∀ r < a.length, a.getD r 0 = b.getD r 0 := by
    intro r hr
    by_cases h2 : 2 ≤ r
    · have := s4 r h2 (by omega)
      rwa [Nat.mod_eq_of_lt hr] at this
    · by_cases h3 : 2 ≤ r + a.length ∧ r + a.length ≤ 622
      · have := s4 (r + a.length) h3.1 h3.2
        rwa [Nat.add_mod_right, Nat.mod_eq_of_lt hr] at this
      · by_cases h4 : a.length = 1
        · have := s4 2 le_rfl (by norm_num)
          rwa [h4, Nat.mod_one, ← show r = 0 by omega] at this
        · -- 622 words, the second of which was used last
          have hL : a.length = 622 := by omega
          have hr1 : r = 1 := by omega
          subst hr1
          have h0 := s4 622 (by norm_num) le_rfl
          rw [hL, Nat.mod_self] at h0
          have ey1 : y 1 = y' 1 := by
            rw [hy1 1 le_rfl (by norm_num), hy1' 1 le_rfl (by norm_num), hL]
            simp only [Nat.sub_self, Nat.zero_mod]
            rw [hy0, hy0', hgg 0 (by norm_num), h0]
            unfold mtOld
            rw [if_pos (by norm_num), if_pos (by norm_num), hgg 1 (by norm_num)]
          have := get 624 (by norm_num) le_rfl (s3 624 (by norm_num) le_rfl) (s3 623 (by norm_num) (by norm_num))
            (by unfold mtOld; rw [if_neg (by norm_num), if_neg (by norm_num)]; exact ey1)
          rwa [hL, show (624 - 1) % 622 = 1 by norm_num] at this
  refine List.ext_getElem hl fun i h1 h2 => ?_
  have := key i h1
  rw [List.getD_eq_getElem?_getD, List.getD_eq_getElem?_getD, List.getElem?_eq_getElem h1, List.getElem?_eq_getElem h2] at this
  simpa using this

end Moo
