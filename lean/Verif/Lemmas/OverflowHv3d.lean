import Verif.Lemmas.Overflow

/-!
# `fpli_hv3d_ref` with and without a largest exponent
-/

set_option autoImplicit false
set_option linter.unusedSectionVars false

namespace Moo

variable {x : ℕ → ℕ → ℝ} {ref : ℕ → ℝ} {f g : ℝ → ℝ} {N : List ℕ} {d m ν : ℕ}

/-- What is assumed: two roundings that agree up to `2 ^ 1023`, at most `2 ^ ν` points with coordinates up to `2 ^ m`. -/
structure OvData (f g : ℝ → ℝ) (x : ℕ → ℕ → ℝ) (ref : ℕ → ℝ) (N : List ℕ) (d m ν : ℕ) : Prop where
  ag : SameUpTo f g
  pts : ∀ p ∈ N, ∀ k < d, |x p k| ≤ 2 ^ m
  refb : ∀ k < d, |ref k| ≤ 2 ^ m
  len : N.length ≤ 2 ^ ν
  ν52 : ν ≤ 52
  cap : d * (ν + m + 1) + 1 ≤ 1023

theorem OvData.capi (h : OvData f g x ref N d m ν) {i : ℕ} (hi : i ≤ d) : i * (ν + m + 1) + 1 ≤ 1023 := by
  have := Nat.mul_le_mul_right (ν + m + 1) hi
  have := h.cap
  omega

theorem HvCoord.ov (h : OvData f g x ref N d m ν) {k : ℕ} (hk : k < d) {v : ℝ} (hv : HvCoord x ref N k v) : |v| ≤ 2 ^ m := by
  rcases hv with rfl | ⟨p, hp, rfl⟩
  · exact h.refb k hk
  · exact h.pts p hp k hk

/-- The product of two differences. -/
theorem OvData.box (h : OvData f g x ref N d m ν) (hd : 3 ≤ d) {a a' b b' : ℝ} (ha : |a| ≤ 2 ^ m) (ha' : |a'| ≤ 2 ^ m) (hb : |b| ≤ 2 ^ m)
    (hb' : |b'| ≤ 2 ^ m) : f (f (b' - b) * f (a' - a)) = g (g (b' - b) * g (a' - a)) ∧ |g (g (b' - b) * g (a' - a))| ≤ 2 ^ (2 * (m + 1)) := by
  have hc := h.capi hd
  obtain ⟨a1, a2⟩ := h.ag.sub m ha' ha (by omega)
  obtain ⟨b1, b2⟩ := h.ag.sub m hb' hb (by omega)
  rw [a1, b1]
  exact h.ag.op1 (2 * (m + 1)) ((abs_mul_le b2 a2).trans (by rw [← pow_add, two_mul])) (by omega)

theorem hv3dPopF_agree (h : OvData f g x ref N d m ν) (hd : 3 ≤ d) (pp : ℕ) {nxt0 : ℝ} (hn : |nxt0| ≤ 2 ^ m) : ∀ (R : List ℕ) (a : ℝ) (k : ℕ),
    (∀ p ∈ R, p ∈ N) → |a| ≤ k * 2 ^ (2 * (m + 1)) → k + R.length ≤ 2 ^ (ν + 1) →
    hv3dPopF f x ref pp nxt0 R a = hv3dPopF g x ref pp nxt0 R a ∧ (∀ p ∈ (hv3dPopF g x ref pp nxt0 R a).1, p ∈ R) ∧
      |(hv3dPopF g x ref pp nxt0 R a).2.2| ≤ 2 ^ m ∧
      ∃ k' : ℕ, |(hv3dPopF g x ref pp nxt0 R a).2.1| ≤ k' * 2 ^ (2 * (m + 1)) ∧ k' + (hv3dPopF g x ref pp nxt0 R a).1.length ≤ k + R.length
  | [], a, k, _, hh, _ => by
    unfold hv3dPopF
    exact ⟨rfl, by simp, h.refb 1 (by omega), k, hh, le_refl _⟩
  | [cur], a, k, hR, hh, hk => by
    have hc := h.capi hd
    have hν := h.ν52
    unfold hv3dPopF
    have hcur := h.pts cur (hR cur (by simp))
    obtain ⟨b1, b2⟩ := h.box hd (hcur 0 (by omega)) hn (hcur 1 (by omega)) (h.refb 1 (by omega))
    rw [b1]
    obtain ⟨s1, s2⟩ := h.ag.subc k (ν + 1) (2 * (m + 1)) hh b2 (by simpa using hk) (by omega) (by omega)
    rw [s1]
    exact ⟨rfl, by simp, h.refb 1 (by omega), k + 1, s2, by simp⟩
  | cur :: prv :: rest, a, k, hR, hh, hk => by
    have hc := h.capi hd
    have hν := h.ν52
    unfold hv3dPopF
    have hcur := h.pts cur (hR cur (by simp))
    have hprv := h.pts prv (hR prv (by simp))
    have hlen : (cur :: prv :: rest).length = (prv :: rest).length + 1 := rfl
    obtain ⟨b1, b2⟩ := h.box hd (hcur 0 (by omega)) hn (hcur 1 (by omega)) (hprv 1 (by omega))
    dsimp only
    rw [b1]
    obtain ⟨s1, s2⟩ := h.ag.subc k (ν + 1) (2 * (m + 1)) hh b2 (by rw [hlen] at hk; omega) (by omega) (by omega)
    rw [s1]
    by_cases hx : x prv 0 < x pp 0
    · rw [if_pos hx, if_pos hx]
      exact ⟨rfl, fun p hp => by simp at hp ⊢; tauto, hprv 1 (by omega), k + 1, s2, by rw [hlen]; show k + 1 + (prv :: rest).length ≤ _; omega⟩
    · rw [if_neg hx, if_neg hx]
      obtain ⟨i1, i2, i3, k', i4, i5⟩ := hv3dPopF_agree h hd pp hn (prv :: rest) _ (k + 1) (fun p hp => hR p (by simp at hp ⊢; tauto)) s2
        (by rw [hlen] at hk; omega)
      exact ⟨i1, fun p hp => by have := i2 p hp; simp at this ⊢; tauto, i3, k', i4, by rw [hlen]; omega⟩

theorem hv3dUpdateF_agree (h : OvData f g x ref N d m ν) (hd : 3 ≤ d) (T : List ℕ) (pp : ℕ) (a : ℝ) (k : ℕ) (hT : ∀ p ∈ T, p ∈ N) (hpp : pp ∈ N)
    (ha : |a| ≤ k * 2 ^ (2 * (m + 1))) (hk : k + T.length + 1 ≤ 2 ^ (ν + 1)) :
    hv3dUpdateF f x ref T pp a = hv3dUpdateF g x ref T pp a ∧ ∀ T' a', hv3dUpdateF g x ref T pp a = some (T', a') → (∀ p ∈ T', p ∈ N) ∧
      ∃ k' : ℕ, |a'| ≤ k' * 2 ^ (2 * (m + 1)) ∧ k' + T'.length ≤ k + T.length + 2 := by
  have hc := h.capi hd
  have hν := h.ν52
  unfold hv3dUpdateF
  dsimp only
  set before := T.takeWhile (fun t => decide (0 < compareTreeAsc (x pp) (x t))) with hbd
  set after := T.dropWhile (fun t => decide (0 < compareTreeAsc (x pp) (x t))) with had
  have hTsplit : before ++ after = T := List.takeWhile_append_dropWhile
  have hlenT : before.length + after.length = T.length := by rw [← hTsplit, List.length_append]
  have hbN : ∀ p ∈ before, p ∈ N := fun p hp => hT p (by rw [← hTsplit]; simp [hp])
  have haN : ∀ p ∈ after, p ∈ N := fun p hp => hT p (by rw [← hTsplit]; simp [hp])
  have hnx : |nextX x ref after| ≤ 2 ^ m := (HvCoord.nextX haN).ov h (by omega)
  have hp0 := h.pts pp hpp
  by_cases hg : nextX x ref after > x pp 0
  swap
  · rw [if_neg hg, if_neg hg]
    exact ⟨rfl, fun T' a' h => by simp at h⟩
  rw [if_pos hg, if_pos hg]
  rcases hrev : before.reverse with _ | ⟨t, rest⟩
  · dsimp only
    obtain ⟨b1, b2⟩ := h.box hd (hp0 0 (by omega)) hnx (hp0 1 (by omega)) (h.refb 1 (by omega))
    rw [b1]
    obtain ⟨s1, s2⟩ := h.ag.add k (ν + 1) (2 * (m + 1)) ha b2 (by omega) (by omega) (by omega)
    rw [s1]
    refine ⟨rfl, fun T' a' he => ?_⟩
    simp only [Option.some.injEq, Prod.mk.injEq] at he
    obtain ⟨rfl, rfl⟩ := he
    exact ⟨fun p hp => by rcases List.mem_cons.1 hp with rfl | hp; exacts [hpp, haN p hp], k + 1, s2, by simp; omega⟩
  · have hblen : before.length = rest.length + 1 := by rw [← List.length_reverse, hrev]; rfl
    have hRN : ∀ p ∈ t :: rest, p ∈ N := fun p hp => hbN p (List.mem_reverse.1 (hrev ▸ hp))
    dsimp only
    by_cases ht : x t 0 > x pp 0
    · rw [if_pos ht, if_pos ht]
      obtain ⟨i1, i2, i3, k', i4, i5⟩ := hv3dPopF_agree h hd pp hnx (t :: rest) a k hRN ha (by simp; omega)
      rw [i1]
      set r := hv3dPopF g x ref pp (nextX x ref after) (t :: rest) a
      obtain ⟨b1, b2⟩ := h.box hd (hp0 0 (by omega)) hnx (hp0 1 (by omega)) i3
      rw [b1]
      have i5' : k' + r.1.length ≤ k + before.length := by simpa [hblen] using i5
      obtain ⟨s1, s2⟩ := h.ag.add k' (ν + 1) (2 * (m + 1)) i4 b2 (by omega) (by omega) (by omega)
      rw [s1]
      refine ⟨rfl, fun T' a' he => ?_⟩
      simp only [Option.some.injEq, Prod.mk.injEq] at he
      obtain ⟨rfl, rfl⟩ := he
      refine ⟨fun p hp => ?_, k' + 1, s2, by simp; omega⟩
      rcases List.mem_append.1 hp with hp | hp
      · exact hRN p (i2 p (List.mem_reverse.1 hp))
      · rcases List.mem_cons.1 hp with rfl | hp
        exacts [hpp, haN p hp]
    · rw [if_neg ht, if_neg ht]
      obtain ⟨b1, b2⟩ := h.box hd (hp0 0 (by omega)) hnx (hp0 1 (by omega)) (h.pts t (hRN t (by simp)) 1 (by omega))
      rw [b1]
      obtain ⟨s1, s2⟩ := h.ag.add k (ν + 1) (2 * (m + 1)) ha b2 (by omega) (by omega) (by omega)
      rw [s1]
      refine ⟨rfl, fun T' a' he => ?_⟩
      simp only [Option.some.injEq, Prod.mk.injEq] at he
      obtain ⟨rfl, rfl⟩ := he
      refine ⟨fun p hp => ?_, k + 1, s2, by simp; omega⟩
      rcases List.mem_append.1 hp with hp | hp
      · exact hbN p hp
      · rcases List.mem_cons.1 hp with rfl | hp
        exacts [hpp, haN p hp]

/-- One slab. -/
theorem OvData.slab (h : OvData f g x ref N d m ν) (hd : 3 ≤ d) {v a z z' : ℝ} {j k : ℕ} (hv : |v| ≤ j * 2 ^ (ν + 1 + 3 * (m + 1)))
    (ha : |a| ≤ k * 2 ^ (2 * (m + 1))) (hk : k ≤ 2 ^ (ν + 1)) (hz : |z| ≤ 2 ^ m) (hz' : |z'| ≤ 2 ^ m) (hj : j + 1 ≤ 2 ^ ν) :
    f (z' - z) = g (z' - z) ∧ f (v + f (a * g (z' - z))) = g (v + g (a * g (z' - z))) ∧ f (a * g (z' - z)) = g (a * g (z' - z)) ∧
      |g (a * g (z' - z))| ≤ (1 : ℕ) * 2 ^ (ν + 1 + 3 * (m + 1)) ∧ |g (v + g (a * g (z' - z)))| ≤ (j + 1 : ℕ) * 2 ^ (ν + 1 + 3 * (m + 1)) := by
  have hc := h.capi hd
  have hν := h.ν52
  obtain ⟨z1, z2⟩ := h.ag.sub m hz' hz (by omega)
  have ha2 : |a| ≤ 2 ^ (ν + 1 + 2 * (m + 1)) := by
    refine ha.trans ?_
    rw [pow_add 2 (ν + 1)]
    exact mul_le_mul_of_nonneg_right (by exact_mod_cast hk) (by positivity)
  obtain ⟨m1, m2⟩ := h.ag.op1 (z := a * g (z' - z)) (ν + 1 + 3 * (m + 1))
    ((abs_mul_le ha2 z2).trans (le_of_eq (by rw [← pow_add]; congr 1; omega))) (by omega)
  obtain ⟨s1, s2⟩ := h.ag.add j ν (ν + 1 + 3 * (m + 1)) hv m2 hj (by omega) (by omega)
  refine ⟨z1, ?_, m1, by simpa using m2, s2⟩
  rw [m1, s1]

/-- The loop changes only the marks. -/
theorem hv3dLoopF_rest (g : ℝ → ℝ) (x : ℕ → ℕ → ℝ) (ref : ℕ → ℝ) : ∀ (fuel pp : ℕ) (T : List ℕ) (a v : ℝ) (S : HvState ℝ),
    ∃ ig, (hv3dLoopF g x ref fuel pp T a v S).2 = { S with ignore := ig }
  | 0, _, _, _, _, S => ⟨S.ignore, rfl⟩
  | fuel + 1, pp, T, a, v, S => by
    unfold hv3dLoopF
    dsimp only
    by_cases hig : S.ignore pp ≥ 2
    · simp only [if_pos hig]
      by_cases hn : S.next 2 pp = 0
      · rw [if_pos hn]; exact ⟨S.ignore, rfl⟩
      · rw [if_neg hn]; exact hv3dLoopF_rest g x ref fuel _ _ _ _ _
    · simp only [if_neg hig]
      cases hu : hv3dUpdateF g x ref T pp a with
      | none =>
        dsimp only
        by_cases hn : S.next 2 pp = 0
        · rw [if_pos hn]; exact ⟨_, rfl⟩
        · rw [if_neg hn]
          obtain ⟨ig, h⟩ := hv3dLoopF_rest g x ref fuel (S.next 2 pp) T a _ { S with ignore := upd S.ignore pp 2 }
          exact ⟨ig, h⟩
      | some r =>
        dsimp only
        by_cases hn : S.next 2 pp = 0
        · rw [if_pos hn]; exact ⟨S.ignore, rfl⟩
        · rw [if_neg hn]; exact hv3dLoopF_rest g x ref fuel _ _ _ _ _

theorem hv3dRefF_rest (g : ℝ → ℝ) (x : ℕ → ℕ → ℝ) (ref : ℕ → ℝ) (c : ℕ) (S : HvState ℝ) : ∃ ig, (hv3dRefF g x ref c S).2 = { S with ignore := ig } := by
  unfold hv3dRefF
  dsimp only
  split
  · exact ⟨S.ignore, rfl⟩
  · exact hv3dLoopF_rest ..

theorem hv3dStepF_agree (h : OvData f g x ref N d m ν) (hd : 3 ≤ d) (pp : ℕ) (T : List ℕ) (a v z' : ℝ) (k j c : ℕ) (S : HvState ℝ) (hpp : pp ∈ N)
    (hT : ∀ q ∈ T, q ∈ N) (ha : |a| ≤ k * 2 ^ (2 * (m + 1))) (hk : k + T.length ≤ 2 * c) (hv : |v| ≤ j * 2 ^ (ν + 1 + 3 * (m + 1))) (hj : j ≤ c)
    (hc : c + 1 ≤ 2 ^ ν) (hz' : |z'| ≤ 2 ^ m) :
    hv3dStepF f x ref pp T a v z' S = hv3dStepF g x ref pp T a v z' S ∧
      ∃ T' a' v' ig, hv3dStepF g x ref pp T a v z' S = (T', a', v', { S with ignore := ig }) ∧ (∀ q ∈ T', q ∈ N) ∧
        (∃ k' : ℕ, |a'| ≤ k' * 2 ^ (2 * (m + 1)) ∧ k' + T'.length ≤ 2 * (c + 1)) ∧ |v'| ≤ (j + 1 : ℕ) * 2 ^ (ν + 1 + 3 * (m + 1)) := by
  have h2 : 2 ^ (ν + 1) = 2 * 2 ^ ν := by rw [pow_succ, mul_comm]
  have hzp := h.pts pp hpp 2 (by omega)
  have hslab : ∀ (a' : ℝ) (k' : ℕ), |a'| ≤ k' * 2 ^ (2 * (m + 1)) → k' ≤ 2 ^ (ν + 1) → _ := fun a' k' h1 h2 => h.slab hd hv h1 h2 hzp hz' (by omega)
  have hv1 : |v| ≤ (j + 1 : ℕ) * 2 ^ (ν + 1 + 3 * (m + 1)) :=
    hv.trans (mul_le_mul_of_nonneg_right (by exact_mod_cast Nat.le_succ j) (by positivity))
  unfold hv3dStepF
  by_cases hig : S.ignore pp ≥ 2
  · simp only [if_pos hig]
    obtain ⟨s1, s2, -, -, s5⟩ := hslab a k ha (by omega)
    rw [s1, s2]
    exact ⟨rfl, T, a, _, S.ignore, rfl, hT, ⟨k, ha, by omega⟩, s5⟩
  · simp only [if_neg hig]
    obtain ⟨u1, u2⟩ := hv3dUpdateF_agree h hd T pp a k hT hpp ha (by omega)
    rw [u1]
    cases hu : hv3dUpdateF g x ref T pp a with
    | none =>
      dsimp only
      obtain ⟨s1, s2, -, -, s5⟩ := hslab a k ha (by omega)
      rw [s1, s2]
      refine ⟨rfl, T, a, _, _, rfl, hT, ⟨k, ha, by omega⟩, ?_⟩
      split
      · exact s5
      · exact hv1
    | some r =>
      obtain ⟨T', a'⟩ := r
      obtain ⟨t1, k', t2, t3⟩ := u2 T' a' hu
      dsimp only
      obtain ⟨s1, s2, -, -, s5⟩ := hslab a' k' t2 (by omega)
      rw [s1, s2]
      refine ⟨rfl, T', a', _, S.ignore, rfl, t1, ⟨k', t2, by omega⟩, ?_⟩
      split
      · exact s5
      · exact hv1

theorem ov_total {v : ℝ} {j ν e : ℕ} (hv : |v| ≤ j * 2 ^ e) (hj : j ≤ 2 ^ ν) : |v| ≤ 2 ^ (ν + e) := by
  refine hv.trans ?_
  rw [pow_add]
  exact mul_le_mul_of_nonneg_right (by exact_mod_cast hj) (by positivity)

theorem hv3dLoopF_agree (h : OvData f g x ref N d m ν) (hd : 3 ≤ d) {l : List ℕ} {nx pv : ℕ → ℕ} (h0 : 0 ∉ l) (hlink : Linked nx pv l)
    (hlN : ∀ p ∈ l, p ∈ N) (hln : l.length ≤ 2 ^ ν) :
    ∀ (s P : List ℕ) (pp fuel : ℕ) (T : List ℕ) (a v : ℝ) (k j : ℕ) (S : HvState ℝ), l = P ++ pp :: s → S.next 2 = nx → S.prev 2 = pv →
      (∀ q ∈ T, q ∈ N) → |a| ≤ k * 2 ^ (2 * (m + 1)) → k + T.length ≤ 2 * P.length → |v| ≤ j * 2 ^ (ν + 1 + 3 * (m + 1)) → j ≤ P.length →
      hv3dLoopF f x ref fuel pp T a v S = hv3dLoopF g x ref fuel pp T a v S ∧
        |(hv3dLoopF g x ref fuel pp T a v S).1| ≤ 2 ^ (ν + (ν + 1 + 3 * (m + 1))) := by
  intro s
  induction s with
  | nil =>
    intro P pp fuel T a v k j S hl hnx hpv hT ha hk hv hj
    have hlen : l.length = P.length + 1 := by rw [hl]; simp
    cases fuel with
    | zero => exact ⟨rfl, ov_total hv (by omega)⟩
    | succ fuel =>
      have hppl : pp ∈ l := by rw [hl]; simp
      have hat := LinkedFrom.at (hl ▸ hlink : Linked nx pv (P ++ pp :: []))
      have hlast : S.prev 2 0 = pp := by rw [hpv]; exact hat.2.2.2
      have hn0 : S.next 2 pp = 0 := by rw [hnx]; exact hat.2.2.1
      rw [hv3dLoopF_succ fuel pp T a v (ref 2) S (if_pos hlast.symm), hv3dLoopF_succ fuel pp T a v (ref 2) S (if_pos hlast.symm), if_pos hn0, if_pos hn0]
      obtain ⟨e1, T', a', v', ig, e2, -, -, e4⟩ := hv3dStepF_agree h hd pp T a v (ref 2) k j P.length S (hlN pp hppl) hT ha hk hv hj (by omega)
        (h.refb 2 (by omega))
      rw [e1, e2]
      exact ⟨rfl, ov_total e4 (by omega)⟩
  | cons q s ih =>
    intro P pp fuel T a v k j S hl hnx hpv hT ha hk hv hj
    have hlen : l.length = P.length + (s.length + 2) := by rw [hl]; simp
    cases fuel with
    | zero => exact ⟨rfl, ov_total hv (by omega)⟩
    | succ fuel =>
      have hppl : pp ∈ l := by rw [hl]; simp
      have hql : q ∈ l := by rw [hl]; simp
      have hq0 : ¬ q = 0 := fun h => h0 (h ▸ hql)
      have hat := LinkedFrom.at (hl ▸ hlink : Linked nx pv (P ++ pp :: q :: s))
      have hn0 : S.next 2 pp = q := by rw [hnx]; exact hat.2.2.1
      have hz : |(if pp = S.prev 2 0 then ref 2 else x (S.next 2 pp) 2)| ≤ 2 ^ m := by
        split
        · exact h.refb 2 (by omega)
        · rw [hn0]; exact h.pts q (hlN q hql) 2 (by omega)
      rw [hv3dLoopF_succ fuel pp T a v _ S rfl, hv3dLoopF_succ fuel pp T a v _ S rfl]
      obtain ⟨e1, T', a', v', ig, e2, e3, ⟨k', e4, e5⟩, e6⟩ := hv3dStepF_agree h hd pp T a v _ k j P.length S (hlN pp hppl) hT ha hk hv hj (by omega) hz
      rw [e1, e2, hn0, if_neg hq0, if_neg hq0]
      exact ih (P ++ [pp]) q fuel T' a' v' k' (j + 1) { S with ignore := ig } (by rw [hl]; simp) hnx hpv e3 e4 (by simpa using e5) e6 (by simp; omega)

theorem hv3dRefF_agree (h : OvData f g x ref N d m ν) (hd : 3 ≤ d) {l : List ℕ} (S : HvState ℝ) (c : ℕ) (hne : l ≠ []) (h0 : 0 ∉ l)
    (hlink : Linked (S.next 2) (S.prev 2) l) (hlN : ∀ p ∈ l, p ∈ N) (hln : l.length ≤ 2 ^ ν) (hc1 : c = l.length) :
    hv3dRefF f x ref c S = hv3dRefF g x ref c S ∧ |(hv3dRefF g x ref c S).1| ≤ 2 ^ (ν + (ν + 1 + 3 * (m + 1))) := by
  cases l with
  | nil => exact absurd rfl hne
  | cons pp s =>
    have hat := LinkedFrom.at (l1 := []) hlink
    have hpp : S.next 2 0 = pp := hat.2.1
    have hnx : S.next 2 pp = s.headD 0 := hat.2.2.1
    have hpN := h.pts pp (hlN pp (by simp))
    have hcap := h.capi hd
    obtain ⟨b1, b2⟩ := h.box hd (hpN 1 (by omega)) (h.refb 1 (by omega)) (hpN 0 (by omega)) (h.refb 0 (by omega))
    have hone : (1 : ℕ) ≤ 2 ^ ν := Nat.one_le_two_pow
    have hz : |(if c = 1 then ref 2 else x (S.next 2 pp) 2)| ≤ 2 ^ m := by
      split
      · exact h.refb 2 (by omega)
      · rename_i hne1
        cases s with
        | nil => exact absurd hc1 hne1
        | cons q s => rw [hnx]; exact h.pts q (hlN q (by simp)) 2 (by omega)
    obtain ⟨s1, -, s3, s4, -⟩ := h.slab hd (v := 0) (j := 0) (k := 1) (by simp) (by simpa using b2) (by rw [pow_succ]; omega) (hpN 2 (by omega)) hz (by omega)
    unfold hv3dRefF
    simp only [hpp]
    have hif : ∀ r : ℝ → ℝ, (if c = 1 then r (ref 2 - x pp 2) else r (x (S.next 2 pp) 2 - x pp 2)) =
        r ((if c = 1 then ref 2 else x (S.next 2 pp) 2) - x pp 2) := by intro r; split <;> rfl
    rw [hif, hif, b1, s1, s3]
    cases s with
    | nil =>
      have hnx' : S.next 2 pp = 0 := hnx
      rw [if_pos hnx', if_pos hnx']
      exact ⟨rfl, ov_total s4 hone⟩
    | cons q s =>
      have hn : S.next 2 pp = q := hnx
      have hq0 : ¬ q = 0 := fun he => h0 (by rw [← he]; simp)
      rw [hn, if_neg hq0, if_neg hq0]
      have := hv3dLoopF_agree h hd h0 hlink hlN hln s [pp] q c [pp] _ _ 1 1 S rfl rfl rfl (fun p hp => hlN p (by simp at hp; simp [hp])) (by simpa using b2) (by simp)
        s4 (by simp)
      rw [hn] at this
      exact this

end Moo
