import Verif.Model.FloatHv
import Verif.Lemmas.Float
import Verif.Lemmas.HvMemRec

/-!
# The floating-point run of `fpli_hv3d_ref` follows the exact run
-/

set_option autoImplicit false
set_option linter.unusedSectionVars false

namespace Moo

variable {x : ℕ → ℕ → ℝ} {ref : ℕ → ℝ} {pos : ℕ → ℕ → ℕ} {rnd : ℝ → ℝ}

/-- A value of coordinate `k` that occurs in the data or in the reference point. -/
def HvCoord (x : ℕ → ℕ → ℝ) (ref : ℕ → ℝ) (N : List ℕ) (k : ℕ) (v : ℝ) : Prop := v = ref k ∨ ∃ p ∈ N, v = x p k

/-- How computed areas and volumes are related to the exact ones: `Ra e f k` for an area `e` computed as `f` in `k` steps, `Rv v w z j` for the volume below
the height `z`, computed in `j` steps. -/
structure FSim3 (rnd : ℝ → ℝ) (x : ℕ → ℕ → ℝ) (ref : ℕ → ℝ) (N : List ℕ) (A : ℝ) (Ra : ℝ → ℝ → ℕ → Prop) (Rv : ℝ → ℝ → ℝ → ℕ → Prop) : Prop where
  area_le : ∀ L : List ℕ, (∀ p ∈ L, p ∈ N) → HV 2 x L ref ≤ A
  first : ∀ {a a' b b' : ℝ}, HvCoord x ref N 0 a → HvCoord x ref N 0 a' → HvCoord x ref N 1 b → HvCoord x ref N 1 b' → a ≤ a' → b ≤ b' →
    (a' - a) * (b' - b) ≤ A → Ra ((a' - a) * (b' - b)) (rnd (rnd (a' - a) * rnd (b' - b))) 1
  add : ∀ {e f : ℝ} {k : ℕ} {a a' b b' : ℝ}, Ra e f k → HvCoord x ref N 0 a → HvCoord x ref N 0 a' → HvCoord x ref N 1 b → HvCoord x ref N 1 b' →
    a ≤ a' → b ≤ b' → 0 ≤ e → e + (b' - b) * (a' - a) ≤ A →
    Ra (e + (b' - b) * (a' - a)) (rnd (f + rnd (rnd (b' - b) * rnd (a' - a)))) (k + 1)
  sub : ∀ {e f : ℝ} {k : ℕ} {a a' b b' : ℝ}, Ra e f k → HvCoord x ref N 0 a → HvCoord x ref N 0 a' → HvCoord x ref N 1 b → HvCoord x ref N 1 b' →
    a ≤ a' → b ≤ b' → e ≤ A → 0 ≤ e - (b' - b) * (a' - a) →
    Ra (e - (b' - b) * (a' - a)) (rnd (f - rnd (rnd (b' - b) * rnd (a' - a)))) (k + 1)
  vfirst : ∀ {e f : ℝ} {k : ℕ} {z z' : ℝ}, Ra e f k → k < 2 * N.length → 0 ≤ e → e ≤ A → HvCoord x ref N 2 z → HvCoord x ref N 2 z' → z ≤ z' →
    Rv (e * (z' - z)) (rnd (f * rnd (z' - z))) z' 1
  vadd : ∀ {v w : ℝ} {j : ℕ} {e f : ℝ} {k : ℕ} {z z' : ℝ}, Rv v w z j → Ra e f k → k < 2 * N.length → 0 ≤ e → e ≤ A → HvCoord x ref N 2 z →
    HvCoord x ref N 2 z' → z ≤ z' → Rv (v + e * (z' - z)) (rnd (w + rnd (f * rnd (z' - z)))) z' (j + 1)
  vskip : ∀ {v w z : ℝ} {j : ℕ}, Rv v w z j → Rv v w z (j + 1)
  height : ∀ {z z' : ℝ}, HvCoord x ref N 2 z → HvCoord x ref N 2 z' → (rnd (z' - z) > 0 ↔ z' - z > 0)

variable {N : List ℕ} {A : ℝ} {Ra : ℝ → ℝ → ℕ → Prop} {Rv : ℝ → ℝ → ℝ → ℕ → Prop}

theorem HvCoord.node {p k : ℕ} (hp : p ∈ N) : HvCoord x ref N k (x p k) := Or.inr ⟨p, hp, rfl⟩
theorem HvCoord.refk {k : ℕ} : HvCoord x ref N k (ref k) := Or.inl rfl

theorem HvCoord.nextX {L : List ℕ} (hL : ∀ p ∈ L, p ∈ N) : HvCoord x ref N 0 (nextX x ref L) := by
  cases L with
  | nil => exact HvCoord.refk
  | cons t rest => exact HvCoord.node (hL t (by simp))

theorem HvCoord.prevY {L : List ℕ} (hL : ∀ p ∈ L, p ∈ N) : HvCoord x ref N 1 (prevY x ref L) := by
  cases L with
  | nil => exact HvCoord.refk
  | cons t rest => exact HvCoord.node (hL t (by simp))

theorem hv3dPopF_sim (hs : FSim3 rnd x ref N A Ra Rv) (pp : ℕ) (Suf : List ℕ) (hSN : ∀ p ∈ Suf, p ∈ N) : ∀ (R : List ℕ) (e f : ℝ) (k : ℕ), R ≠ [] →
    Stair x (R.reverse ++ Suf) → (∀ p ∈ R, p ∈ N) → (∀ p ∈ R, x p 0 < ref 0 ∧ x p 1 < ref 1) → (∀ p ∈ Suf, x p 0 < ref 0) →
    e = HV 2 x (R.reverse ++ Suf) ref → Ra e f k →
    (hv3dPopF rnd x ref pp (nextX x ref Suf) R f).1 = (hv3dPop x ref pp (nextX x ref Suf) R e).1 ∧
    (hv3dPopF rnd x ref pp (nextX x ref Suf) R f).2.2 = (hv3dPop x ref pp (nextX x ref Suf) R e).2.2 ∧
    ∃ k', Ra (hv3dPop x ref pp (nextX x ref Suf) R e).2.1 (hv3dPopF rnd x ref pp (nextX x ref Suf) R f).2.1 k' ∧
      k' + (hv3dPop x ref pp (nextX x ref Suf) R e).1.length = k + R.length := by
  intro R
  induction R with
  | nil => intro e f k h; exact absurd rfl h
  | cons cur rest ih =>
    intro e f k _ hst hRN hR hS hh hra
    have hst2 : Stair x (rest.reverse ++ cur :: Suf) := by
      rw [List.reverse_cons, List.append_assoc] at hst; exact hst
    have hins := stair_insert rest Suf cur hst2 (fun p hp => (hR p (List.mem_cons_of_mem _ hp)).2) hS (hR cur (by simp))
    have hh2 : e = HV 2 x (rest.reverse ++ cur :: Suf) ref := by
      rw [hh, List.reverse_cons, List.append_assoc]; rfl
    have hcur := hR cur (by simp)
    have hcN := hRN cur (by simp)
    have hpw := List.pairwise_append.1 hst2
    have hcS := (List.pairwise_cons.1 hpw.2.1).1
    have hnx : x cur 0 ≤ nextX x ref Suf := by
      cases Suf with
      | nil => exact hcur.1.le
      | cons t s => exact (hcS t (by simp)).2
    have heA : e ≤ A := by
      rw [hh2]
      refine hs.area_le _ ?_
      intro p hp
      rcases List.mem_append.1 hp with hp | hp
      · exact hRN p (List.mem_cons_of_mem _ (List.mem_reverse.1 hp))
      · rcases List.mem_cons.1 hp with rfl | hp
        · exact hcN
        · exact hSN p hp
    cases rest with
    | nil =>
      have h0 : 0 ≤ e - (ref 1 - x cur 1) * (nextX x ref Suf - x cur 0) := by
        rw [hh2, hins]
        have : prevY x ref [] = ref 1 := rfl
        rw [this, add_sub_cancel_right]
        exact HV_nonneg
      refine ⟨rfl, rfl, k + 1, ?_, by simp [hv3dPop]⟩
      exact hs.sub hra (HvCoord.node hcN) (HvCoord.nextX hSN) (HvCoord.node hcN) HvCoord.refk hnx hcur.2.le heA h0
    | cons prv rest =>
      have hval : e - (x prv 1 - x cur 1) * (nextX x ref Suf - x cur 0) = HV 2 x ((prv :: rest).reverse ++ Suf) ref := by
        rw [hh2, hins]; simp only [prevY]; ring
      have hst3 : Stair x ((prv :: rest).reverse ++ Suf) :=
        List.pairwise_append.2 ⟨hpw.1, (List.pairwise_cons.1 hpw.2.1).2, fun a ha b hb => hpw.2.2 a ha b (List.mem_cons_of_mem _ hb)⟩
      have hpc : x cur 1 ≤ x prv 1 := (hpw.2.2 prv (by simp) cur (by simp)).1.le
      have hra' := hs.sub hra (HvCoord.node hcN) (HvCoord.nextX hSN) (HvCoord.node hcN) (HvCoord.node (hRN prv (by simp))) hnx hpc heA
        (by rw [hval]; exact HV_nonneg)
      unfold hv3dPop hv3dPopF
      dsimp only
      by_cases hlt : x prv 0 < x pp 0
      · simp only [if_pos hlt]
        exact ⟨trivial, trivial, k + 1, hra', by simp; omega⟩
      · simp only [if_neg hlt]
        obtain ⟨h1, h2, k', h3, h4⟩ := ih _ _ (k + 1) (by simp) hst3 (fun p hp => hRN p (List.mem_cons_of_mem _ hp))
          (fun p hp => hR p (List.mem_cons_of_mem _ hp)) hS hval hra'
        exact ⟨h1, h2, k', h3, by rw [h4]; simp; omega⟩

/-- The update for one point: same tree, related areas. -/
theorem hv3dUpdateF_sim (hs : FSim3 rnd x ref N A Ra Rv) (T : List ℕ) (pp : ℕ) (e f : ℝ) (k : ℕ) (hst : Stair x T) (hTN : ∀ p ∈ T, p ∈ N) (hpN : pp ∈ N)
    (hT : ∀ p ∈ T, x p 0 < ref 0 ∧ x p 1 < ref 1) (hpp : x pp 0 < ref 0 ∧ x pp 1 < ref 1) (hh : e = HV 2 x T ref) (hra : Ra e f k) :
    (hv3dUpdate x ref T pp e = none ∧ hv3dUpdateF rnd x ref T pp f = none) ∨
    ∃ T' e' f' k', hv3dUpdate x ref T pp e = some (T', e') ∧ hv3dUpdateF rnd x ref T pp f = some (T', f') ∧ Ra e' f' k' ∧
      k' + T'.length = k + T.length + 2 ∧ Stair x T' ∧ (∀ q ∈ T', q = pp ∨ q ∈ T) ∧ e' = HV 2 x T' ref := by
  have hspec := hv3dUpdate_spec T pp e hst hT hpp hh
  have hmemN : ∀ T' : List ℕ, (∀ q ∈ T', q = pp ∨ q ∈ T) → ∀ p ∈ T', p ∈ N := by
    intro T' h p hp
    rcases h p hp with rfl | h
    · exact hpN
    · exact hTN p h
  have he0 : 0 ≤ e := by rw [hh]; exact HV_nonneg
  set g : ℕ → Bool := fun t => decide (0 < compareTreeAsc (x pp) (x t)) with hg
  set pre := T.takeWhile g with hpre
  set suf := T.dropWhile g with hsuf
  have hsplit : T = pre ++ suf := (List.takeWhile_append_dropWhile ..).symm
  have hmem : ∀ p, p ∈ T ↔ p ∈ pre ∨ p ∈ suf := by intro p; rw [hsplit, List.mem_append]
  have hsN : ∀ p ∈ suf, p ∈ N := fun p hp => hTN p ((hmem p).2 (Or.inr hp))
  have hlen : T.length = pre.length + suf.length := by rw [hsplit, List.length_append]
  have hpreP : ∀ a ∈ pre, x pp 1 ≤ x a 1 := by
    intro a ha
    have hga := List.mem_takeWhile_imp ha
    rcases cmpTree_pos.1 (of_decide_eq_true hga) with h | h
    · exact h.le
    · exact h.1.le
  have hval : hv3dUpdate x ref T pp e =
      (if nextX x ref suf > x pp 0 then
        match pre.reverse with
        | [] => some (pp :: suf, e + (ref 1 - x pp 1) * (nextX x ref suf - x pp 0))
        | t :: rest =>
          if x t 0 > x pp 0 then
            let r := hv3dPop x ref pp (nextX x ref suf) (t :: rest) e
            some (r.1.reverse ++ pp :: suf, r.2.1 + (r.2.2 - x pp 1) * (nextX x ref suf - x pp 0))
          else some (pre ++ pp :: suf, e + (x t 1 - x pp 1) * (nextX x ref suf - x pp 0))
      else none) := rfl
  have hvalF : hv3dUpdateF rnd x ref T pp f =
      (if nextX x ref suf > x pp 0 then
        match pre.reverse with
        | [] => some (pp :: suf, rnd (f + rnd (rnd (ref 1 - x pp 1) * rnd (nextX x ref suf - x pp 0))))
        | t :: rest =>
          if x t 0 > x pp 0 then
            let r := hv3dPopF rnd x ref pp (nextX x ref suf) (t :: rest) f
            some (r.1.reverse ++ pp :: suf, rnd (r.2.1 + rnd (rnd (r.2.2 - x pp 1) * rnd (nextX x ref suf - x pp 0))))
          else some (pre ++ pp :: suf, rnd (f + rnd (rnd (x t 1 - x pp 1) * rnd (nextX x ref suf - x pp 0))))
      else none) := rfl
  by_cases hgt : nextX x ref suf > x pp 0
  · right
    rw [if_pos hgt] at hval hvalF
    cases hrev : pre.reverse with
    | nil =>
      have hpe : pre = [] := by simpa using hrev
      rw [hrev] at hval hvalF
      dsimp only at hval hvalF
      rw [hval] at hspec
      obtain ⟨s1, s2, s3, s4⟩ := hspec
      refine ⟨_, _, _, k + 1, hval, hvalF, ?_, ?_, s1, s2, s4⟩
      · refine hs.add hra (HvCoord.node hpN) (HvCoord.nextX hsN) (HvCoord.node hpN) HvCoord.refk (le_of_lt hgt) hpp.2.le he0 ?_
        rw [s4]; exact hs.area_le _ (hmemN _ s2)
      · rw [hlen, hpe]; simp; omega
    | cons t rest =>
      have hpe : pre = (t :: rest).reverse := by rw [← hrev, List.reverse_reverse]
      have htpre : t ∈ pre := by rw [hpe]; simp
      have htN : t ∈ N := hTN t ((hmem t).2 (Or.inl htpre))
      have hplen : pre.length = rest.length + 1 := by rw [hpe]; simp
      rw [hrev] at hval hvalF
      dsimp only at hval hvalF
      by_cases htgt : x t 0 > x pp 0
      · rw [if_pos htgt] at hval hvalF
        rw [hval] at hspec
        obtain ⟨s1, s2, s3, s4⟩ := hspec
        have hTpre : ∀ p ∈ t :: rest, p ∈ pre := fun p hp => by rw [hpe, List.mem_reverse]; exact hp
        have hstp : Stair x ((t :: rest).reverse ++ suf) := by rw [← hpe, ← hsplit]; exact hst
        have hehv : e = HV 2 x ((t :: rest).reverse ++ suf) ref := by rw [hh, ← hpe, ← hsplit]
        have hTsuf : ∀ p ∈ suf, x p 0 < ref 0 := fun p hp => (hT p ((hmem p).2 (Or.inr hp))).1
        have hRr : ∀ p ∈ t :: rest, x p 0 < ref 0 ∧ x p 1 < ref 1 := fun p hp => hT p ((hmem p).2 (Or.inl (hTpre p hp)))
        obtain ⟨q1, q2, k', q3, q4⟩ := hv3dPopF_sim hs pp suf hsN (t :: rest) e f k (by simp) hstp
          (fun p hp => hTN p ((hmem p).2 (Or.inl (hTpre p hp)))) hRr hTsuf hehv hra
        obtain ⟨P, R', h1, -, -, -, h4⟩ := hv3dPop_spec (ref := ref) pp suf (t :: rest) e (by simp) hstp hRr hTsuf (le_of_lt htgt) hehv
        have hR'pre : ∀ p ∈ R', p ∈ pre := fun p hp => hTpre p (by rw [h1]; simp [hp])
        rw [q1, q2] at hvalF
        refine ⟨_, _, _, k' + 1, hval, hvalF, ?_, ?_, s1, s2, s4⟩
        · rw [h4] at q3 s2 s4 ⊢
          dsimp only at q3 s2 s4 ⊢
          have hpy : x pp 1 ≤ prevY x ref R' := by
            cases hR' : R' with
            | nil => exact hpp.2.le
            | cons a r => exact hpreP a (hR'pre a (by rw [hR']; simp))
          refine hs.add q3 (HvCoord.node hpN) (HvCoord.nextX hsN) (HvCoord.node hpN)
            (HvCoord.prevY (fun p hp => hTN p ((hmem p).2 (Or.inl (hR'pre p hp))))) (le_of_lt hgt) hpy HV_nonneg ?_
          rw [s4]; exact hs.area_le _ (hmemN _ s2)
        · simp only [List.length_cons] at q4
          simp only [List.length_append, List.length_reverse, List.length_cons]
          omega
      · rw [if_neg htgt] at hval hvalF
        rw [hval] at hspec
        obtain ⟨s1, s2, s3, s4⟩ := hspec
        refine ⟨_, _, _, k + 1, hval, hvalF, ?_, ?_, s1, s2, s4⟩
        · refine hs.add hra (HvCoord.node hpN) (HvCoord.nextX hsN) (HvCoord.node hpN) (HvCoord.node htN) (le_of_lt hgt) (hpreP t htpre) he0 ?_
          rw [s4]; exact hs.area_le _ (hmemN _ s2)
        · simp only [List.length_append, List.length_cons]; omega
  · left
    rw [if_neg hgt] at hval hvalF
    exact ⟨hval, hvalF⟩

/-- One iteration of the exact loop, with `z'` the next height. -/
noncomputable def hv3dStep (x : ℕ → ℕ → ℝ) (ref : ℕ → ℝ) (pp : ℕ) (T : List ℕ) (e v : ℝ) (z' : ℝ) (S : HvState ℝ) : List ℕ × ℝ × ℝ × HvState ℝ :=
  if S.ignore pp ≥ 2 then (T, e, v + e * (z' - x pp 2), S)
  else match hv3dUpdate x ref T pp e with
    | none => (T, e, if z' - x pp 2 > 0 then v + e * (z' - x pp 2) else v, { S with ignore := upd S.ignore pp 2 })
    | some (T', e') => (T', e', if z' - x pp 2 > 0 then v + e' * (z' - x pp 2) else v, S)

/-- One iteration of the floating-point loop. -/
noncomputable def hv3dStepF (rnd : ℝ → ℝ) (x : ℕ → ℕ → ℝ) (ref : ℕ → ℝ) (pp : ℕ) (T : List ℕ) (f w : ℝ) (z' : ℝ) (S : HvState ℝ) :
    List ℕ × ℝ × ℝ × HvState ℝ :=
  if S.ignore pp ≥ 2 then (T, f, rnd (w + rnd (f * rnd (z' - x pp 2))), S)
  else match hv3dUpdateF rnd x ref T pp f with
    | none => (T, f, if rnd (z' - x pp 2) > 0 then rnd (w + rnd (f * rnd (z' - x pp 2))) else w, { S with ignore := upd S.ignore pp 2 })
    | some (T', f') => (T', f', if rnd (z' - x pp 2) > 0 then rnd (w + rnd (f' * rnd (z' - x pp 2))) else w, S)

theorem hv3dLoop_succ (fuel pp : ℕ) (T : List ℕ) (e v z' : ℝ) (S : HvState ℝ) (hz : (if pp = S.prev 2 0 then ref 2 else x (S.next 2 pp) 2) = z') :
    hv3dLoop x ref (fuel + 1) pp T e v S =
      if S.next 2 pp = 0 then ((hv3dStep x ref pp T e v z' S).2.2.1, (hv3dStep x ref pp T e v z' S).2.2.2)
      else hv3dLoop x ref fuel (S.next 2 pp) (hv3dStep x ref pp T e v z' S).1 (hv3dStep x ref pp T e v z' S).2.1 (hv3dStep x ref pp T e v z' S).2.2.1
        (hv3dStep x ref pp T e v z' S).2.2.2 := by
  have h : (if pp = S.prev 2 0 then ref 2 - x pp 2 else x (S.next 2 pp) 2 - x pp 2) = z' - x pp 2 := by
    rw [← hz]; split <;> rfl
  conv_lhs => unfold hv3dLoop
  rw [h]
  unfold hv3dStep
  dsimp only
  by_cases hig : S.ignore pp ≥ 2
  · simp only [if_pos hig]
  · simp only [if_neg hig]
    cases hv3dUpdate x ref T pp e with
    | none => dsimp only
    | some r => dsimp only

theorem hv3dLoopF_succ (fuel pp : ℕ) (T : List ℕ) (f w z' : ℝ) (S : HvState ℝ) (hz : (if pp = S.prev 2 0 then ref 2 else x (S.next 2 pp) 2) = z') :
    hv3dLoopF rnd x ref (fuel + 1) pp T f w S =
      if S.next 2 pp = 0 then ((hv3dStepF rnd x ref pp T f w z' S).2.2.1, (hv3dStepF rnd x ref pp T f w z' S).2.2.2)
      else hv3dLoopF rnd x ref fuel (S.next 2 pp) (hv3dStepF rnd x ref pp T f w z' S).1 (hv3dStepF rnd x ref pp T f w z' S).2.1
        (hv3dStepF rnd x ref pp T f w z' S).2.2.1 (hv3dStepF rnd x ref pp T f w z' S).2.2.2 := by
  have h : (if pp = S.prev 2 0 then rnd (ref 2 - x pp 2) else rnd (x (S.next 2 pp) 2 - x pp 2)) = rnd (z' - x pp 2) := by
    rw [← hz]; split <;> rfl
  conv_lhs => unfold hv3dLoopF
  rw [h]
  rfl

/-- The loop: same memory, related volumes. -/
theorem hv3dLoopF_sim (hs : FSim3 rnd x ref N A Ra Rv) {l : List ℕ} {nx pv : ℕ → ℕ} (hl : l.Pairwise (fun a b => pos 2 a < pos 2 b)) (h0 : 0 ∉ l)
    (hlink : Linked nx pv l) (hlN : ∀ p ∈ l, p ∈ N) (hln : l.length ≤ N.length) (href : ∀ p ∈ l, ∀ k < 3, x p k < ref k)
    (hsort : ∀ p ∈ l, ∀ q ∈ l, pos 2 p < pos 2 q → x p 2 ≤ x q 2) :
    ∀ (s P : List ℕ) (pp fuel : ℕ) (T : List ℕ) (e f v w : ℝ) (k j : ℕ) (S : HvState ℝ), l = P ++ pp :: s →
      s.length + 1 ≤ fuel → S.next 2 = nx → S.prev 2 = pv → Stair x T → T ≠ [] → (∀ q ∈ T, q ∈ P) → e = HV 2 x T ref → Ra e f k →
      k + T.length ≤ 2 * P.length → Rv v w (x pp 2) j →
      (hv3dLoopF rnd x ref fuel pp T f w S).2 = (hv3dLoop x ref fuel pp T e v S).2 ∧
      Rv (hv3dLoop x ref fuel pp T e v S).1 (hv3dLoopF rnd x ref fuel pp T f w S).1 (ref 2) (j + s.length + 1) := by
  -- the body, for any next height
  have body : ∀ (s P : List ℕ) (pp : ℕ) (T : List ℕ) (e f v w : ℝ) (k j : ℕ) (S : HvState ℝ) (z' : ℝ), l = P ++ pp :: s →
      Stair x T → T ≠ [] → (∀ q ∈ T, q ∈ P) → e = HV 2 x T ref → Ra e f k → k + T.length ≤ 2 * P.length → Rv v w (x pp 2) j →
      HvCoord x ref N 2 z' → x pp 2 ≤ z' →
      ∃ T' e' f' k' v' w' S',
        hv3dStep x ref pp T e v z' S = (T', e', v', S') ∧ hv3dStepF rnd x ref pp T f w z' S = (T', f', w', S') ∧
        S'.next = S.next ∧ S'.prev = S.prev ∧ Stair x T' ∧ T' ≠ [] ∧ (∀ q ∈ T', q ∈ P ++ [pp]) ∧ e' = HV 2 x T' ref ∧ Ra e' f' k' ∧
        k' + T'.length ≤ 2 * (P ++ [pp]).length ∧ Rv v' w' z' (j + 1) := by
    intro s P pp T e f v w k j S z' hlP hst hTne hTP hh hra hk hrv hz' hzz
    have hppl : pp ∈ l := by rw [hlP]; simp
    have hPl : ∀ p ∈ P, p ∈ l := fun p hp => by rw [hlP]; simp [hp]
    have hlenl : l.length = P.length + (s.length + 1) := by rw [hlP]; simp
    have hTpos : 1 ≤ T.length := List.length_pos_iff.2 hTne
    have hk2 : k < 2 * N.length := by omega
    have hTN : ∀ p ∈ T, p ∈ N := fun p hp => hlN p (hPl p (hTP p hp))
    have hTref : ∀ p ∈ T, x p 0 < ref 0 ∧ x p 1 < ref 1 := fun p hp =>
      ⟨href p (hPl p (hTP p hp)) 0 (by omega), href p (hPl p (hTP p hp)) 1 (by omega)⟩
    have he0 : 0 ≤ e := by rw [hh]; exact HV_nonneg
    have heA : e ≤ A := by rw [hh]; exact hs.area_le _ hTN
    have hcz : HvCoord x ref N 2 (x pp 2) := HvCoord.node (hlN pp hppl)
    have hTP' : ∀ q ∈ T, q ∈ P ++ [pp] := fun q hq => List.mem_append_left _ (hTP q hq)
    have hPlen : (P ++ [pp]).length = P.length + 1 := by simp
    have vol : ∀ (e' f' : ℝ) (k' : ℕ), Ra e' f' k' → k' < 2 * N.length → 0 ≤ e' → e' ≤ A →
        Rv (if z' - x pp 2 > 0 then v + e' * (z' - x pp 2) else v) (if rnd (z' - x pp 2) > 0 then rnd (w + rnd (f' * rnd (z' - x pp 2))) else w) z' (j + 1) := by
      intro e' f' k' hra' hk' h0 hA
      by_cases hp : z' - x pp 2 > 0
      · rw [if_pos hp, if_pos ((hs.height hcz hz').2 hp)]
        exact hs.vadd hrv hra' hk' h0 hA hcz hz' hzz
      · rw [if_neg hp, if_neg (fun h => hp ((hs.height hcz hz').1 h))]
        have : z' = x pp 2 := le_antisymm (by linarith) hzz
        rw [this]; exact hs.vskip hrv
    unfold hv3dStep hv3dStepF
    by_cases hig : S.ignore pp ≥ 2
    · simp only [if_pos hig]
      exact ⟨T, e, f, k, _, _, S, rfl, rfl, rfl, rfl, hst, hTne, hTP', hh, hra, by omega, hs.vadd hrv hra hk2 he0 heA hcz hz' hzz⟩
    · simp only [if_neg hig]
      rcases hv3dUpdateF_sim hs T pp e f k hst hTN (hlN pp hppl) hTref ⟨href pp hppl 0 (by omega), href pp hppl 1 (by omega)⟩ hh hra with
        ⟨h1, h2⟩ | ⟨T', e', f', k', h1, h2, h3, h4, h5, h6, h7⟩
      · rw [h1, h2]
        exact ⟨T, e, f, k, _, _, _, rfl, rfl, rfl, rfl, hst, hTne, hTP', hh, hra, by omega, vol e f k hra hk2 he0 heA⟩
      · rw [h1, h2]
        have hmem' : ∀ q ∈ T', q ∈ P ++ [pp] := by
          intro q hq
          rcases h6 q hq with rfl | hq
          · simp
          · exact hTP' q hq
        have hT'ne : T' ≠ [] := by
          intro h
          rw [h] at h4
          have : e' = 0 := by rw [h7, h, HV_nil]
          have hsp := hv3dUpdate_spec T pp e hst hTref ⟨href pp hppl 0 (by omega), href pp hppl 1 (by omega)⟩ hh
          rw [h1] at hsp
          obtain ⟨q, hq, -⟩ := hsp.2.2.1 pp (Or.inl rfl)
          rw [h] at hq; simp at hq
        have hT'pos : 1 ≤ T'.length := List.length_pos_iff.2 hT'ne
        have hk' : k' < 2 * N.length := by omega
        refine ⟨T', e', f', k', _, _, S, rfl, rfl, rfl, rfl, h5, hT'ne, hmem', h7, h3, by omega, vol e' f' k' h3 hk' ?_ ?_⟩
        · rw [h7]; exact HV_nonneg
        · rw [h7]
          refine hs.area_le _ (fun p hp => ?_)
          rcases h6 p hp with rfl | hp
          · exact hlN p hppl
          · exact hTN p hp
  intro s
  induction s with
  | nil =>
    intro P pp fuel T e f v w k j S hlP hfuel hnx hpv hst hTne hTP hh hra hk hrv
    obtain ⟨fuel, rfl⟩ : ∃ f, fuel = f + 1 := ⟨fuel - 1, by simp at hfuel; omega⟩
    have hppl : pp ∈ l := by rw [hlP]; simp
    have hat := LinkedFrom.at (hlP ▸ hlink : Linked nx pv (P ++ pp :: []))
    have hlast : S.prev 2 0 = pp := by rw [hpv]; exact hat.2.2.2
    have hn0 : S.next 2 pp = 0 := by rw [hnx]; exact hat.2.2.1
    obtain ⟨T', e', f', k', v', w', S', b1, b2, -, -, -, -, -, -, -, -, b3⟩ := body [] P pp T e f v w k j S (ref 2) hlP hst hTne hTP hh hra hk hrv
      HvCoord.refk (href pp hppl 2 (by omega)).le
    rw [hv3dLoop_succ fuel pp T e v (ref 2) S (if_pos hlast.symm), hv3dLoopF_succ fuel pp T f w (ref 2) S (if_pos hlast.symm), if_pos hn0, if_pos hn0,
      b1, b2]
    exact ⟨rfl, b3⟩
  | cons q s ih =>
    intro P pp fuel T e f v w k j S hlP hfuel hnx hpv hst hTne hTP hh hra hk hrv
    obtain ⟨fuel, rfl⟩ : ∃ f, fuel = f + 1 := ⟨fuel - 1, by simp at hfuel; omega⟩
    have hppl : pp ∈ l := by rw [hlP]; simp
    have hql : q ∈ l := by rw [hlP]; simp
    have hq0 : ¬ q = 0 := fun h => h0 (h ▸ hql)
    have hat := LinkedFrom.at (hlP ▸ hlink : Linked nx pv (P ++ pp :: q :: s))
    have hn0 : S.next 2 pp = q := by rw [hnx]; exact hat.2.2.1
    have hl' : (P ++ pp :: q :: s).Pairwise (fun a b => pos 2 a < pos 2 b) := hlP ▸ hl
    have hpq : pos 2 pp < pos 2 q := (List.pairwise_cons.1 (List.pairwise_append.1 hl').2.1).1 q (by simp)
    have hlast : ¬ pp = S.prev 2 0 := by
      rw [hpv, LinkedFrom.last (hlP ▸ hlink : Linked nx pv (P ++ pp :: q :: s)), lastD_append_cons]
      intro he
      have hm : lastD pp (q :: s) ∈ q :: s := lastD_mem q s
      rw [← he] at hm
      exact lt_irrefl _ ((List.pairwise_cons.1 (List.pairwise_append.1 hl').2.1).1 pp hm)
    obtain ⟨T', e', f', k', v', w', S', b1, b2, b3, b4, b5, b6, b7, b8, b9, b10, b11⟩ := body (q :: s) P pp T e f v w k j S (x q 2) hlP hst hTne hTP hh
      hra hk hrv (HvCoord.node (hlN q hql)) (hsort pp hppl q hql hpq)
    have hz : (if pp = S.prev 2 0 then ref 2 else x (S.next 2 pp) 2) = x q 2 := by rw [if_neg hlast, hn0]
    rw [hv3dLoop_succ fuel pp T e v (x q 2) S hz, hv3dLoopF_succ fuel pp T f w (x q 2) S hz, hn0, if_neg hq0, if_neg hq0, b1, b2]
    dsimp only
    obtain ⟨r1, r2⟩ := ih (P ++ [pp]) q fuel T' e' f' v' w' k' (j + 1) S' (by rw [hlP]; simp) (by simp at hfuel; omega) (by rw [b3]; exact hnx)
      (by rw [b4]; exact hpv) b5 b6 b7 b8 b9 b10 b11
    refine ⟨r1, ?_⟩
    have : j + (q :: s).length + 1 = j + 1 + s.length + 1 := by simp; omega
    rw [this]; exact r2

/-- `fpli_hv3d_ref`: same memory, related volumes. -/
theorem hv3dRefF_sim (hs : FSim3 rnd x ref N A Ra Rv) {l : List ℕ} (S : HvState ℝ) (hne : l ≠ []) (hl : l.Pairwise (fun a b => pos 2 a < pos 2 b))
    (h0 : 0 ∉ l) (hlink : Linked (S.next 2) (S.prev 2) l) (hlN : ∀ p ∈ l, p ∈ N) (hln : l.length ≤ N.length)
    (href : ∀ p ∈ l, ∀ k < 3, x p k < ref k) (hsort : ∀ p ∈ l, ∀ q ∈ l, pos 2 p < pos 2 q → x p 2 ≤ x q 2) :
    (hv3dRefF rnd x ref l.length S).2 = (hv3dRef x ref l.length S).2 ∧
      Rv (hv3dRef x ref l.length S).1 (hv3dRefF rnd x ref l.length S).1 (ref 2) l.length := by
  cases l with
  | nil => exact absurd rfl hne
  | cons pp s =>
    have hat := LinkedFrom.at (l1 := []) hlink
    have hpp : S.next 2 0 = pp := hat.2.1
    have hrp := href pp (by simp)
    have hpN := hlN pp (by simp)
    have hbox : (ref 0 - x pp 0) * (ref 1 - x pp 1) = HV 2 x [pp] ref := by
      rw [HV_singleton pp (by
        intro k
        exact (hrp k (by have := k.2; omega)).le), Fin.prod_univ_two]
      rfl
    have hboxA : (ref 0 - x pp 0) * (ref 1 - x pp 1) ≤ A := by
      rw [hbox]; exact hs.area_le _ (by intro p hp; simp at hp; rw [hp]; exact hpN)
    have hbox0 : 0 ≤ (ref 0 - x pp 0) * (ref 1 - x pp 1) := by rw [hbox]; exact HV_nonneg
    have hra := hs.first (HvCoord.node hpN) HvCoord.refk (HvCoord.node hpN) HvCoord.refk (hrp 0 (by omega)).le (hrp 1 (by omega)).le hboxA
    have hN1 : 1 < 2 * N.length := by simp at hln; omega
    cases s with
    | nil =>
      have hnx : S.next 2 pp = 0 := hat.2.2.1
      unfold hv3dRef hv3dRefF
      simp only [hpp, hnx, List.length_singleton, if_true]
      exact ⟨trivial, hs.vfirst hra hN1 hbox0 hboxA (HvCoord.node hpN) HvCoord.refk (hrp 2 (by omega)).le⟩
    | cons nxt s =>
      have hc1 : ¬ (pp :: nxt :: s).length = 1 := by simp
      have hnx : S.next 2 pp = nxt := hat.2.2.1
      have hn0 : ¬ nxt = 0 := fun he => h0 (by rw [← he]; simp)
      have hpn : pos 2 pp < pos 2 nxt := (List.pairwise_cons.1 hl).1 nxt (by simp)
      unfold hv3dRef hv3dRefF
      simp only [hpp, hnx, if_neg hc1, if_neg hn0]
      have hrv := hs.vfirst hra hN1 hbox0 hboxA (HvCoord.node hpN) (HvCoord.node (hlN nxt (by simp))) (hsort pp (by simp) nxt (by simp) hpn)
      obtain ⟨r1, r2⟩ := hv3dLoopF_sim hs hl h0 hlink hlN hln href hsort s [pp] nxt (pp :: nxt :: s).length [pp] _ _ _ _ 1 1 S rfl (by simp) rfl rfl
        (List.pairwise_singleton ..) (by simp) (fun q hq => hq) hbox hra (by simp) hrv
      refine ⟨r1, ?_⟩
      have : (pp :: nxt :: s).length = 1 + s.length + 1 := by simp; omega
      rw [this] at r2 ⊢; exact r2

end Moo
