import Verif.Lemmas.HvCostLoops
import Verif.Lemmas.HvTreeRec

/-!
# Number of steps of the sweep of the hypervolume computation in three objectives
-/

set_option autoImplicit false
set_option linter.unusedSectionVars false

namespace Moo

variable {K : Type} [CommRing K] [LinearOrder K]

/-- The steps of the removal loop are paid by the nodes that are removed. -/
theorem hv3dTreePopT_runs (tf : ℕ) (x : ℕ → ℕ → K) (ref : ℕ → K) (pp : ℕ) (nxt : ℕ → K) (after : List ℕ) (L : ℕ) :
    ∀ (rest : List ℕ) (cur fuel : ℕ) (hypera : K) (prv : ℕ → K) (h : AvlHeap),
      AvlInv h ((cur :: rest).reverse ++ pp :: after) → rest.length < fuel → ((cur :: rest).reverse ++ pp :: after).length < 2 ^ 125 →
      ((cur :: rest).reverse ++ pp :: after).length < tf → ((cur :: rest).reverse ++ pp :: after).length ≤ 2 ^ L →
      let v := hv3dTreePop tf x pp nxt fuel ⟨hypera, cur, x cur, prv, h⟩
      (∃ B, Runs (hv3dTreePopT tf x pp nxt fuel ⟨hypera, cur, x cur, prv, h⟩) v B ∧
        B + (hv3dPop x ref pp (nxt 0) (cur :: rest) hypera).1.length * (2 * L + 2) ≤ rest.length * (2 * L + 2) + 1) ∧
      Runs (avlUnlinkNodeT tf v.tree v.tnode) (avlUnlinkNode tf v.tree v.tnode) (2 * L + 1) := by
  intro rest
  induction rest with
  | nil =>
    intro cur fuel hypera prv h hi hf hl ht hL
    obtain ⟨fuel, rfl⟩ : ∃ f, fuel = f + 1 := ⟨fuel - 1, by omega⟩
    have hi' : AvlInv h ([] ++ cur :: pp :: after) := hi
    have hprev : h.prev cur = 0 := hi'.prev
    have hpop : hv3dTreePop tf x pp nxt (fuel + 1) ⟨hypera, cur, x cur, prv, h⟩ = ⟨hypera, cur, x cur, prv, h⟩ := by
      rw [hv3dTreePop, if_pos hprev]
    dsimp only
    rw [hpop]
    dsimp only
    refine ⟨⟨0, ?_, by simp [hv3dPop]⟩, unlinkT_runs hi' hl ht hL⟩
    rw [hv3dTreePopT, if_pos hprev]
    exact Runs.ret _
  | cons p rest ih =>
    intro cur fuel hypera prv h hi hf hl ht hL
    obtain ⟨fuel, rfl⟩ : ∃ f, fuel = f + 1 := ⟨fuel - 1, by omega⟩
    have hsp : (cur :: p :: rest).reverse ++ pp :: after = (p :: rest).reverse ++ cur :: pp :: after := by
      rw [List.reverse_cons]; simp
    rw [hsp] at hi hl ht hL
    have hp0 : p ≠ 0 := fun e => hi.zero_not_mem (by simp [e])
    have hprev : h.prev cur = p := by rw [hi.prev, getLastD_reverse_cons]
    have hun := unlink_spec (fuel := tf) hi hl ht
    have hunT := unlinkT_runs (fuel := tf) hi hl ht hL
    have hup : (avlUnlinkNode tf h cur).prev cur = p := by rw [unlink_prev_self hi, getLastD_reverse_cons]
    dsimp only
    rw [hv3dTreePop, if_neg (by rw [hprev]; exact hp0), hv3dTreePopT, if_neg (by rw [hprev]; exact hp0), hprev]
    dsimp only
    rw [hv3dPop]
    by_cases hc : x p 0 < x pp 0
    · simp only [if_pos hc]
      exact ⟨⟨1, Runs.tickB (B := 0) (Runs.ret _) (by omega), by omega⟩, hunT⟩
    · simp only [if_neg hc]
      rw [hup]
      obtain ⟨⟨B, i1, i2⟩, i3⟩ := ih p fuel (hypera - (x p 1 - x cur 1) * (nxt 0 - x cur 0)) (x p) _ hun (by simp only [List.length_cons] at hf; omega)
        (by simp only [List.length_append, List.length_cons] at hl ⊢; omega)
        (by simp only [List.length_append, List.length_cons] at ht ⊢; omega)
        (by simp only [List.length_append, List.length_cons] at hL ⊢; omega)
      refine ⟨⟨2 * L + 1 + B + 1, Runs.tickB (B := 2 * L + 1 + B) (hunT.bind ?_) (by omega), ?_⟩, i3⟩
      · rw [hup]; exact i1
      · rw [List.length_cons, show (rest.length + 1) * (2 * L + 2) = rest.length * (2 * L + 2) + (2 * L + 2) by ring]
        omega

/-- c/hv.c:948-993: what one point costs, when a node that is removed pays for its removal. -/
theorem hv3dTreeUpdateT_runs (tf : ℕ) (x : ℕ → ℕ → K) (ref : ℕ → K) (h : AvlHeap) (T : List ℕ) (pp : ℕ) (hypera : K) (L : ℕ) (hi : AvlInv h T)
    (hs : T.Pairwise (HvLex x)) (hne : T ≠ []) (hpp : pp ∉ T) (hpp0 : pp ≠ 0) (hlen : T.length + 1 < 2 ^ 125) (htf : T.length + 1 < tf)
    (hL : T.length + 1 ≤ 2 ^ L) :
    ∃ B, Runs (hv3dTreeUpdateT tf x ref h pp hypera) (hv3dTreeUpdate tf x ref h pp hypera) B ∧
      B + (((hv3dUpdate x ref T pp hypera).map fun r => r.1.length).getD T.length) * (2 * L + 2) ≤ 6 * L + 7 + T.length * (2 * L + 2) := by
  have hz := hi.zero_not_mem
  obtain ⟨s, hse, hsr, -⟩ := searchClosestT_runs (fuel := tf) (L := L) (fun n => compareTreeAsc (x pp) (x n)) hi (by omega) (by omega)
  obtain ⟨-, A0, y, B0, hT, hA0, hB0, hsearch⟩ := searchClosest_spec (c := fun n => compareTreeAsc (x pp) (x n)) (fuel := tf) hi hne (by omega) (by
    refine hs.imp (fun {u v} huv => ⟨fun hc => ?_, fun hc => ?_⟩)
    · by_contra hcon
      exact absurd (compareTreeAsc_mono huv (not_le.1 hcon)) (not_lt.2 hc)
    · have h1 : ¬ 0 < compareTreeAsc (x pp) (x v) := fun hcon => absurd (compareTreeAsc_mono huv hcon) (not_lt.2 hc.le)
      exact lt_of_le_of_ne (not_lt.1 h1) compareTreeAsc_ne_zero)
  obtain ⟨A, B, hAB, hA, hB, hnt⟩ : ∃ A B : List ℕ, T = A ++ B ∧ (∀ a ∈ A, 0 < compareTreeAsc (x pp) (x a)) ∧
      (∀ b ∈ B, ¬ 0 < compareTreeAsc (x pp) (x b)) ∧
      ∃ nx : ℕ → K, nx 0 = nextX x ref B ∧
        (if s.2 ≤ 0 then (x s.1, h.prev s.1) else (if h.next s.1 ≠ 0 then x (h.next s.1) else ref, s.1) : (ℕ → K) × ℕ) =
          (nx, A.getLastD 0) := by
    subst hT
    rw [hse] at hsearch
    rw [Option.some.inj hsearch]
    by_cases hc : 0 < compareTreeAsc (x pp) (x y)
    · refine ⟨A0 ++ [y], B0, by simp, ?_, fun b hb => not_lt.2 (hB0 b hb).1, _, nextX_headD x ref B0 (fun hm => hz (by simp [hm])), ?_⟩
      · intro a ha
        rcases List.mem_append.1 ha with ha | ha
        · exact (hA0 a ha).2 compareTreeAsc_ne_zero
        · simp at ha; subst ha; exact hc
      · rw [if_neg (not_lt.2 hc.le), if_pos hc, if_neg (show ¬ (1 : ℤ) ≤ 0 by decide), hi.next, getLastD_append A0 y [] 0 0]; rfl
    · have hneg : compareTreeAsc (x pp) (x y) < 0 := lt_of_le_of_ne (not_lt.1 hc) compareTreeAsc_ne_zero
      refine ⟨A0, y :: B0, rfl, fun a ha => (hA0 a ha).2 compareTreeAsc_ne_zero, ?_, x y, rfl, ?_⟩
      · intro b hb
        rcases List.mem_cons.1 hb with rfl | hb
        · exact hc
        · exact not_lt.2 (hB0 b hb).1
      · rw [if_pos hneg, if_pos (show (-1 : ℤ) ≤ 0 by decide), hi.prev]
  obtain ⟨nx, hnx, hnt⟩ := hnt
  have hsplit := takeWhile_dropWhile_split (p := fun t => decide (0 < compareTreeAsc (x pp) (x t))) (A := A) (B := B)
    (fun a ha => decide_eq_true (hA a ha)) (fun b hb => decide_eq_false (hB b hb))
  rw [← hAB] at hsplit
  unfold hv3dTreeUpdateT hv3dTreeUpdate hv3dUpdate
  dsimp only
  rw [hse, Option.getD_some, hnt, hsplit.1, hsplit.2]
  dsimp only
  by_cases hgt : nextX x ref B > x pp 0
  · have hgt' : nx 0 > x pp 0 := by rw [hnx]; exact hgt
    rw [if_pos hgt', if_pos hgt]
    rcases hrev : A.reverse with _ | ⟨t, rest⟩
    · have hA0 : A = [] := by simpa using hrev
      subst hA0
      have hins := insertAfterT_null_runs (fuel := tf) (rec := 3) (L := L) hi hpp hpp0 hlen (by omega) (le_refl _) (by omega)
      have hB' : T = B := by simpa using hAB
      refine ⟨2 * L + 1 + (2 * L + 4), hsr.bind ?_, ?_⟩
      · rw [hnt]
        dsimp only [List.getLastD_nil]
        rw [if_pos hgt']
        refine hins.bind' (B2 := 0) ?_ (by omega)
        simp only [ne_eq, not_true_eq_false, if_false]
        exact (Runs.ret _).bind' (B2 := 0) (Runs.ret _) (by omega)
      · rw [hB']
        simp only [Option.map_some, Option.getD_some, List.length_cons]
        rw [show (B.length + 1) * (2 * L + 2) = B.length * (2 * L + 2) + (2 * L + 2) by ring]
        omega
    · have hAr : A = (t :: rest).reverse := by rw [← hrev, List.reverse_reverse]
      have hTr : T = rest.reverse ++ t :: B := by rw [hAB, hAr, List.reverse_cons]; simp
      have ht0 : t ≠ 0 := fun e => hz (by rw [hTr]; simp [e])
      have hlast : A.getLastD 0 = t := by rw [hAr, getLastD_reverse_cons]
      have hins : AvlInv (avlInsertAfter 3 tf h t pp) ((t :: rest).reverse ++ pp :: B) := by
        have := insertAfter_spec (h := h) (A := rest.reverse) (B := B) (x := t) (new := pp) (fuel := tf) (rec := 3) (hTr ▸ hi)
          (by rw [← hTr]; exact hpp) hpp0 (by rw [← hTr]; exact hlen) (by rw [← hTr]; omega) (by omega)
        rw [List.reverse_cons]; simpa using this
      have hinsT : Runs (avlInsertAfterT 3 tf h t pp) (avlInsertAfter 3 tf h t pp) (2 * L + 3) :=
        insertAfterT_runs (A := rest.reverse) (B := B) (L := L) (hTr ▸ hi)
          (by rw [← hTr]; exact hpp) hpp0 (by rw [← hTr]; exact hlen) (by rw [← hTr]; omega) (by omega) (by rw [← hTr]; omega)
      have hlen2 : ((t :: rest).reverse ++ pp :: B).length = T.length + 1 := by
        rw [hTr]; simp only [List.length_append, List.length_cons, List.length_reverse]; omega
      have hTlen : T.length = rest.length + 1 + B.length := by
        rw [hTr]; simp only [List.length_append, List.length_cons, List.length_reverse]; omega
      rw [hlast]
      dsimp only
      rw [if_pos ht0]
      by_cases hdom : x t 0 > x pp 0
      · rw [if_pos hdom, if_pos hdom]
        have hprev : (avlInsertAfter 3 tf h t pp).prev pp = t := by rw [hins.prev, getLastD_reverse_cons]
        rw [hprev]
        have hpop := hv3dTreePopT_runs tf x ref pp nx B L rest t tf hypera (x t) _ hins
          (by rw [hTr] at htf; simp only [List.length_append, List.length_cons, List.length_reverse] at htf; omega)
          (by rw [hlen2]; exact hlen) (by rw [hlen2]; exact htf) (by rw [hlen2]; exact hL)
        dsimp only at hpop
        obtain ⟨⟨Bp, p1, p2⟩, p3⟩ := hpop
        rw [hnx] at p2
        refine ⟨2 * L + 1 + (2 * L + 3 + (Bp + (2 * L + 1))), hsr.bind ?_, ?_⟩
        · rw [hnt]
          dsimp only
          rw [if_pos hgt', hlast]
          refine hinsT.bind ?_
          rw [if_pos ht0, if_pos hdom]
          refine Runs.bind' (B1 := Bp + (2 * L + 1)) (B2 := 0) ?_ (Runs.ret _) (by omega)
          rw [hprev]
          refine p1.bind (p3.bind' (B2 := 0) ?_ (by omega))
          split_ifs <;> exact Runs.ret _
        · simp only [Option.map_some, Option.getD_some, List.length_append, List.length_cons, List.length_reverse]
          rw [hTlen]
          set r := (hv3dPop x ref pp (nextX x ref B) (t :: rest) hypera).1.length
          have e1 : (r + (B.length + 1)) * (2 * L + 2) = r * (2 * L + 2) + (B.length + 1) * (2 * L + 2) := by ring
          have e2 : (rest.length + 1 + B.length) * (2 * L + 2) = rest.length * (2 * L + 2) + (B.length + 1) * (2 * L + 2) := by ring
          rw [e1, e2]
          omega
      · rw [if_neg hdom, if_neg hdom]
        refine ⟨2 * L + 1 + (2 * L + 3), hsr.bind ?_, ?_⟩
        · rw [hnt]
          dsimp only
          rw [if_pos hgt', hlast]
          refine hinsT.bind' (B2 := 0) ?_ (by omega)
          rw [if_pos ht0, if_neg hdom]
          exact (Runs.ret _).bind' (B2 := 0) (Runs.ret _) (by omega)
        · simp only [Option.map_some, Option.getD_some, hAr, List.length_append, List.length_cons, List.length_reverse]
          rw [hTlen]
          have e1 : (rest.length + 1 + (B.length + 1)) * (2 * L + 2) = (rest.length + 1 + B.length) * (2 * L + 2) + (2 * L + 2) := by ring
          rw [e1]
          omega
  · have hgt' : ¬ nx 0 > x pp 0 := by rw [hnx]; exact hgt
    rw [if_neg hgt', if_neg hgt]
    refine ⟨2 * L + 1, hsr.bind' (B2 := 0) ?_ (by omega), by simp only [Option.map_none, Option.getD_none]; omega⟩
    rw [hnt]
    dsimp only
    rw [if_neg hgt']
    exact Runs.ret _

/-! ### The sweep -/

/-- `m` steps along `nx` lead from `p` to `0`, the head of the list. -/
inductive ReachHead (nx : ℕ → Option ℕ) : ℕ → ℕ → Prop
  | head : ReachHead nx 0 0
  | step {m p q : ℕ} (hp : p ≠ 0) (h : nx p = some q) (hq : ReachHead nx m q) : ReachHead nx (m + 1) p

theorem ReachHead.unique {nx : ℕ → Option ℕ} : ∀ {m m' p : ℕ}, ReachHead nx m p → ReachHead nx m' p → m = m'
  | 0, _, _, .head, .head => rfl
  | 0, _, _, .head, .step hp _ _ => absurd rfl hp
  | _ + 1, _, _, .step hp _ _, .head => absurd rfl hp
  | m + 1, _, _, .step _ h hq, .step _ h' hq' => by
    rw [h] at h'
    obtain rfl := Option.some.inj h'
    rw [ReachHead.unique hq hq']

theorem memHv3dBody_next {x : ℕ → ℕ → K} {ref : ℕ → K} {n pp : ℕ} {T : List ℕ} {a v ht : K} {M : HvMem K} {r : List ℕ × K × K × HvMem K}
    (h : memHv3dBody x ref n pp T a v ht M = some r) : r.2.2.2.next = M.next := by
  unfold memHv3dBody at h
  obtain ⟨ig, -, h⟩ := obind h
  by_cases h1 : ig ≥ 2
  · rw [if_pos h1] at h
    obtain rfl := Option.some.inj h; rfl
  rw [if_neg h1] at h
  by_cases h2 : ∀ t ∈ pp :: T, 1 ≤ t ∧ t ≤ n
  · rw [if_pos h2] at h
    split at h
    · obtain ⟨M1, h1, h⟩ := obind h
      obtain rfl := Option.some.inj h
      unfold HvMem.setIgnore at h1
      split_ifs at h1
      obtain rfl := Option.some.inj h1
      rfl
    · obtain rfl := Option.some.inj h; rfl
  · rw [if_neg h2] at h
    exact absurd h (by simp)

theorem memHv3dLoop_reach {x : ℕ → ℕ → K} {ref : ℕ → K} {n d : ℕ} : ∀ (fuel pp : ℕ) (T : List ℕ) (a v : K) (M : HvMem K) (r : K × HvMem K), pp ≠ 0 →
    memHv3dLoop x ref n d fuel pp T a v M = some r → ∃ m, ReachHead (M.next 2) m pp
  | 0, _, _, _, _, _, _, _, h => by simp [memHv3dLoop] at h
  | fuel + 1, pp, T, a, v, M, r, hp, h => by
    obtain ⟨last, -, h⟩ := obind h
    obtain ⟨ht, -, h⟩ := obind h
    obtain ⟨b, hb, h⟩ := obind h
    obtain ⟨q, hq, h⟩ := obind h
    rw [memHv3dBody_next hb] at hq
    by_cases hq0 : q = 0
    · subst hq0
      exact ⟨1, .step hp hq .head⟩
    · rw [if_neg hq0] at h
      obtain ⟨m, hm⟩ := memHv3dLoop_reach fuel q _ _ _ _ _ hq0 h
      rw [memHv3dBody_next hb] at hm
      exact ⟨m + 1, .step hp hq hm⟩

theorem nodup_range_length {l : List ℕ} {n : ℕ} (hl : l.Nodup) (hb : ∀ t ∈ l, 1 ≤ t ∧ t ≤ n) : l.length ≤ n := by
  have : l ⊆ List.range' 1 n := by
    intro t ht
    have := hb t ht
    rw [List.mem_range'_1]; omega
  simpa using (List.subperm_of_subset hl this).length_le

/-- c/hv.c:941-1002: the whole sweep. -/
theorem memHv3dLoopT_runs {x : ℕ → ℕ → K} {ref : ℕ → K} {n d : ℕ} (tf L : ℕ) (hn : n < 2 ^ 125) (htf : n < tf) (hL : n ≤ 2 ^ L) :
    ∀ (fuel pp : ℕ) (T : List ℕ) (a v : K) (M : HvMem K) (h : AvlHeap) (r : K × HvMem K) (m : ℕ), pp ≠ 0 → AvlInv h T → T.Pairwise (HvLex x) → T ≠ [] →
    ReachHead (M.next 2) m pp → (∀ t ∈ T, ∃ m', m < m' ∧ ReachHead (M.next 2) m' t) → memHv3dLoop x ref n d fuel pp T a v M = some r →
    ∃ h', Runs (memHv3dLoopT tf x ref n d fuel pp h a v M) (r.1, r.2, h') (fuel * (6 * L + 8) + T.length * (2 * L + 2)) ∧ AvlInv h' []
  | 0, _, _, _, _, _, _, _, _, _, _, _, _, _, _, hh => by simp [memHv3dLoop] at hh
  | fuel + 1, pp, T, a, v, M, h, r, m, hp, hi, hs, hne, hm, hT, hh => by
    obtain ⟨last, h1, hh⟩ := obind hh
    obtain ⟨ht, h2, hh⟩ := obind hh
    obtain ⟨b, hb, hh⟩ := obind hh
    obtain ⟨q, hq, hh⟩ := obind hh
    have hnx := memHv3dBody_next hb
    rw [hnx] at hq
    -- the next node
    obtain ⟨m1, rfl, hm1⟩ : ∃ m1, m = m1 + 1 ∧ ReachHead (M.next 2) m1 q := by
      cases hm with
      | head => exact absurd rfl hp
      | step _ e hq' =>
        rw [hq] at e
        obtain rfl := Option.some.inj e
        exact ⟨_, rfl, hq'⟩
    have hpT : pp ∉ T := by
      intro hmem
      obtain ⟨m', hlt, hr⟩ := hT pp hmem
      have := hm.unique hr
      omega
    -- the body
    obtain ⟨h', B, hB, hbound, hi', hs', hne', hmem'⟩ : ∃ h' B, Runs (memHv3dBodyT tf x ref n pp h a v ht M) (h', b.2.1, b.2.2.1, b.2.2.2) B ∧
        B + b.1.length * (2 * L + 2) ≤ 6 * L + 7 + T.length * (2 * L + 2) ∧ AvlInv h' b.1 ∧ b.1.Pairwise (HvLex x) ∧ b.1 ≠ [] ∧
        ∀ t ∈ b.1, t = pp ∨ t ∈ T := by
      unfold memHv3dBody at hb
      unfold memHv3dBodyT
      obtain ⟨ig, hig, hb⟩ := obind hb
      by_cases hig2 : ig ≥ 2
      · rw [if_pos hig2] at hb
        obtain rfl := Option.some.inj hb
        refine ⟨h, 0, Runs.liftB hig ?_, by dsimp only; omega, hi, hs, hne, fun t ht => Or.inr ht⟩
        rw [if_pos hig2]
        exact Runs.ret _
      · rw [if_neg hig2] at hb
        by_cases hrg : ∀ t ∈ pp :: T, 1 ≤ t ∧ t ≤ n
        · rw [if_pos hrg] at hb
          have hlenT : T.length + 1 ≤ n := nodup_range_length (l := pp :: T) (List.nodup_cons.2 ⟨hpT, hi.nodup⟩) hrg
          obtain ⟨B, u1, u2⟩ := hv3dTreeUpdateT_runs tf x ref h T pp a L hi hs hne hpT hp (by omega) (by omega) (by omega)
          have hsim := hv3dTreeUpdate_spec tf x ref h T pp a hi hs hne hpT hp (by omega) (by omega)
          cases hu : hv3dUpdate x ref T pp a with
          | none =>
            rw [hu] at hb hsim u2
            cases hv : hv3dTreeUpdate tf x ref h pp a with
            | some r' => rw [hv] at hsim; exact absurd hsim (by simp [HvTreeSim])
            | none =>
              rw [hv] at u1
              obtain ⟨M1, e1, hb⟩ := obind hb
              obtain rfl := Option.some.inj hb
              refine ⟨h, B, Runs.liftB hig ?_, ?_, hi, hs, hne, fun t ht => Or.inr ht⟩
              · rw [if_neg hig2]
                exact u1.bind' (B2 := 0) (Runs.liftB e1 (Runs.ret _)) (by omega)
              · simpa using u2
          | some r1 =>
            rw [hu] at hb hsim u2
            cases hv : hv3dTreeUpdate tf x ref h pp a with
            | none => rw [hv] at hsim; exact absurd hsim (by simp [HvTreeSim])
            | some r' =>
              rw [hv] at u1 hsim
              obtain ⟨e, g1, g2, g3, g4, -⟩ := hsim
              obtain rfl := Option.some.inj hb
              refine ⟨r'.1, B, Runs.liftB hig ?_, ?_, g1, g2, g3, g4⟩
              · rw [if_neg hig2]
                refine u1.bind' (B2 := 0) ?_ (by omega)
                dsimp only
                rw [e]
                exact Runs.ret _
              · simpa using u2
        · rw [if_neg hrg] at hb
          exact absurd hb (by simp)
    by_cases hq0 : q = 0
    · rw [if_pos hq0] at hh
      obtain rfl := Option.some.inj hh
      refine ⟨avlClearTree h', Runs.tickB (B := B) (Runs.liftB h1 (Runs.liftB h2 (hB.bind' (B2 := 0) ?_ (by omega)))) ?_, ⟨.nil, rfl, trivial, rfl, ⟨rfl, rfl, trivial⟩, List.nodup_nil⟩⟩
      · refine Runs.liftB (a := q) (by rw [← hq]; dsimp only; rw [hnx]) ?_
        rw [if_pos hq0]
        exact Runs.ret _
      · have : (fuel + 1) * (6 * L + 8) = fuel * (6 * L + 8) + (6 * L + 8) := by ring
        rw [this]
        omega
    · rw [if_neg hq0] at hh
      obtain ⟨h'', i1, i2⟩ := memHv3dLoopT_runs tf L hn htf hL fuel q b.1 b.2.1 b.2.2.1 b.2.2.2 h' r m1 hq0 hi' hs' hne' (by rw [hnx]; exact hm1) (by
        rw [hnx]
        intro t ht
        rcases hmem' t ht with rfl | ht
        · exact ⟨m1 + 1, by omega, hm⟩
        · obtain ⟨m', hlt, hr⟩ := hT t ht
          exact ⟨m', by omega, hr⟩) hh
      refine ⟨h'', Runs.tickB (B := B + (fuel * (6 * L + 8) + b.1.length * (2 * L + 2))) (Runs.liftB h1 (Runs.liftB h2 (hB.bind ?_))) ?_, i2⟩
      · refine Runs.liftB (a := q) (by rw [← hq]; dsimp only; rw [hnx]) ?_
        rw [if_neg hq0]
        exact i1
      · have : (fuel + 1) * (6 * L + 8) = fuel * (6 * L + 8) + (6 * L + 8) := by ring
        rw [this]
        omega

/-- c/hv.c:924-1003 `fpli_hv3d_ref`. -/
theorem memHv3dRefT_runs {x : ℕ → ℕ → K} {ref : ℕ → K} {n d : ℕ} (tf L : ℕ) (hn : n < 2 ^ 125) (htf : n < tf) (hL : n ≤ 2 ^ L) (c : ℕ) (hc : c ≤ n) (hc1 : 1 ≤ n) (M : HvMem K)
    (h : AvlHeap) (r : K × HvMem K) (hi : AvlInv h []) (hh : memHv3dRef x ref n d c M = some r) :
    ∃ h', Runs (memHv3dRefT tf x ref n d c M h) (r.1, r.2, h') (n * (8 * L + 11)) ∧ AvlInv h' [] := by
  obtain ⟨pp, h1, hh⟩ := obind hh
  obtain ⟨r0, h2, hh⟩ := obind hh
  obtain ⟨x0, h3, hh⟩ := obind hh
  obtain ⟨r1, h4, hh⟩ := obind hh
  obtain ⟨x1, h5, hh⟩ := obind hh
  obtain ⟨ht, h6, hh⟩ := obind hh
  obtain ⟨q, h7, hh⟩ := obind hh
  have hn1 : 1 * (8 * L + 11) ≤ n * (8 * L + 11) := Nat.mul_le_mul_right _ hc1
  by_cases hq : q = 0
  · rw [if_pos hq] at hh
    obtain rfl := Option.some.inj hh
    refine ⟨h, Runs.tickB (B := 0) (Runs.liftB h1 (Runs.liftB h2 (Runs.liftB h3 (Runs.liftB h4 (Runs.liftB h5 (Runs.liftB h6 (Runs.liftB h7 ?_))))))) (by omega), hi⟩
    rw [if_pos hq]
    exact Runs.ret _
  · rw [if_neg hq] at hh
    have hpp : pp ≠ 0 := by
      rintro rfl
      unfold rdData at h3
      simp at h3
    obtain ⟨m, hm⟩ := memHv3dLoop_reach c q _ _ _ _ _ hq hh
    obtain ⟨h', i1, i2⟩ := memHv3dLoopT_runs tf L hn htf hL c q [pp] _ _ M (avlInsertTop h pp) r m hq (insertTop_spec _ pp hpp) (List.pairwise_singleton ..) (by simp) hm (by
      intro t ht
      rw [List.mem_singleton] at ht
      subst ht
      exact ⟨m + 1, by omega, .step hpp h7 hm⟩) hh
    refine ⟨h', Runs.tickB (B := c * (6 * L + 8) + [pp].length * (2 * L + 2)) (Runs.liftB h1 (Runs.liftB h2 (Runs.liftB h3 (Runs.liftB h4 (Runs.liftB h5 (Runs.liftB h6 (Runs.liftB h7 ?_))))))) ?_, i2⟩
    · rw [if_neg hq]
      exact i1
    · have e1 : c * (6 * L + 8) ≤ n * (6 * L + 8) := Nat.mul_le_mul_right _ hc
      have e2 : 1 * (2 * L + 3) ≤ n * (2 * L + 3) := Nat.mul_le_mul_right _ hc1
      have e3 : n * (8 * L + 11) = n * (6 * L + 8) + n * (2 * L + 3) := by ring
      rw [e3, List.length_singleton]
      omega

end Moo
