import Verif.Lemmas.Eaf3dTreeSim

/-!
# The trees of `eaf3d`: the sets, the main loop and the output
-/

set_option autoImplicit false
set_option linter.unusedSectionVars false

namespace Moo

variable {α : Type*} [LinearOrder α]

/-- The second part on the nodes does what it does on the sequences. -/
theorem treeSecondPart_sim {mn mx junk : α} {X : List α} {tf nset : ℕ} (hX : X.length + 1 < 2 ^ 125) (hXf : X.length + 1 < tf) {p : Pt3 α}
    (hy : mn < p.y) (hmm : mn < mx) (F : Freed3 α) {i : ℕ} (fuel : ℕ) (ks : List ℕ) (hik : ∀ k ∈ ks, i ≤ k) (h : AvlHeap) (sx sy : ℕ → α) :
    ∀ (B A : List ℕ) (m sf : ℕ) (a : ℕ → Option (Cur α)) (b : ℕ → Option (TreeCur α)) (st : St3 α) (t : TreeSt3 α) (q : α × α) (a' : ℕ → Option (Cur α)) (st' : St3 α),
      AvlInv h (A ++ m :: B) → t.sets p.set = h → t.sx = sx → t.sy = sy → (∀ n ∈ B, sx n ≤ mx ∧ sy n ≤ mx) → B.length < sf →
      SimL mn mx junk X nset st t → AuxRel mn mx X t.nodes a b →
      secondPart nset p fuel ks (B.map (fun n => (sx n, sy n))) a st = some (q, a', st') →
      ∃ m' b' t', treeSecondPart tf F nset p fuel ks sf m b t = some (m', b', t') ∧ SimL mn mx junk X nset st' t' ∧ AuxRel mn mx X t'.nodes a' b' ∧ Frame3 i st st' t t' ∧
        (sx m', sy m') = q ∧ m' ∈ B
  | [], A, m, sf, a, b, st, t, q, a', st', hi, e1, e2, e3, hb, hsf, hs, hab, hc => by simp [secondPart] at hc
  | m1 :: B, A, m, 0, a, b, st, t, q, a', st', hi, e1, e2, e3, hb, hsf, hs, hab, hc => by simp at hsf
  | m1 :: B, A, m, sf + 1, a, b, st, t, q, a', st', hi, e1, e2, e3, hb, hsf, hs, hab, hc => by
    rw [List.map_cons, secondPart] at hc
    rw [treeSecondPart, e1, hi.next, List.headD_cons, deref_of_ne (fun e => hi.zero_not_mem (by simp [e]))]
    dsimp only
    rw [e2, e3]
    split at hc
    · simp at hc
    next a1 st1 hp =>
    obtain ⟨b1, t1, r1, r2, r3, r4⟩ := treePromLevels_sim hX hXf hy (hb m1 (by simp)).1 (hb m1 (by simp)).2 hmm F fuel ks a b st t a1 st1 hik hs hab hp
    rw [r1]
    dsimp only
    rw [r4.sy, e3]
    by_cases hgt : sy m1 > p.y
    · rw [if_pos hgt] at hc ⊢
      obtain ⟨m', b', t', q1, q2, q3, q4, q5, q6⟩ := treeSecondPart_sim hX hXf hy hmm F fuel ks hik h sx sy B (A ++ [m]) m1 sf a1 b1 st1 t1 q a' st' (by simpa using hi)
        (by rw [r4.sets]; exact e1) (by rw [r4.sx]; exact e2) (by rw [r4.sy]; exact e3) (fun n hn => hb n (by simp [hn])) (by simpa using hsf) r2 r3 hc
      exact ⟨m', b', t', q1, q2, q3, r4.trans q4, q5, by simp [q6]⟩
    · rw [if_neg hgt] at hc ⊢
      simp only [Option.some.injEq, Prod.mk.injEq] at hc
      obtain ⟨rfl, rfl, rfl⟩ := hc
      exact ⟨m1, b1, t1, rfl, r2, r3, r4, rfl, by simp⟩

/-- The loop of `add2set`: the nodes of `R` are removed and released. -/
theorem treeSetRemove_spec {tf : ℕ} {F : Freed3 α} {s : ℕ} {y : α} :
    ∀ (R : List ℕ) (fuel : ℕ) (h : AvlHeap) (sx sy : ℕ → α) (live : Live3) (A : List ℕ) (b : ℕ) (bs : List ℕ), AvlInv h (A ++ (R ++ b :: bs)) →
      (A ++ (R ++ b :: bs)).length < 2 ^ 125 → (A ++ (R ++ b :: bs)).length < tf → R.length < fuel → (∀ n ∈ R, y ≤ sy n) → ¬ y ≤ sy b →
      (∀ n ∈ R, 3 ≤ n ∧ live (.setNode n) = true) →
      ∃ h' sx' sy' live', treeSetRemove tf F s y fuel ((R ++ b :: bs).headD 0) h sx sy live = some (h', sx', sy', live') ∧ AvlInv h' (A ++ b :: bs) ∧
        (∀ j, j ∉ R → sx' j = sx j ∧ sy' j = sy j) ∧ ∀ c, live' c = true ↔ live c = true ∧ ∀ j ∈ R, c ≠ .setNode j
  | _, 0, _, _, _, _, _, _, _, _, _, _, hf, _, _, _ => by omega
  | [], fuel + 1, h, sx, sy, live, A, b, bs, hi, hl, hl', hf, hR, hb, hlv => by
    rw [List.nil_append, List.headD_cons, treeSetRemove, if_neg (fun e => hi.zero_not_mem (by simp [e])), if_neg hb]
    exact ⟨h, sx, sy, live, rfl, hi, fun _ _ => ⟨rfl, rfl⟩, by simp⟩
  | m :: R, fuel + 1, h, sx, sy, live, A, b, bs, hi, hl, hl', hf, hR, hb, hlv => by
    rw [List.cons_append] at hi
    have hnd := hi.nodup
    have hmA : m ∉ A := fun hm => (List.nodup_append.1 hnd).2.2 m hm m (by simp) rfl
    have hmB : m ∉ R ++ b :: bs := (List.nodup_cons.1 (List.nodup_append.1 hnd).2.1).1
    have hm0 : m ≠ 0 := fun e => hi.zero_not_mem (by simp [e])
    rw [List.cons_append, List.headD_cons, treeSetRemove, if_neg hm0, if_pos (hR m (by simp))]
    dsimp only
    obtain ⟨hm3, hml⟩ := hlv m (by simp)
    rw [show setNodeBlk s m = .setNode m by unfold setNodeBlk; rw [if_neg (by omega)], Live3.free_of hml]
    dsimp only
    rw [unlink_next hi hmA hm0, hi.next]
    have hi' := unlink_spec (fuel := tf) hi (by simpa using hl) (by simpa using hl')
    have hne : ∀ j ∈ A ++ (R ++ b :: bs), j ≠ m := fun j hj e => by
      rw [e] at hj
      exact (List.mem_append.1 hj).elim hmA hmB
    obtain ⟨h', sx', sy', live', g1, g2, g3, g4⟩ := treeSetRemove_spec (tf := tf) (F := F) (s := s) (y := y) R fuel ((avlUnlinkNode tf h m).poison m (F.link m)) (upd sx m (F.coord m).1)
      (upd sy m (F.coord m).2) (fun b' => if b' = .setNode m then false else live b') A b bs
      (hi'.frame (fun j hj => upd_ne _ _ (hne j hj)) (fun j hj => upd_ne _ _ (hne j hj)) (fun j hj => upd_ne _ _ (hne j hj)) (fun j hj => upd_ne _ _ (hne j hj))
        (fun j hj => upd_ne _ _ (hne j hj)) (fun j hj => upd_ne _ _ (hne j hj)) rfl rfl rfl)
      (by simp at hl ⊢; omega) (by simp at hl' ⊢; omega) (by simpa using hf)
      (fun n hn => by rw [upd_ne _ _ (hne n (by simp [hn]))]; exact hR n (by simp [hn])) (by rw [upd_ne _ _ (hne b (by simp))]; exact hb)
      (fun n hn => ⟨(hlv n (by simp [hn])).1, by
        rw [if_neg (by simpa using hne n (by simp [hn]))]; exact (hlv n (by simp [hn])).2⟩)
    refine ⟨h', sx', sy', live', g1, g2, ?_, ?_⟩
    · intro j hj
      rw [List.mem_cons, not_or] at hj
      obtain ⟨e1, e2⟩ := g3 j hj.2
      exact ⟨e1.trans (upd_ne _ _ hj.1), e2.trans (upd_ne _ _ hj.1)⟩
    · intro c
      rw [g4]
      simp only [List.mem_cons, forall_eq_or_imp]
      by_cases e : c = .setNode m
      · simp [e]
      · simp [e]

/-- The trees of the one model hold the sequences of the other; `sl s` are the nodes of `set[s]`. -/
structure Sim3 (mn mx junk : α) (X : List α) (nset : ℕ) (sl : ℕ → List ℕ) (st : St3 α) (t : TreeSt3 α) : Prop where
  lev : SimL mn mx junk X nset st t
  inv : ∀ s, AvlInv (t.sets s) (sl s)
  pts : ∀ s, (sl s).map (fun n => (t.sx n, t.sy n)) = st.sets s
  lt : ∀ s, ∀ n ∈ sl s, n < t.sfresh
  isset : ∀ s, IsSet mn mx (st.sets s)
  xs : ∀ s, ∀ q ∈ st.sets s, q.1 ∈ X
  hd : ∀ s, (sl s).head? = some 1
  tl : ∀ s, (sl s).getLast? = some 2
  sdisj : ∀ s s', s ≠ s' → ∀ n ∈ sl s, n ∈ sl s' → n < 3
  snode : ∀ n, t.live (.setNode n) = true ↔ 3 ≤ n ∧ ∃ s < nset, n ∈ sl s
  sfresh : 3 ≤ t.sfresh

/-- The blocks that the loops do not allocate or release. -/
def NotNode (b : Blk3) : Prop := (∀ n, b ≠ .levelNode n) ∧ (∀ n, b ≠ .levelItem n) ∧ ∀ n, b ≠ .setNode n

theorem set_length {S : List (α × α)} (hs : S.Pairwise (fun a b => a.1 < b.1 ∧ b.2 < a.2)) {X : List α} (hx : ∀ q ∈ S, q.1 ∈ X) : S.length ≤ X.length := by
  have hnd : (S.map Prod.fst).Nodup := by
    rw [List.Nodup, List.pairwise_map]
    exact hs.imp (fun h => ne_of_lt h.1)
  have := (List.subperm_of_subset hnd (l₂ := X) (by
    intro a ha
    obtain ⟨n, hn, rfl⟩ := List.mem_map.1 ha
    exact hx n hn)).length_le
  simpa using this

theorem takeWhile_map' {β γ : Type*} (f : β → γ) (p : γ → Bool) (l : List β) :
    (l.map f).takeWhile p = (l.takeWhile (fun b => p (f b))).map f ∧ (l.map f).dropWhile p = (l.dropWhile (fun b => p (f b))).map f := by
  induction l with
  | nil => simp
  | cons a l ih =>
    rw [List.map_cons, List.takeWhile_cons, List.takeWhile_cons, List.dropWhile_cons, List.dropWhile_cons, ih.1, ih.2]
    cases p (f a) <;> simp

/-- `add2set` on the nodes does what it does on the sequence; the nodes of `R` are released. -/
theorem treeAdd2set_spec {mn mx : α} {X : List α} {tf : ℕ} (hX : X.length + 1 < 2 ^ 125) (hXf : X.length + 1 < tf) {t : TreeSt3 α} {s : ℕ} {x y : α}
    (hx : mn < x) (hx' : x < mx) (hy : mn < y) (hy' : y < mx) (hxX : x ∈ X) {A B : List ℕ} {np : ℕ} {S' : List (α × α)} (F : Freed3 α)
    (hi : AvlInv (t.sets s) (A ++ np :: B)) (hset : IsSet mn mx ((A ++ np :: B).map (fun n => (t.sx n, t.sy n)))) (hXs : ∀ q ∈ (A ++ np :: B).map (fun n => (t.sx n, t.sy n)), q.1 ∈ X)
    (hf3 : 3 ≤ t.sfresh) (hlt : ∀ n ∈ A ++ np :: B, n < t.sfresh) (hnp : t.sx np ≤ x) (hB : ∀ n ∈ B, x < t.sx n) (hnpy : y < t.sy np)
    (hhd : (A ++ np :: B).head? = some 1) (htl : (A ++ np :: B).getLast? = some 2) (hlv : ∀ n ∈ A ++ np :: B, 3 ≤ n → t.live (.setNode n) = true)
    (he : add2set ((t.sx np, t.sy np) :: (A.map (fun n => (t.sx n, t.sy n))).reverse) (B.map (fun n => (t.sx n, t.sy n))) x y = some S') :
    ∃ h' sx' sy' live', treeAdd2set tf F t s np x y = some { t with sets := upd t.sets s h', sx := sx', sy := sy', sfresh := t.sfresh + 1, live := live' } ∧
      ∃ l R : List ℕ, AvlInv h' l ∧ l.map (fun n => (sx' n, sy' n)) = S' ∧ (∀ n ∈ l, n < t.sfresh + 1) ∧ IsSet mn mx S' ∧ (∀ q ∈ S', q.1 ∈ X) ∧
        l.head? = some 1 ∧ l.getLast? = some 2 ∧ (∀ n, n ∈ l ↔ n = t.sfresh ∨ (n ∈ A ++ np :: B ∧ n ∉ R)) ∧ (∀ n ∈ R, n ∈ A ++ np :: B ∧ 3 ≤ n) ∧
        (∀ j, j ≠ t.sfresh → j ∉ R → sx' j = t.sx j ∧ sy' j = t.sy j) ∧
        ∀ c, live' c = true ↔ (t.live c = true ∨ c = .setNode t.sfresh) ∧ ∀ j ∈ R, c ≠ .setNode j := by
  set pt : ℕ → α × α := fun n => (t.sx n, t.sy n) with hpt
  set pt' : ℕ → α × α := fun n => (upd t.sx t.sfresh x n, upd t.sy t.sfresh y n) with hpt'
  have hlen := set_length hset.sorted hXs
  rw [List.length_map] at hlen
  have hsame : ∀ n, n < t.sfresh → pt' n = pt n := by
    intro n hn
    simp only [hpt, hpt']
    rw [upd_ne _ _ (by omega), upd_ne _ _ (by omega)]
  have hmap : ∀ l : List ℕ, (∀ n ∈ l, n < t.sfresh) → l.map pt' = l.map pt := fun l hl => List.map_congr_left (fun n hn => hsame n (hl n hn))
  have hsp := hset.sorted
  -- the sequence stays a staircase
  have htw : ((A ++ np :: B).map pt).takeWhile (fun q => decide (q.1 ≤ x)) = (A ++ [np]).map pt ∧ ((A ++ np :: B).map pt).dropWhile (fun q => decide (q.1 ≤ x)) = B.map pt := by
    have e : (A ++ np :: B).map pt = (A ++ [np]).map pt ++ B.map pt := by simp
    rw [e] at hsp ⊢
    refine takeWhile_split ?_ ?_
    · intro q hq
      rw [List.map_append] at hq
      rcases List.mem_append.1 hq with hq | hq
      · rw [List.map_append] at hsp
        have := (List.pairwise_append.1 (List.pairwise_append.1 hsp).1).2.2 q hq (pt np) (by simp)
        simpa using (this.1.trans_le hnp).le
      · simp only [List.map_cons, List.map_nil, List.mem_singleton] at hq
        subst hq
        simpa using hnp
    · intro q hq
      obtain ⟨n, hn, rfl⟩ := List.mem_map.1 hq
      simpa using hB n hn
  have hrev : (((A ++ np :: B).map pt).takeWhile (fun q => decide (q.1 ≤ x))).reverse = pt np :: (A.map pt).reverse := by rw [htw.1]; simp
  obtain ⟨S1, hS1, hS1set, -⟩ := add2set_spec hset hx hx' hy hy' hrev hnpy
  have hSS : S1 = S' := by
    rw [htw.2] at hS1
    exact Option.some.inj (hS1.symm.trans he)
  subst hSS
  -- the tree
  unfold treeAdd2set
  dsimp only
  have hsxnp : upd t.sx t.sfresh x np = t.sx np := upd_ne _ _ (by have := hlt np (by simp); omega)
  rw [hsxnp]
  have hnew : ∀ l : List ℕ, (∀ n ∈ l, n < t.sfresh) → t.sfresh ∉ l := fun l hl hm => lt_irrefl _ (hl _ hm)
  have hz := hi.zero_not_mem
  unfold add2set at he
  dsimp only at he
  have main : ∀ (A' B' : List ℕ) (b : ℕ), A' ++ b :: B' = A ++ np :: B → ∀ S2, (match (B'.map pt).dropWhile (fun q => decide (y ≤ q.2)) with
      | [] => none
      | q :: qs => some (((b :: A'.reverse).map pt).reverse ++ (x, y) :: q :: qs)) = some S2 →
      ∃ h' sx' sy' live', treeSetRemove tf F s y tf ((avlInsertAfter 3 tf (t.sets s) b t.sfresh).next t.sfresh) (avlInsertAfter 3 tf (t.sets s) b t.sfresh) (upd t.sx t.sfresh x)
          (upd t.sy t.sfresh y) (t.live.alloc (.setNode t.sfresh)) = some (h', sx', sy', live') ∧
        ∃ l R : List ℕ, AvlInv h' l ∧ l.map (fun n => (sx' n, sy' n)) = S2 ∧ (∀ n ∈ l, n < t.sfresh + 1) ∧ (∀ q ∈ S2, q.1 ∈ X) ∧
          l.head? = some 1 ∧ l.getLast? = some 2 ∧ (∀ n, n ∈ l ↔ n = t.sfresh ∨ (n ∈ A ++ np :: B ∧ n ∉ R)) ∧ (∀ n ∈ R, n ∈ A ++ np :: B ∧ 3 ≤ n) ∧
          (∀ j, j ≠ t.sfresh → j ∉ R → sx' j = t.sx j ∧ sy' j = t.sy j) ∧
          ∀ c, live' c = true ↔ (t.live c = true ∨ c = .setNode t.sfresh) ∧ ∀ j ∈ R, c ≠ .setNode j := by
    intro A' B' b heq S2 h2
    rw [← heq] at hi hlt hlen hXs hhd htl hlv ⊢
    have hins := insertAfter_spec (fuel := tf) (rec := 3) hi (hnew _ hlt) (by omega) (by omega) (by omega) (by omega)
    have hins' : AvlInv (avlInsertAfter 3 tf (t.sets s) b t.sfresh) ((A' ++ [b]) ++ t.sfresh :: B') := by simpa using hins
    have hins2 : AvlInv (avlInsertAfter 3 tf (t.sets s) b t.sfresh) ((A' ++ [b, t.sfresh]) ++ B') := by simpa using hins
    have hB'lt : ∀ n ∈ B', n < t.sfresh := fun n hn => hlt n (by simp [hn])
    have hdw : (B'.map pt).dropWhile (fun q => decide (y ≤ q.2)) = (B'.dropWhile (fun n => decide (y ≤ upd t.sy t.sfresh y n))).map pt := by
      have hc : ∀ l : List ℕ, (∀ n ∈ l, n < t.sfresh) → (l.map pt).dropWhile (fun q => decide (y ≤ q.2)) = (l.dropWhile (fun n => decide (y ≤ upd t.sy t.sfresh y n))).map pt := by
        intro l hl
        induction l with
        | nil => rfl
        | cons a l ih =>
          have ha : upd t.sy t.sfresh y a = t.sy a := upd_ne _ _ (by have := hl a (by simp); omega)
          rw [List.map_cons, List.dropWhile_cons, List.dropWhile_cons, ih (fun n hn => hl n (by simp [hn])), ha]
          by_cases hya : y ≤ t.sy a
          · rw [if_pos (by simpa [hpt] using hya), if_pos (by simpa using hya)]
          · rw [if_neg (by simpa [hpt] using hya), if_neg (by simpa using hya)]; rfl
      exact hc B' hB'lt
    rw [hdw] at h2
    rw [hins'.next]
    have hRD := List.takeWhile_append_dropWhile (p := fun n => decide (y ≤ upd t.sy t.sfresh y n)) (l := B')
    have hRall := List.all_takeWhile (p := fun n => decide (y ≤ upd t.sy t.sfresh y n)) (l := B')
    have hDhd : ∀ d ds, B'.dropWhile (fun n => decide (y ≤ upd t.sy t.sfresh y n)) = d :: ds → ¬ y ≤ upd t.sy t.sfresh y d := by
      intro d ds hD
      have hne : B'.dropWhile (fun n => decide (y ≤ upd t.sy t.sfresh y n)) ≠ [] := by rw [hD]; simp
      have h3 := List.head_dropWhile_not (fun n => decide (y ≤ upd t.sy t.sfresh y n)) (l := B') hne
      simp only [hD, List.head_cons] at h3
      simpa using h3
    generalize hR : B'.takeWhile (fun n => decide (y ≤ upd t.sy t.sfresh y n)) = R at hRD hRall
    generalize hD : B'.dropWhile (fun n => decide (y ≤ upd t.sy t.sfresh y n)) = D at h2 hRD hDhd
    cases D with
    | nil => simp at h2
    | cons d ds =>
      subst hRD
      have hlen2 : ((A' ++ [b, t.sfresh]) ++ (R ++ d :: ds)).length ≤ X.length + 1 := by
        simp at hlen ⊢; omega
      have hndl := hi.nodup
      have h1in : 1 ∈ A' ++ [b] := by
        cases A' with
        | nil => simp at hhd ⊢; exact hhd.symm
        | cons a A' => simp at hhd ⊢; exact Or.inl hhd.symm
      have h2in : 2 ∈ d :: ds := by
        have e : A' ++ b :: (R ++ d :: ds) = (A' ++ b :: R) ++ d :: ds := by simp
        rw [e, List.getLast?_append_of_ne_nil _ (by simp)] at htl
        exact List.mem_of_getLast? htl
      have hsplit1 : A' ++ b :: (R ++ d :: ds) = (A' ++ [b]) ++ (R ++ d :: ds) := by simp
      have hRm : ∀ n ∈ R, n ∉ A' ++ [b] ∧ n ∉ d :: ds := by
        intro n hn
        rw [hsplit1] at hndl
        refine ⟨fun hm => (List.nodup_append.1 hndl).2.2 n hm n (by simp [hn]) rfl, fun hm => ?_⟩
        exact (List.nodup_append.1 (List.nodup_append.1 hndl).2.1).2.2 n hn n hm rfl
      have hR3 : ∀ n ∈ R, 3 ≤ n := by
        intro n hn
        have h0 : n ≠ 0 := fun e => hi.zero_not_mem (by rw [← e]; simp [hn])
        have h1 : n ≠ 1 := fun e => (hRm n hn).1 (by rw [e]; exact h1in)
        have h2 : n ≠ 2 := fun e => (hRm n hn).2 (by rw [e]; exact h2in)
        omega
      have hRmem : ∀ n ∈ R, n ∈ A' ++ b :: (R ++ d :: ds) := fun n hn => by simp [hn]
      have hfR : ∀ n ∈ R, n ≠ t.sfresh := fun n hn => by have := hlt n (hRmem n hn); omega
      obtain ⟨h', sx', sy', live', g1, g2, g3, g4⟩ := treeSetRemove_spec (tf := tf) (F := F) (s := s) (y := y) R tf _ (upd t.sx t.sfresh x) (upd t.sy t.sfresh y)
        (t.live.alloc (.setNode t.sfresh)) (A' ++ [b, t.sfresh]) d ds hins2 (by omega) (by omega)
        (by simp at hlen2; omega) (fun n hn => by simpa using List.all_eq_true.1 hRall n hn) (hDhd d ds rfl)
        (fun n hn => ⟨hR3 n hn, by rw [Live3.alloc_ne _ (by simpa using hfR n hn)]; exact hlv n (hRmem n hn) (hR3 n hn)⟩)
      have hpt'' : ∀ n, n ∉ R → (sx' n, sy' n) = pt' n := by
        intro n hn
        obtain ⟨e1, e2⟩ := g3 n hn
        simp only [hpt', e1, e2]
      simp only [List.map_cons, Option.some.injEq] at h2
      have hmemiff : ∀ n, n ∈ A' ++ [b, t.sfresh] ++ d :: ds ↔ n = t.sfresh ∨ (n ∈ A' ++ b :: (R ++ d :: ds) ∧ n ∉ R) := by
        intro n
        constructor
        · intro hn
          by_cases e : n = t.sfresh
          · exact Or.inl e
          · refine Or.inr ⟨?_, fun hnR => ?_⟩
            · simp only [List.append_assoc, List.mem_append, List.mem_cons, List.not_mem_nil, or_false] at hn ⊢
              rcases hn with hn | (hn | hn) | hn
              · exact Or.inl hn
              · exact Or.inr (Or.inl hn)
              · exact absurd hn e
              · exact Or.inr (Or.inr (Or.inr hn))
            · obtain ⟨c1, c2⟩ := hRm n hnR
              simp only [List.append_assoc, List.mem_append, List.mem_cons, List.not_mem_nil, or_false, not_or] at hn c1 c2
              rcases hn with hn | (hn | hn) | hn
              · exact c1.1 hn
              · exact c1.2 hn
              · exact e hn
              · exact hn.elim c2.1 c2.2
        · rintro (rfl | ⟨hn, hnR⟩)
          · simp
          · simp only [List.append_assoc, List.mem_append, List.mem_cons, List.not_mem_nil, or_false] at hn ⊢
            rcases hn with hn | hn | hn | hn
            · exact Or.inl hn
            · exact Or.inr (Or.inl (Or.inl hn))
            · exact absurd hn hnR
            · exact Or.inr (Or.inr hn)
      refine ⟨h', sx', sy', live', g1, _, R, g2, ?_, ?_, ?_, ?_, ?_, hmemiff, fun n hn => ⟨hRmem n hn, hR3 n hn⟩, ?_, ?_⟩
      · rw [← h2]
        have hnotR : ∀ n ∈ A' ++ [b, t.sfresh] ++ d :: ds, n ∉ R := by
          intro n hn hnR
          rcases (hmemiff n).1 hn with e | e
          · exact hfR n hnR e
          · exact e.2 hnR
        rw [List.map_congr_left (fun n hn => hpt'' n (hnotR n hn))]
        have hA'lt : ∀ n ∈ A' ++ [b], n < t.sfresh := by
          intro n hn
          refine hlt n ?_
          rcases List.mem_append.1 hn with hn | hn
          · exact List.mem_append_left _ hn
          · simp at hn; simp [hn]
        have e : A' ++ [b, t.sfresh] ++ d :: ds = (A' ++ [b]) ++ t.sfresh :: (d :: ds) := by simp
        rw [e, List.map_append, List.map_cons, hmap _ hA'lt, hmap (d :: ds) (fun n hn => hB'lt n (by simp only [List.mem_append]; exact Or.inr hn))]
        have : pt' t.sfresh = (x, y) := by simp [hpt', upd_same]
        rw [this]
        simp
      · intro n hn
        rcases (hmemiff n).1 hn with e | e
        · omega
        · have := hlt n e.1; omega
      · intro q hq
        rw [← h2] at hq
        rcases List.mem_append.1 hq with hq | hq
        · rw [List.mem_reverse, ← List.map_cons] at hq
          obtain ⟨n, hn, rfl⟩ := List.mem_map.1 hq
          refine hXs _ (List.mem_map.2 ⟨n, ?_, rfl⟩)
          simp only [List.mem_cons, List.mem_reverse] at hn
          rcases hn with rfl | hn
          · simp
          · simp [hn]
        · rcases List.mem_cons.1 hq with rfl | hq
          · exact hxX
          · rw [← List.map_cons] at hq
            obtain ⟨n, hn, rfl⟩ := List.mem_map.1 hq
            refine hXs _ (List.mem_map.2 ⟨n, ?_, rfl⟩)
            simp only [List.mem_append, List.mem_cons] at hn ⊢
            exact Or.inr (Or.inr (Or.inr hn))
      · cases A' with
        | nil => simpa using hhd
        | cons a A' => simpa using hhd
      · have e : A' ++ b :: (R ++ d :: ds) = (A' ++ b :: R) ++ d :: ds := by simp
        rw [e, List.getLast?_append_of_ne_nil _ (by simp)] at htl
        rw [List.getLast?_append_of_ne_nil _ (by simp)]
        exact htl
      · intro j h1 h2
        obtain ⟨e1, e2⟩ := g3 j h2
        exact ⟨e1.trans (upd_ne _ _ h1), e2.trans (upd_ne _ _ h1)⟩
      · intro c
        rw [g4]
        refine and_congr_left (fun _ => ?_)
        by_cases e : c = .setNode t.sfresh
        · rw [e, Live3.alloc_same]; simp
        · rw [Live3.alloc_ne _ e]; simp [e]
  by_cases hnx : t.sx np = x
  · rw [if_pos hnx] at he ⊢
    rcases List.eq_nil_or_concat A with rfl | ⟨A, b, rfl⟩
    · exfalso
      have hh := hset.head
      rcases List.mem_map.1 hh with ⟨n, hn, e⟩
      simp only [List.nil_append, List.mem_cons] at hn
      rcases hn with rfl | hn
      · have := congrArg Prod.fst e
        simp only [hpt] at this
        rw [this] at hnx
        exact absurd hnx (ne_of_lt hx)
      · have h1 := hB n hn
        have := congrArg Prod.fst e
        simp only [hpt] at this
        rw [this] at h1
        exact absurd hx (not_lt.2 h1.le)
    · rw [List.concat_eq_append] at *
      have hpv : (t.sets s).prev np = b := by rw [hi.prev, getLastD_snoc]
      rw [hpv]
      obtain ⟨h', sx', sy', live', g1, l, R, g2, g3, g4, g5, g6⟩ := main A (np :: B) b (by simp) S1 (by
        rw [← he, show List.map pt (np :: B) = (t.sx np, t.sy np) :: List.map pt B from rfl]
        dsimp only
        generalize List.dropWhile _ _ = D
        cases D <;> simp [List.map_reverse])
      rw [g1]
      exact ⟨h', sx', sy', live', rfl, l, R, g2, g3, g4, hS1set, g5, g6⟩
  · rw [if_neg hnx] at he ⊢
    obtain ⟨h', sx', sy', live', g1, l, R, g2, g3, g4, g5, g6⟩ := main A B np rfl S1 (by
      rw [← he]
      dsimp only
      generalize List.dropWhile _ _ = D
      cases D <;> simp [List.map_reverse, hpt])
    rw [g1]
    exact ⟨h', sx', sy', live', rfl, l, R, g2, g3, g4, hS1set, g5, g6⟩

theorem getLast?_of_reverse {β : Type*} {l : List β} {a : β} {b : List β} (h : l.reverse = a :: b) : l = b.reverse ++ [a] := by
  have := congrArg List.reverse h
  simpa using this

/-- One iteration of the main loop on the nodes does what it does on the sequences. -/
theorem treeEaf3dStep_sim {mn mx junk : α} {X : List α} {tf nset fuel : ℕ} (hX : X.length + 1 < 2 ^ 125) (hXf : X.length + 1 < tf) {p : Pt3 α}
    (hx : mn < p.x) (hx' : p.x < mx) (hy : mn < p.y) (hy' : p.y < mx) (hxX : p.x ∈ X) {start start' : ℕ} (F : Freed3 α) {sl : ℕ → List ℕ} {mask mask' : ℕ → Bool} {st st' : St3 α} {t : TreeSt3 α}
    (hs : Sim3 mn mx junk X nset sl st t) (h : eaf3dStep nset fuel p start mask st = some (start', mask', st')) :
    ∃ t' sl', treeEaf3dStep tf F nset fuel p start mask t = some (start', mask', t') ∧ Sim3 mn mx junk X nset sl' st' t' ∧ ∀ b, NotNode b → t'.live b = t.live b := by
  have hmm : mn < mx := hx.trans hx'
  unfold eaf3dStep at h
  unfold treeEaf3dStep
  by_cases hset : ¬ p.set < nset
  · rw [if_pos hset] at h; simp at h
  rw [if_neg hset] at h ⊢
  dsimp only at h
  rw [not_not] at hset
  have hl1 := hs.inv p.set
  have hl2 := hs.pts p.set
  have hl3 := hs.lt p.set
  have hl4 := hs.isset p.set
  have hl5 := hs.xs p.set
  have hl6 := hs.hd p.set
  have hl7 := hs.tl p.set
  have hl8 : ∀ n ∈ sl p.set, 3 ≤ n → t.live (.setNode n) = true := fun n hn h3 => (hs.snode n).2 ⟨h3, p.set, hset, hn⟩
  generalize hl : sl p.set = l at hl1 hl2 hl3 hl6 hl7 hl8
  have hlen := set_length hl4.sorted hl5
  rw [← hl2, List.length_map] at hlen
  have hne : l ≠ [] := by
    rintro rfl
    have := hl4.head
    rw [← hl2] at this
    simp at this
  have hsort : l.Pairwise (fun a b => t.sx a < t.sx b ∧ t.sy b < t.sy a) := by
    have := hl4.sorted
    rw [← hl2, List.pairwise_map] at this
    exact this
  rw [treeAtLeft_eq p.x hl1 hne (by omega) (hsort.imp (fun h => h.1))]
  rw [← hl2, (takeWhile_map' _ _ l).1, (takeWhile_map' _ _ l).2] at h
  dsimp only at h
  generalize hrev : (List.map (fun n => (t.sx n, t.sy n)) (List.takeWhile (fun b => decide (t.sx b ≤ p.x)) l)).reverse = rv at h
  cases rv with
  | nil => simp at h
  | cons newPrev before =>
  dsimp only at h
  have hrev2 := getLast?_of_reverse hrev
  rcases List.eq_nil_or_concat (List.takeWhile (fun b => decide (t.sx b ≤ p.x)) l) with e | ⟨A, np, e⟩
  · rw [e] at hrev2; simp at hrev2
  rw [List.concat_eq_append] at e
  set B := List.dropWhile (fun b => decide (t.sx b ≤ p.x)) l with hB
  have hlAB : l = A ++ np :: B := by
    have := List.takeWhile_append_dropWhile (p := fun b => decide (t.sx b ≤ p.x)) (l := l)
    rw [e, ← hB] at this
    exact this.symm.trans (by simp)
  rw [e, List.map_append, List.map_cons, List.map_nil] at hrev2
  have hinj := List.append_inj' hrev2 rfl
  have hnp : (t.sx np, t.sy np) = newPrev := by simpa using hinj.2
  have hbef : before = (A.map (fun n => (t.sx n, t.sy n))).reverse := by rw [hinj.1]; simp
  rw [e, List.getLast?_concat]
  dsimp only
  subst hnp
  dsimp only at h
  by_cases hdom : t.sy np ≤ p.y
  · rw [if_pos hdom] at h ⊢
    simp only [Option.some.injEq, Prod.mk.injEq] at h
    obtain ⟨rfl, rfl, rfl⟩ := h
    exact ⟨t, sl, rfl, hs, fun _ _ => rfl⟩
  rw [if_neg hdom] at h ⊢
  have hbmx : ∀ n ∈ l, t.sx n ≤ mx ∧ t.sy n ≤ mx := by
    intro n hn
    have hm : (t.sx n, t.sy n) ∈ st.sets p.set := by rw [← hl2]; exact List.mem_map.2 ⟨n, hn, rfl⟩
    rcases hl4.bnd _ hm with e | e | e
    · have h1 := congrArg Prod.fst e; have h2 := congrArg Prod.snd e
      dsimp only at h1 h2
      rw [h1, h2]; exact ⟨hmm.le, le_rfl⟩
    · have h1 := congrArg Prod.fst e; have h2 := congrArg Prod.snd e
      dsimp only at h1 h2
      rw [h1, h2]; exact ⟨le_rfl, hmm.le⟩
    · exact ⟨e.2.1.le, e.2.2.2.le⟩
  split at h
  · simp at h
  next dom stop a hfp =>
  obtain ⟨b, f1, f2, f3, f4⟩ := treeFirstPart_sim hs.lev (tf := tf) (by omega) hx hx' hy' hxX (hbmx np (by rw [hlAB]; simp)).2 (start + 1) _ (fun _ => none) dom stop a hfp
    (fun k c hc => by simp at hc)
  rw [f1]
  dsimp only
  split at h
  · simp at h
  next q a1 st1 hsec =>
  have hik : ∀ k ∈ (List.range' stop (start + 1 - stop)).reverse, stop - 1 ≤ k := by
    intro k hk
    rw [List.mem_reverse, List.mem_range'_1] at hk
    omega
  obtain ⟨m', b1, t1, s1, s2, s3, s4, s5, s6⟩ := treeSecondPart_sim hX hXf hy hmm F (i := stop - 1) fuel ((List.range' stop (start + 1 - stop)).reverse) hik (t.sets p.set) t.sx t.sy B A np tf a b st t
    q a1 st1 (by rw [← hlAB]; exact hl1) rfl rfl rfl (fun n hn => hbmx n (by rw [hlAB]; simp [hn])) (by
      have : (A ++ np :: B).length ≤ X.length := by rw [← hlAB]; exact hlen
      simp at this; omega) hs.lev f2 hsec
  rw [s1]
  dsimp only
  split at h
  · simp at h
  next st2 hth =>
  have hqx : t1.sx m' = q.1 := by rw [s4.sx, ← s5]
  obtain ⟨t2, u1, u2, u3⟩ := treeThirdPart_sim hX hXf hy hy' (q := q) (by rw [← s5]; exact (hbmx m' (by rw [hlAB]; simp [s6])).1) F _ a1 b1 st1 t1 st2 hik s2 s3 hth
  rw [hqx, u1]
  dsimp only
  have hF := s4.trans u3
  split at h
  · simp at h
  next S' hS' =>
  have hg : ∀ n ∈ B, p.x < t.sx n := by
    intro n hn
    have hpw : (A ++ np :: B).Pairwise (fun a b => t.sx a < t.sx b ∧ t.sy b < t.sy a) := hlAB ▸ hsort
    cases hBe : B with
    | nil => rw [hBe] at hn; simp at hn
    | cons b0 bs =>
      have hb0 : p.x < t.sx b0 := by
        have hne : List.dropWhile (fun b => decide (t.sx b ≤ p.x)) l ≠ [] := by rw [← hB, hBe]; simp
        have h2 := List.head_dropWhile_not (fun b => decide (t.sx b ≤ p.x)) (l := l) hne
        have h3 : (List.dropWhile (fun b => decide (t.sx b ≤ p.x)) l).head hne = b0 := by simp [← hB, hBe]
        rw [h3] at h2
        simpa using h2
      rw [hBe] at hn hpw
      rcases List.mem_cons.1 hn with rfl | hn
      · exact hb0
      · exact hb0.trans ((List.pairwise_cons.1 (List.pairwise_cons.1 (List.pairwise_append.1 hpw).2.1).2).1 n hn).1
  have hnple : t.sx np ≤ p.x := by
    have hm : np ∈ List.takeWhile (fun b => decide (t.sx b ≤ p.x)) l := by rw [e]; simp
    have h2 := List.all_takeWhile (p := fun b => decide (t.sx b ≤ p.x)) (l := l)
    simpa using List.all_eq_true.1 h2 np hm
  have hsnl : ∀ n, t2.live (.setNode n) = t.live (.setNode n) := fun n => hF.live _ (by simp) (by simp)
  rw [hlAB] at hl1 hl2 hl3 hl6 hl7 hl8
  obtain ⟨h', sx', sy', live', w1, l', R, w2, w3, w4, w5, w6, w7, w8, w9, w10, w11, w12⟩ := treeAdd2set_spec (t := t2) (s := p.set) (x := p.x) (y := p.y) (A := A) (B := B) (np := np)
    (S' := S') hX hXf hx hx' hy hy' hxX F
    (by rw [hF.sets]; exact hl1) (by rw [hF.sx, hF.sy, hl2]; exact hl4) (by rw [hF.sx, hF.sy, hl2]; exact hl5) (by rw [hF.sfresh]; exact hs.sfresh)
    (by rw [hF.sfresh]; exact hl3) (by rw [hF.sx]; exact hnple) (by rw [hF.sx]; exact hg) (by rw [hF.sy]; exact not_le.1 hdom) hl6 hl7
    (fun n hn h3 => by rw [hsnl]; exact hl8 n hn h3) (by rw [hF.sx, hF.sy, ← hbef]; exact hS')
  rw [w1]
  dsimp only
  set t3 : TreeSt3 α := { t2 with sets := upd t2.sets p.set h', sx := sx', sy := sy', sfresh := t2.sfresh + 1, live := live' } with ht3
  have hlive3 : ∀ b, (∀ n, b ≠ .setNode n) → live' b = t2.live b := by
    intro b hb
    rw [Bool.eq_iff_iff, w12]
    simp [hb]
  have hs3 : SimL mn mx junk X nset { st2 with sets := upd st2.sets p.set S' } t3 :=
    ⟨u2.fresh, u2.fresh2, u2.lvl, u2.inv, u2.out, u2.nodup, u2.known, u2.real, u2.realo, u2.xs, u2.prom, u2.rem, u2.eql, u2.held, u2.disj,
      fun n => by rw [show t3.live = live' from rfl, hlive3 _ (by simp)]; exact u2.lnode n, fun n => by rw [show t3.live = live' from rfl, hlive3 _ (by simp)]; exact u2.litem n⟩
  have hRl : ∀ n ∈ R, n ∈ sl p.set ∧ 3 ≤ n := fun n hn => by rw [hl, hlAB]; exact w10 n hn
  have hother : ∀ s, s ≠ p.set → ∀ n ∈ sl s, n ∉ R ∧ n ≠ t2.sfresh := by
    intro s es n hn
    refine ⟨fun hnR => ?_, ?_⟩
    · have := hs.sdisj s p.set es n hn (hRl n hnR).1
      have := (hRl n hnR).2
      omega
    · have := hs.lt s n hn
      rw [hF.sfresh]; omega
  have hs3' : Sim3 mn mx junk X nset (upd sl p.set l') { st2 with sets := upd st2.sets p.set S' } t3 := by
    refine ⟨hs3, ?_, ?_, ?_, ?_, ?_, ?_, ?_, ?_, ?_, by show 3 ≤ t2.sfresh + 1; rw [hF.sfresh]; exact Nat.le_succ_of_le hs.sfresh⟩
    · intro s
      show AvlInv (upd t2.sets p.set h' s) (upd sl p.set l' s)
      by_cases es : s = p.set
      · subst es; rw [upd_same, upd_same]; exact w2
      · rw [upd_ne _ _ es, upd_ne _ _ es, hF.sets]; exact hs.inv s
    · intro s
      show (upd sl p.set l' s).map (fun n => (sx' n, sy' n)) = upd st2.sets p.set S' s
      by_cases es : s = p.set
      · subst es; rw [upd_same, upd_same]; exact w3
      · rw [upd_ne _ _ es, upd_ne _ _ es, hF.lsets, ← hs.pts s]
        refine List.map_congr_left (fun n hn => ?_)
        obtain ⟨o1, o2⟩ := hother s es n hn
        obtain ⟨e1, e2⟩ := w11 n o2 o1
        rw [e1, e2, hF.sx, hF.sy]
    · intro s n hn
      show n < t2.sfresh + 1
      by_cases es : s = p.set
      · subst es; rw [upd_same] at hn; exact w4 n hn
      · rw [upd_ne _ _ es] at hn
        have := hs.lt s n hn
        rw [hF.sfresh]; omega
    · intro s
      show IsSet mn mx (upd st2.sets p.set S' s)
      by_cases es : s = p.set
      · subst es; rw [upd_same]; exact w5
      · rw [upd_ne _ _ es, hF.lsets]; exact hs.isset s
    · intro s
      show ∀ q ∈ upd st2.sets p.set S' s, q.1 ∈ X
      by_cases es : s = p.set
      · subst es; rw [upd_same]; exact w6
      · rw [upd_ne _ _ es, hF.lsets]; exact hs.xs s
    · intro s
      by_cases es : s = p.set
      · subst es; rw [upd_same]; exact w7
      · rw [upd_ne _ _ es]; exact hs.hd s
    · intro s
      by_cases es : s = p.set
      · subst es; rw [upd_same]; exact w8
      · rw [upd_ne _ _ es]; exact hs.tl s
    · intro s s' hss n hn hn'
      by_cases es : s = p.set
      · subst es
        rw [upd_same] at hn
        rw [upd_ne _ _ (fun e => hss e.symm)] at hn'
        rcases (w9 n).1 hn with e | e
        · exact absurd e (hother s' (fun e => hss e.symm) n hn').2
        · exact hs.sdisj p.set s' hss n (by rw [hl, hlAB]; exact e.1) hn'
      · rw [upd_ne _ _ es] at hn
        by_cases es' : s' = p.set
        · subst es'
          rw [upd_same] at hn'
          rcases (w9 n).1 hn' with e | e
          · exact absurd e (hother s es n hn).2
          · exact hs.sdisj s p.set es n hn (by rw [hl, hlAB]; exact e.1)
        · rw [upd_ne _ _ es'] at hn'
          exact hs.sdisj s s' hss n hn hn'
    · intro n
      show live' (.setNode n) = true ↔ _
      rw [w12, hsnl, hs.snode]
      simp only [Blk3.setNode.injEq, ne_eq]
      constructor
      · rintro ⟨h1, h2⟩
        have h2' : n ∉ R := fun hm => h2 n hm rfl
        by_cases e : n = t2.sfresh
        · refine ⟨by rw [e, hF.sfresh]; exact hs.sfresh, p.set, hset, ?_⟩
          rw [upd_same, w9]; exact Or.inl e
        · rcases h1 with ⟨h3, s, hsn, hns⟩ | h1
          · refine ⟨h3, s, hsn, ?_⟩
            by_cases es : s = p.set
            · subst es
              rw [upd_same, w9, ← hlAB, ← hl]
              exact Or.inr ⟨hns, h2'⟩
            · rw [upd_ne _ _ es]; exact hns
          · exact absurd h1 e
      · rintro ⟨h3, s, hsn, hns⟩
        by_cases es : s = p.set
        · subst es
          rw [upd_same, w9, ← hlAB, ← hl] at hns
          rcases hns with e | ⟨e1, e2⟩
          · refine ⟨Or.inr e, fun j hj hj' => ?_⟩
            have := hs.lt p.set j (hRl j hj).1
            rw [← hj', e, hF.sfresh] at this
            exact lt_irrefl _ this
          · exact ⟨Or.inl ⟨h3, p.set, hsn, e1⟩, fun j hj hj' => e2 (hj' ▸ hj)⟩
        · rw [upd_ne _ _ es] at hns
          exact ⟨Or.inl ⟨h3, s, hsn, hns⟩, fun j hj hj' => (hother s es n hns).1 (hj' ▸ hj)⟩
  split at h
  · simp at h
  next st4 tn hadd =>
  obtain ⟨t4, g1, g2, g3, g4, g5, g6, g7, g8, g9, g10, g11⟩ := treeAdd2level_spec hs3 hX hXf hx hx' hy hy' hxX (pr := dom) F
    (fun n hn => ⟨hF.known n (f3 n hn).1.1, (f3 n hn).1.2⟩) hadd
  rw [g1]
  dsimp only
  have hs4 : Sim3 mn mx junk X nset (upd sl p.set l') st4 t4 := by
    refine ⟨g2, ?_, ?_, ?_, ?_, ?_, hs3'.hd, hs3'.tl, hs3'.sdisj, ?_, ?_⟩
    · rw [g3]; exact hs3'.inv
    · rw [g4, g5, g7]; exact hs3'.pts
    · rw [g6]; exact hs3'.lt
    · rw [g7]; exact hs3'.isset
    · rw [g7]; exact hs3'.xs
    · intro n; rw [g10 _ (by simp) (by simp)]; exact hs3'.snode n
    · rw [g6]; exact hs3'.sfresh
  have hlive4 : ∀ b, NotNode b → t4.live b = t.live b := by
    intro b hb
    rw [g10 b hb.1 hb.2.1, show t3.live = live' from rfl, hlive3 b hb.2.2, hF.live b hb.1 hb.2.1]
  have hfin : ∃ t5, (if stop > 0 then treeLinkEqual t4 (optNum dom) (optNum tn) (p.z = t4.nodes.z (optNum dom) ∧ p.y = t4.nodes.y (optNum dom) ∧ p.x = t4.nodes.x (optNum dom)) else t4) = t5 ∧
      Sim3 mn mx junk X nset (upd sl p.set l') (match (generalizing := false) dom with
        | some d => linkEqual st4 d tn (p.z = d.z ∧ p.y = d.y ∧ p.x = d.x)
        | none => st4) t5 ∧ ∀ b, NotNode b → t5.live b = t.live b := by
    cases dom with
    | none =>
      rw [if_neg (by have := f4.1 rfl; omega)]
      exact ⟨t4, rfl, hs4, hlive4⟩
    | some d =>
      have hpos : stop > 0 := by
        by_contra hc
        have := f4.2 (by omega)
        simp at this
      rw [if_pos hpos, show optNum (some d) = d.num from rfl]
      have hdl : d ∈ st4.levels (stop - 1) := by
        rw [g11 (stop - 1) (by omega)]
        show d ∈ st2.levels (stop - 1)
        rw [hF.keep (stop - 1) le_rfl]
        exact (f3 d rfl).2
      have hKd := g2.held (stop - 1) d (List.mem_append_left _ hdl)
      obtain ⟨v1, v2⟩ := linkEqual_sim g2 (n := d) g9 (c := p.z = d.z ∧ p.y = d.y ∧ p.x = d.x)
        (c' := p.z = t4.nodes.z d.num ∧ p.y = t4.nodes.y d.num ∧ p.x = t4.nodes.x d.num) (by rw [hKd.z (f3 d rfl).1.2, hKd.y, hKd.x]) 0
      refine ⟨_, rfl, ⟨v1, ?_, ?_, ?_, ?_, ?_, hs4.hd, hs4.tl, hs4.sdisj, ?_, ?_⟩, ?_⟩
      · rw [v2.sets]; exact hs4.inv
      · rw [v2.sx, v2.sy, v2.lsets]; exact hs4.pts
      · rw [v2.sfresh]; exact hs4.lt
      · rw [v2.lsets]; exact hs4.isset
      · rw [v2.lsets]; exact hs4.xs
      · intro n; rw [v2.live _ (by simp) (by simp)]; exact hs4.snode n
      · rw [v2.sfresh]; exact hs4.sfresh
      · intro b hb
        rw [v2.live b hb.1 hb.2.1]; exact hlive4 b hb
  obtain ⟨t5, k1, k2, k3⟩ := hfin
  rw [k1]
  split at h
  · next hmask =>
    rw [if_pos hmask]
    simp only [Option.some.injEq, Prod.mk.injEq] at h
    obtain ⟨rfl, rfl, rfl⟩ := h
    exact ⟨t5, _, rfl, k2, k3⟩
  · next hmask =>
    rw [if_neg hmask]
    simp only [Option.some.injEq, Prod.mk.injEq] at h
    obtain ⟨rfl, rfl, rfl⟩ := h
    exact ⟨t5, _, rfl, k2, k3⟩

theorem treeEaf3dLoop_sim {mn mx junk : α} {X : List α} {tf nset fuel : ℕ} (hX : X.length + 1 < 2 ^ 125) (hXf : X.length + 1 < tf) (F : Freed3 α) :
    ∀ (ps : List (Pt3 α)) (start : ℕ) (mask : ℕ → Bool) (st st' : St3 α) (t : TreeSt3 α) (sl : ℕ → List ℕ),
      (∀ p ∈ ps, (mn < p.x ∧ p.x < mx ∧ mn < p.y ∧ p.y < mx) ∧ p.x ∈ X) → Sim3 mn mx junk X nset sl st t → eaf3dLoop nset fuel ps start mask st = some st' →
      ∃ t' sl', treeEaf3dLoop tf F nset fuel ps start mask t = some t' ∧ Sim3 mn mx junk X nset sl' st' t' ∧ ∀ b, NotNode b → t'.live b = t.live b
  | [], start, mask, st, st', t, sl, hp, hs, h => by
    simp only [eaf3dLoop, Option.some.injEq] at h
    subst h
    exact ⟨t, sl, rfl, hs, fun _ _ => rfl⟩
  | p :: ps, start, mask, st, st', t, sl, hp, hs, h => by
    rw [eaf3dLoop] at h
    rw [treeEaf3dLoop]
    split at h
    · simp at h
    next start1 mask1 st1 h1 =>
    obtain ⟨⟨a1, a2, a3, a4⟩, a5⟩ := hp p (by simp)
    obtain ⟨t1, sl1, r1, r2, r3⟩ := treeEaf3dStep_sim hX hXf a1 a2 a3 a4 a5 F hs h1
    rw [r1]
    obtain ⟨t', sl', q1, q2, q3⟩ := treeEaf3dLoop_sim hX hXf F ps start1 mask1 st1 st' t1 sl1 (fun q hq => hp q (by simp [hq])) r2 h
    exact ⟨t', sl', q1, q2, fun b hb => (q3 b hb).trans (r3 b hb)⟩


end Moo
