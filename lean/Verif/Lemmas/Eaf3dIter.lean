import Verif.Lemmas.Eaf3dStep

/-!
# One iteration of `eaf3df`
-/

set_option autoImplicit false
set_option linter.unusedSectionVars false

namespace Moo

variable {α : Type*} [LinearOrder α]

/-- `add2set` keeps the staircase of the set and adds the new point to its region. -/
theorem add2set_spec {mn mx : α} {S : List (α × α)} (h : IsSet mn mx S) {x y : α} (hx : mn < x) (hx' : x < mx) (hy : mn < y) (hy' : y < mx)
    {prev : α × α} {before : List (α × α)} (he : (S.takeWhile (fun q => decide (q.1 ≤ x))).reverse = prev :: before) (hp : y < prev.2) :
    ∃ S', add2set (prev :: before) (S.dropWhile (fun q => decide (q.1 ≤ x))) x y = some S' ∧ IsSet mn mx S' ∧
      ∀ a b, SReg S' a b ↔ SReg S a b ∨ (x ≤ a ∧ y ≤ b) := by
  have hmono : ∀ a b : α × α, a.1 < b.1 ∧ b.2 < a.2 → decide (b.1 ≤ x) = true → decide (a.1 ≤ x) = true := by
    intro a b hab hb
    rw [decide_eq_true_eq] at *
    exact hab.1.le.trans hb
  have hafter : ∀ q ∈ S.dropWhile (fun q => decide (q.1 ≤ x)), x < q.1 := by
    rw [dropWhile_eq_filter _ h.sorted hmono]
    intro q hq
    have := (List.mem_filter.mp hq).2
    simpa using this
  have hpre : ∀ q ∈ S.takeWhile (fun q => decide (q.1 ≤ x)), q.1 ≤ x := by
    rw [takeWhile_eq_filter _ h.sorted hmono]
    intro q hq
    have := (List.mem_filter.mp hq).2
    simpa using this
  have hS : S = before.reverse ++ prev :: S.dropWhile (fun q => decide (q.1 ≤ x)) := by
    conv_lhs => rw [← List.takeWhile_append_dropWhile (p := fun q : α × α => decide (q.1 ≤ x)) (l := S)]
    have : S.takeWhile (fun q => decide (q.1 ≤ x)) = (prev :: before).reverse := by rw [← he, List.reverse_reverse]
    rw [this]
    simp
  have hprev : prev.1 ≤ x := hpre prev (by rw [← List.mem_reverse, he]; simp)
  clear he hpre hmono
  generalize S.dropWhile (fun q => decide (q.1 ≤ x)) = after at *
  subst hS
  have hs := h.sorted
  rw [List.pairwise_append, List.pairwise_cons] at hs
  have hbef : ∀ q ∈ before, q.1 < prev.1 ∧ prev.2 < q.2 := fun q hq => hs.2.2 q (List.mem_reverse.mpr hq) prev (by simp)
  have hadown : after.dropWhile (fun q => decide (y ≤ q.2)) = after.filter (fun q => !decide (y ≤ q.2)) :=
    dropWhile_eq_filter _ hs.2.1.2 (by
      intro a b hab hb
      rw [decide_eq_true_eq] at *
      exact hb.trans hab.2.le)
  have htail : (mx, mn) ∈ after.filter (fun q => !decide (y ≤ q.2)) := by
    rw [List.mem_filter]
    refine ⟨?_, by rw [Bool.not_eq_true']; exact decide_eq_false (not_le.mpr hy)⟩
    rcases List.mem_append.mp h.tail with ht | ht
    · exact absurd ((hbef _ (List.mem_reverse.mp ht)).1.le.trans hprev) (not_le.mpr hx')
    · rcases List.mem_cons.mp ht with ht | ht
      · rw [← ht] at hprev
        exact absurd hprev (not_le.mpr hx')
      · exact ht
  have hmemA : ∀ q, q ∈ after.filter (fun q => !decide (y ≤ q.2)) ↔ q ∈ after ∧ q.2 < y := by
    intro q
    rw [List.mem_filter, Bool.not_eq_true', decide_eq_false_iff_not, not_le]
  obtain ⟨t, ts, hts⟩ : ∃ t ts, after.filter (fun q => !decide (y ≤ q.2)) = t :: ts := by
    cases hc : after.filter (fun q => !decide (y ≤ q.2)) with
    | nil => rw [hc] at htail; simp at htail
    | cons t ts => exact ⟨t, ts, rfl⟩
  -- the general form of the result
  have key : ∀ pre : List (α × α), (∀ q ∈ pre, q ∈ before ∨ (q = prev ∧ prev.1 ≠ x)) → pre.reverse.Pairwise (fun a b => a.1 < b.1 ∧ b.2 < a.2) →
      (∀ q ∈ before, q ∈ pre) → (prev.1 ≠ x → prev ∈ pre) →
      IsSet mn mx (pre.reverse ++ (x, y) :: t :: ts) ∧
      ∀ a b, SReg (pre.reverse ++ (x, y) :: t :: ts) a b ↔ SReg (before.reverse ++ prev :: after) a b ∨ (x ≤ a ∧ y ≤ b) := by
    intro pre h1 h2 h3 h4
    rw [← hts]
    have hlt : ∀ q ∈ pre, q.1 < x ∧ y < q.2 := by
      intro q hq
      rcases h1 q hq with h' | ⟨rfl, h'⟩
      · exact ⟨(hbef q h').1.trans_le hprev, hp.trans (hbef q h').2⟩
      · exact ⟨lt_of_le_of_ne hprev h', hp⟩
    refine ⟨⟨?_, ?_, ?_, ?_⟩, ?_⟩
    · rw [List.pairwise_append, List.pairwise_cons]
      refine ⟨h2, ⟨?_, hs.2.1.2.filter _⟩, ?_⟩
      · intro q hq
        exact ⟨hafter q ((hmemA q).mp hq).1, ((hmemA q).mp hq).2⟩
      · intro q hq r hr
        have hq' := List.mem_reverse.mp hq
        rcases List.mem_cons.mp hr with rfl | hr
        · exact hlt q hq'
        · have := (hmemA r).mp hr
          exact ⟨(hlt q hq').1.trans (hafter r this.1), this.2.trans (hlt q hq').2⟩
    · apply List.mem_append_left
      rw [List.mem_reverse]
      rcases List.mem_append.mp h.head with hh | hh
      · exact h3 _ (List.mem_reverse.mp hh)
      · rcases List.mem_cons.mp hh with hh | hh
        · rw [hh]
          exact h4 (by rw [← hh]; exact hx.ne)
        · exact absurd (hafter _ hh) (not_lt.mpr hx.le)
    · exact List.mem_append_right _ (List.mem_cons_of_mem _ htail)
    · intro q hq
      rcases List.mem_append.mp hq with hq | hq
      · rcases h1 q (List.mem_reverse.mp hq) with h' | ⟨rfl, -⟩
        · exact h.bnd q (List.mem_append_left _ (List.mem_reverse.mpr h'))
        · exact h.bnd q (by simp)
      · rcases List.mem_cons.mp hq with rfl | hq
        · exact Or.inr (Or.inr ⟨hx, hx', hy, hy'⟩)
        · exact h.bnd q (by simp [((hmemA q).mp hq).1])
    · intro a b
      constructor
      · rintro ⟨q, hq, hqa, hqb⟩
        rcases List.mem_append.mp hq with hq | hq
        · left
          rcases h1 q (List.mem_reverse.mp hq) with h' | ⟨rfl, -⟩
          · exact ⟨q, by simp [h'], hqa, hqb⟩
          · exact ⟨q, by simp, hqa, hqb⟩
        · rcases List.mem_cons.mp hq with rfl | hq
          · exact Or.inr ⟨hqa, hqb⟩
          · exact Or.inl ⟨q, by simp [((hmemA q).mp hq).1], hqa, hqb⟩
      · rintro (⟨q, hq, hqa, hqb⟩ | ⟨hqa, hqb⟩)
        · by_cases hd : x ≤ q.1 ∧ y ≤ q.2
          · exact ⟨(x, y), by simp, hd.1.trans hqa, hd.2.trans hqb⟩
          · refine ⟨q, ?_, hqa, hqb⟩
            rcases List.mem_append.mp hq with hq | hq
            · exact List.mem_append_left _ (List.mem_reverse.mpr (h3 q (List.mem_reverse.mp hq)))
            · rcases List.mem_cons.mp hq with rfl | hq
              · exact List.mem_append_left _ (List.mem_reverse.mpr (h4 (fun e => hd ⟨e.ge, hp.le⟩)))
              · apply List.mem_append_right
                apply List.mem_cons_of_mem
                rw [hmemA]
                refine ⟨hq, ?_⟩
                by_contra hc
                exact hd ⟨(hafter q hq).le, not_lt.mp hc⟩
        · exact ⟨(x, y), by simp, hqa, hqb⟩
  unfold add2set
  simp only
  by_cases hxe : prev.1 = x
  · rw [if_pos hxe]
    simp only
    rw [List.dropWhile_cons_of_pos (p := fun q : α × α => decide (y ≤ q.2)) (decide_eq_true hp.le), hadown, hts]
    exact ⟨_, rfl, key before (fun q hq => Or.inl hq) hs.1 (fun q hq => hq) (fun h' => absurd hxe h')⟩
  · rw [if_neg hxe]
    simp only
    rw [hadown, hts]
    refine ⟨_, rfl, key (prev :: before) ?_ ?_ (fun q hq => List.mem_cons_of_mem _ hq) (fun _ => by simp)⟩
    · intro q hq
      rcases List.mem_cons.mp hq with rfl | hq
      · exact Or.inr ⟨rfl, hxe⟩
      · exact Or.inl hq
    · rw [List.reverse_cons, List.pairwise_append]
      refine ⟨hs.1, by simp, ?_⟩
      intro q hq r hr
      rw [List.mem_singleton] at hr
      subst hr
      exact hbef q (List.mem_reverse.mp hq)

/-- `add2level` does not look at the sets. -/
theorem add2level_sets (nset : ℕ) (st : St3 α) (f : ℕ → List (α × α)) (k : ℕ) (x y z : α) (s : ℕ) (pr : Option (LNode α)) :
    add2level nset { st with sets := f } k x y z s pr = (add2level nset st k x y z s pr).map (fun r => ({ r.1 with sets := f }, r.2)) := by
  unfold add2level
  by_cases hk : k < nset
  · rw [if_neg (not_not.mpr hk), if_neg (not_not.mpr hk)]
    simp only
    generalize levelSplit (st.levels k) x y = pq
    obtain ⟨pre, post⟩ := pq
    cases pre with
    | nil => rfl
    | cons a pre =>
      cases post with
      | nil => rfl
      | cons b post =>
        simp only
        split
        · generalize levelRemove _ (a :: pre).reverse (st.outs k) _ = r
          cases r with
          | none => rfl
          | some r => rfl
        · rfl
  · rw [if_pos hk, if_pos hk]
    rfl

/-- The result of an iteration that does not skip the point. -/
structure StepRes (C : Ctx3 α) (start : ℕ) (st' : St3 α) : Prop where
  exists_steps : ∃ stA S', Steps C C.st stA ∧ st' = { stA with sets := upd C.st.sets C.p.set S' } ∧ IsSet C.mn C.mx S' ∧
    (∀ a b, SReg S' a b ↔ SReg C.S a b ∨ (C.p.x ≤ a ∧ C.p.y ≤ b)) ∧
    ∃ stop, stop ≤ start + 1 ∧ Reg (stA.levels stop) C.p.x C.p.y ∧ (stop = 0 ∨ Reg (C.L (stop - 1)) C.p.x C.p.y) ∧
      ∀ k, stop ≤ k → k ≤ start → Full C k stA

theorem eaf3dStep_skip {C : Ctx3 α} (ok : C.Ok) (hset : C.p.set < C.nset) {fuel start : ℕ} {mask : ℕ → Bool} (h : SReg C.S C.p.x C.p.y) :
    eaf3dStep C.nset fuel C.p start mask C.st = some (start, mask, C.st) := by
  have hmono : ∀ a b : α × α, a.1 < b.1 ∧ b.2 < a.2 → decide (b.1 ≤ C.p.x) = true → decide (a.1 ≤ C.p.x) = true := by
    intro a b hab hb
    rw [decide_eq_true_eq] at *
    exact hab.1.le.trans hb
  unfold eaf3dStep
  rw [if_neg (not_not.mpr hset)]
  simp only
  have hhead : (C.mn, C.mx) ∈ (C.S.takeWhile (fun q => decide (q.1 ≤ C.p.x))).reverse := by
    rw [List.mem_reverse, takeWhile_eq_filter _ ok.set.sorted hmono, List.mem_filter]
    exact ⟨ok.set.head, by simpa using ok.px.1.le⟩
  have hrs : (C.S.takeWhile (fun q => decide (q.1 ≤ C.p.x))).reverse.Pairwise (fun a b => b.1 < a.1 ∧ a.2 < b.2) := by
    rw [List.pairwise_reverse, takeWhile_eq_filter _ ok.set.sorted hmono]
    exact ok.set.sorted.filter _
  have hmem : ∀ q ∈ C.S, q.1 ≤ C.p.x → q ∈ (C.S.takeWhile (fun q => decide (q.1 ≤ C.p.x))).reverse := by
    intro q hq hqx
    rw [List.mem_reverse, takeWhile_eq_filter _ ok.set.sorted hmono, List.mem_filter]
    exact ⟨hq, by simpa using hqx⟩
  show (match (C.S.takeWhile (fun q => decide (q.1 ≤ C.p.x))).reverse with
    | [] => none
    | newPrev :: before => _) = _
  generalize (C.S.takeWhile (fun q => decide (q.1 ≤ C.p.x))).reverse = r at *
  cases r with
  | nil => simp at hhead
  | cons prev before =>
    simp only
    rw [if_pos]
    obtain ⟨q, hq, h1, h2⟩ := h
    rcases List.mem_cons.mp (hmem q hq h1) with rfl | h'
    · exact h2
    · exact ((List.pairwise_cons.mp hrs).1 q h').2.le.trans h2

theorem eaf3dStep_new {C : Ctx3 α} (ok : C.Ok) (hset : C.p.set < C.nset) {fuel start : ℕ} {mask : ℕ → Bool} (h : ¬ SReg C.S C.p.x C.p.y)
    (hk : ∀ k, k ≤ start → ∀ a b, a < C.mx → b < C.mx → Reg (C.L k) a b → ¬ SReg C.S a b → k + 1 < C.nset)
    (hfuel : ∀ k, k ≤ start → (C.L k).length < fuel) :
    ∃ st', eaf3dStep C.nset fuel C.p start mask C.st =
        some (if mask C.p.set then start else if start + 2 < C.nset then start + 1 else start, if mask C.p.set then mask else upd mask C.p.set true, st') ∧
      StepRes C start st' := by
  have hmono : ∀ a b : α × α, a.1 < b.1 ∧ b.2 < a.2 → decide (b.1 ≤ C.p.x) = true → decide (a.1 ≤ C.p.x) = true := by
    intro a b hab hb
    rw [decide_eq_true_eq] at *
    exact hab.1.le.trans hb
  have hhead : (C.mn, C.mx) ∈ (C.S.takeWhile (fun q => decide (q.1 ≤ C.p.x))).reverse := by
    rw [List.mem_reverse, takeWhile_eq_filter _ ok.set.sorted hmono, List.mem_filter]
    exact ⟨ok.set.head, by simpa using ok.px.1.le⟩
  have hmem : ∀ q ∈ (C.S.takeWhile (fun q => decide (q.1 ≤ C.p.x))).reverse, q ∈ C.S ∧ q.1 ≤ C.p.x := by
    intro q hq
    rw [List.mem_reverse, takeWhile_eq_filter _ ok.set.sorted hmono, List.mem_filter] at hq
    exact ⟨hq.1, by simpa using hq.2⟩
  obtain ⟨prev, before, he⟩ : ∃ prev before, (C.S.takeWhile (fun q => decide (q.1 ≤ C.p.x))).reverse = prev :: before := by
    cases hc : (C.S.takeWhile (fun q => decide (q.1 ≤ C.p.x))).reverse with
    | nil => rw [hc] at hhead; simp at hhead
    | cons a b => exact ⟨a, b, rfl⟩
  have hprev := hmem prev (by rw [he]; simp)
  have hpy : C.p.y < prev.2 := by
    by_contra hc
    exact h ⟨prev, hprev.1, hprev.2, not_lt.mp hc⟩
  have hSsplit : C.S = (prev :: before).reverse ++ C.S.dropWhile (fun q => decide (q.1 ≤ C.p.x)) := by
    rw [← he, List.reverse_reverse]
    exact List.takeWhile_append_dropWhile.symm
  have hbef : ∀ q ∈ (prev :: before).reverse, prev.2 ≤ q.2 := by
    have hs := ok.set.sorted
    rw [hSsplit, List.reverse_cons, List.pairwise_append, List.pairwise_append] at hs
    intro q hq
    rcases List.mem_cons.mp (List.mem_reverse.mp hq) with rfl | h'
    · exact le_refl _
    · exact (hs.1.2.2 q (List.mem_reverse.mpr h') prev (by simp)).2.le
  have hprevmx : prev.2 ≤ C.mx := by
    rcases ok.set.bnd prev hprev.1 with e | e | hb
    · rw [e]
    · rw [e]
      exact (ok.py.1.trans ok.py.2).le
    · exact hb.2.2.2.le
  obtain ⟨dom, stop, a1, e1, hstop, hdom, -, hcur⟩ := firstPart_spec ok hprev.1 hprev.2 hpy (start + 1) (fun _ => none)
  obtain ⟨ks, hksdef⟩ : ∃ ks, ks = (List.range' stop (start + 1 - stop)).reverse := ⟨_, rfl⟩
  have hksmem : ∀ k, k ∈ ks ↔ stop ≤ k ∧ k ≤ start := by
    intro k
    rw [hksdef, List.mem_reverse, List.mem_range'_1]
    omega
  have hkspw : ks.Pairwise (fun i j => j < i) := by
    rw [hksdef, List.pairwise_reverse]
    exact List.pairwise_lt_range'
  obtain ⟨q, a2, st2, B', e2, hst2, hsets2, hq, hqy, hB', hqB', hcur2⟩ := secondPart_spec ok hkspw (fun k hk' => hk k ((hksmem k).mp hk').2)
    (fuel := fuel) (fun k hk' => hfuel k ((hksmem k).mp hk').2) (C.S.dropWhile (fun q => decide (q.1 ≤ C.p.x))) (prev :: before).reverse prev.2 a1 C.st hSsplit hbef hprevmx hpy
    (Mid.start ok) (fun k hk' => hcur k ((hksmem k).mp hk').1 (by have := ((hksmem k).mp hk').2; omega))
  have hm2 := hst2.mid ok (Mid.start ok)
  obtain ⟨st3, e3, hst3, hsets3, hfull3⟩ := thirdPart_spec ok hq hqy hB' hqB' ks (fun k hk' => hk k ((hksmem k).mp hk').2) a2 ks st2 hkspw (fun k hk' => hk') hm2
    hcur2 (fun k h1 h2 => absurd h1 h2)
  have hm3 := hst3.mid ok hm2
  obtain ⟨S', e4, hS', hreg⟩ := add2set_spec ok.set ok.px.1 ok.px.2 ok.py.1 ok.py.2 he hpy
  have hstopn : stop < C.nset := by
    rcases hdom with ⟨-, h0⟩ | ⟨j, d, -, h1, h2, h3, h4⟩
    · rw [h0]
      exact Nat.lt_of_le_of_lt (Nat.zero_le _) hset
    · rw [h1]
      exact hk j (by omega) C.p.x C.p.y ok.px.2 ok.py.2 ⟨d, h2, h3, h4⟩ h
  obtain ⟨st4, tn, e5, hsets4, hoth4, hmono4, hval4, -⟩ := promo_exists ok hm3 (pr := dom) hstopn ok.px.2 ok.py.2 (le_refl _) (le_refl _)
  -- the state after the assignment of `equal`
  obtain ⟨st5, hst5⟩ : ∃ st5, st5 = (match dom with
    | some d => linkEqual st4 d tn (C.p.z = d.z ∧ C.p.y = d.y ∧ C.p.x = d.x)
    | none => st4) := ⟨_, rfl⟩
  have hl5 : st5.levels = st4.levels := by
    rw [hst5]
    cases dom with
    | none => rfl
    | some d =>
      unfold linkEqual
      cases tn with
      | none => rfl
      | some t => simp only; split <;> rfl
  have hpromo : Promo C st3 st5 := by
    refine ⟨stop, C.p.x, C.p.y, dom, tn, st4, hstopn, ok.px.2, ok.py.2, le_refl _, le_refl _, h, ok.xp, ?_, e5, ?_⟩
    · rcases hdom with h0 | ⟨j, d, h0, h1, h2, h3, h4⟩
      · exact Or.inl h0
      · exact Or.inr ⟨j, d, h0, h1, h2, h3, h4⟩
    · cases dom with
      | none => exact Or.inr ⟨hst5, fun m t hm => by simp at hm⟩
      | some d =>
        unfold linkEqual at hst5
        cases tn with
        | none => exact Or.inr ⟨hst5, fun m t _ ht => by simp at ht⟩
        | some t =>
          simp only at hst5
          by_cases hcond : C.p.z = d.z ∧ C.p.y = d.y ∧ C.p.x = d.x
          · rw [if_pos hcond] at hst5
            exact Or.inl ⟨d, t, rfl, rfl, ⟨hcond.1.symm, hcond.2.2.symm, hcond.2.1.symm⟩, hst5⟩
          · rw [if_neg hcond] at hst5
            refine Or.inr ⟨hst5, fun m t' hm _ => ?_⟩
            rw [Option.some.injEq] at hm
            subst hm
            exact fun h => hcond ⟨h.1.symm, h.2.2.symm, h.2.1.symm⟩
  have hsets3' : st3.sets = C.st.sets := by rw [hsets3, hsets2]
  refine ⟨{ st5 with sets := upd C.st.sets C.p.set S' }, ?_, ⟨st5, S', ?_, rfl, hS', hreg, stop, hstop, ?_, ?_, ?_⟩⟩
  · unfold eaf3dStep
    rw [if_neg (not_not.mpr hset)]
    simp only
    have he' : ((C.st.sets C.p.set).takeWhile (fun q => decide (q.1 ≤ C.p.x))).reverse = prev :: before := he
    rw [he']
    simp only
    rw [if_neg (not_le.mpr hpy), e1]
    simp only
    rw [← hksdef]
    have e2' : secondPart C.nset C.p fuel ks ((C.st.sets C.p.set).dropWhile (fun q => decide (q.1 ≤ C.p.x))) a1 C.st = some (q, a2, st2) := e2
    rw [e2']
    simp only
    rw [e3]
    simp only
    have e4' : add2set (prev :: before) ((C.st.sets C.p.set).dropWhile (fun q => decide (q.1 ≤ C.p.x))) C.p.x C.p.y = some S' := e4
    rw [e4']
    simp only
    rw [add2level_sets, e5, hsets3']
    simp only [Option.map_some]
    have h5 : (match dom with
        | some d => linkEqual { st4 with sets := upd C.st.sets C.p.set S' } d tn (C.p.z = d.z ∧ C.p.y = d.y ∧ C.p.x = d.x)
        | none => { st4 with sets := upd C.st.sets C.p.set S' }) = { st5 with sets := upd C.st.sets C.p.set S' } := by
      rw [hst5]
      cases dom with
      | none => rfl
      | some d =>
        unfold linkEqual
        cases tn with
        | none => rfl
        | some t => simp only; split <;> rfl
    rcases Bool.eq_false_or_eq_true (mask C.p.set) with hm | hm
    · rw [if_pos hm, if_pos hm, if_pos hm]
      exact congrArg (fun s => some (start, mask, s)) h5
    · have hm' : ¬ mask C.p.set = true := by rw [hm]; simp
      rw [if_neg hm', if_neg hm', if_neg hm']
      exact congrArg (fun s => some (if start + 2 < C.nset then start + 1 else start, upd mask C.p.set true, s)) h5
  · exact (hst2.trans hst3).tail hpromo
  · rw [hl5]
    exact hval4
  · rcases hdom with ⟨-, h0⟩ | ⟨j, d, -, h1, h2, h3, h4⟩
    · exact Or.inl h0
    · right
      rw [h1, Nat.add_sub_cancel]
      exact ⟨d, h2, h3, h4⟩
  · intro k hk1 hk2
    have := hfull3 k ((hksmem k).mpr ⟨hk1, hk2⟩)
    intro x y g1 g2 g3 g4 g5 g6
    have hr := this x y g1 g2 g3 g4 g5 g6
    rw [hl5]
    by_cases hks : k + 1 = stop
    · omega
    · rw [hoth4 (k + 1) hks]
      exact hr

end Moo
