import Verif.Model.EafMem
import Verif.Model.Eaf2d
import Verif.Lemmas.NdMem

/-!
# Memory accesses of `eaf2d`
-/

set_option autoImplicit false
set_option linter.unusedSectionVars false

namespace Moo

variable {F : Type}

theorem okBind {β γ : Type} (a : β) (f : β → Except MemErr γ) : ((Except.ok a : Except MemErr β) >>= f) = f a := rfl

theorem ld_getD {p : List ℕ} {i : ℕ} (h : i < p.length) : ldBlk (p.map some) i = .ok (p.getD i 0) := by
  rw [ld_map_some h, List.getD_eq_getElem?_getD, List.getElem?_eq_getElem h]; rfl

/-- The table of runs, as a function of the first index and the starting value. -/
theorem eafRuntabM_ok (cumsize : ℕ → ℕ) (nruns n : ℕ) (hn : 0 < nruns) (hc : cumsize (nruns - 1) = n) : ∀ (m k j : ℕ) (g : ℕ → Option ℕ), k + m = n → j < nruns →
    (∀ i < k, ∃ v < nruns, g i = some v) →
    ∃ f : ℕ → ℕ, eafRuntabM (cells cumsize nruns) (List.range' k m) j (blk g n) = .ok (cells f n) ∧ ∀ i < n, f i < nruns := by
  intro m
  induction m with
  | zero =>
    intro k j g hk hj hg
    refine ⟨fun i => (g i).getD 0, ?_, ?_⟩
    · show Except.ok (blk g n) = _
      congr 1
      apply blk_congr
      intro i hi
      obtain ⟨v, _, e⟩ := hg i (by omega)
      simp [e]
    · intro i hi
      obtain ⟨v, hv, e⟩ := hg i (by omega)
      dsimp only
      rw [e]; exact hv
  | succ m ih =>
    intro k j g hk hj hg
    have hj' : (if k = cumsize j then j + 1 else j) < nruns := by
      split_ifs with h
      · by_contra hlt
        have : j = nruns - 1 := by omega
        rw [this, hc] at h
        omega
      · exact hj
    obtain ⟨f, h1, h2⟩ := ih (k + 1) _ (upd g k (some (if k = cumsize j then j + 1 else j))) (by omega) hj' (by
      intro i hi
      by_cases e : i = k
      · exact ⟨_, hj', by rw [e]; simp [upd]⟩
      · obtain ⟨v, hv, e2⟩ := hg i (by omega)
        exact ⟨v, hv, by simp [upd, e, e2]⟩)
    refine ⟨f, ?_, h2⟩
    rw [List.range'_succ]
    unfold eafRuntabM
    rw [ld_cells hj]
    show (stBlk (blk g n) k (if k = cumsize j then j + 1 else j) >>= _) = _
    rw [st_blk (by omega)]
    exact h1

/-- The table of runs is that of the exact model. -/
theorem eafRuntabM_same (cumsize : ℕ → ℕ) (nruns n : ℕ) (hrt : ∀ k < n, eafRuntab cumsize k < nruns) : ∀ (m k j : ℕ) (g : ℕ → Option ℕ), k + m = n →
    (j = if k = 0 then 0 else eafRuntab cumsize (k - 1)) → 0 < nruns →
    (∀ i < k, g i = some (eafRuntab cumsize i)) →
    eafRuntabM (cells cumsize nruns) (List.range' k m) j (blk g n) = .ok (cells (eafRuntab cumsize) n) := by
  intro m
  induction m with
  | zero =>
    intro k j g hk hj h0 hg
    show Except.ok (blk g n) = _
    congr 1
    apply blk_congr
    intro i hi
    exact hg i (by omega)
  | succ m ih =>
    intro k j g hk hj h0 hg
    have hjn : j < nruns := by
      rw [hj]
      split_ifs with h
      · exact h0
      · exact hrt _ (by omega)
    have e : (if k = cumsize j then j + 1 else j) = eafRuntab cumsize k := by
      cases k with
      | zero => rw [if_pos rfl] at hj; rw [hj]; rfl
      | succ k => rw [if_neg (by omega)] at hj; rw [hj]; rfl
    rw [List.range'_succ]
    unfold eafRuntabM
    rw [ld_cells hjn]
    show (stBlk (blk g n) k (if k = cumsize j then j + 1 else j) >>= fun rt => eafRuntabM _ _ (if k = cumsize j then j + 1 else j) rt) = _
    rw [st_blk (by omega), e]
    refine ih (k + 1) _ _ (by omega) (by simp) h0 ?_
    intro i hi
    by_cases h : i = k
    · rw [h]; simp [upd]
    · simp only [upd, h, if_false]
      exact hg i (by omega)

/-- The blocks that the sweep reads. -/
structure EafMemOk (E : EafInM F) (x : ℕ → ℕ → F) (sx sy : List ℕ) (rt : ℕ → ℕ) : Prop where
  pts : E.pts = flatPts x 2 E.n
  dx : E.dx = sx.map some
  dy : E.dy = sy.map some
  rteq : E.rt = cells rt E.n
  lx : sx.length = E.n
  ly : sy.length = E.n
  mx : ∀ i < E.n, sx.getD i 0 < E.n
  my : ∀ i < E.n, sy.getD i 0 < E.n
  run : ∀ i < E.n, rt i < E.nruns
  pos : 0 < E.n

section
variable {E : EafInM F} {x : ℕ → ℕ → F} {sx sy : List ℕ} {rt : ℕ → ℕ}

theorem EafMemOk.ldx (h : EafMemOk E x sx sy rt) {i : ℕ} (hi : i < E.n) : ldBlk E.dx i = .ok (sx.getD i 0) := by
  rw [h.dx, ld_getD (by rw [h.lx]; exact hi)]

theorem EafMemOk.ldy (h : EafMemOk E x sx sy rt) {i : ℕ} (hi : i < E.n) : ldBlk E.dy i = .ok (sy.getD i 0) := by
  rw [h.dy, ld_getD (by rw [h.ly]; exact hi)]

theorem EafMemOk.row (h : EafMemOk E x sx sy rt) {r d : ℕ} (hr : r < E.n) (hd : d < 2) : ldBlk E.pts (2 * r + d) = .ok (x r d) := by
  rw [h.pts]
  rcases (by omega : d = 0 ∨ d = 1) with rfl | rfl
  exacts [ld_flat_x hr, ld_flat_y hr]

theorem EafMemOk.valx (h : EafMemOk E x sx sy rt) {i d : ℕ} (hi : i < E.n) (hd : d < 2) : E.ld E.dx i d = .ok (x (sx.getD i 0) d) := by
  unfold EafInM.ld
  rw [h.ldx hi]
  exact h.row (h.mx i hi) hd

theorem EafMemOk.valy (h : EafMemOk E x sx sy rt) {i d : ℕ} (hi : i < E.n) (hd : d < 2) : E.ld E.dy i d = .ok (x (sy.getD i 0) d) := by
  unfold EafInM.ld
  rw [h.ldy hi]
  exact h.row (h.my i hi) hd

theorem EafMemOk.ldrt (h : EafMemOk E x sx sy rt) {r : ℕ} (hr : r < E.n) : ldBlk E.rt r = .ok (rt r) := by
  rw [h.rteq]; exact ld_cells hr

theorem eafRightM_ok (h : EafMemOk E x sx sy rt) : ∀ (fuel : ℕ) (s : EafStM) (att : ℕ → ℤ), s.att = cells att E.nruns → s.x < E.n → s.y < E.n → E.n ≤ fuel + s.x →
    ∃ s' att', eafRightM E fuel s = .ok s' ∧ s'.att = cells att' E.nruns ∧ s'.x < E.n ∧ s'.y = s.y ∧ (s'.natt < E.level → ¬ s'.x < E.n - 1) := by
  intro fuel
  induction fuel with
  | zero => intro s att _ hx _ hf; omega
  | succ fuel ih =>
    intro s att ha hx hy hf
    unfold eafRightM
    by_cases h1 : s.x < E.n - 1
    · rw [if_pos h1]
      have hgo : ∃ go : Bool, eafGoM E s = .ok go ∧ (s.natt < E.level → go = true) := by
        unfold eafGoM
        split_ifs with h2
        · exact ⟨true, rfl, fun _ => rfl⟩
        · rw [h.valx hx (by omega), h.valx (by omega : s.x + 1 < E.n) (by omega)]
          exact ⟨_, rfl, fun h => absurd h h2⟩
      obtain ⟨go, e, hgo⟩ := hgo
      rw [e]
      show ∃ s' att', (if go then _ else _) = _ ∧ _
      cases go with
      | false => exact ⟨s, att, rfl, ha, hx, rfl, fun h2 => by simpa using hgo h2⟩
      | true =>
        rw [if_pos rfl, h.valx (by omega : s.x + 1 < E.n) (by omega), h.valy hy (by omega)]
        show ∃ s' att', (if E.c.le _ _ then _ else _) = _ ∧ _
        split_ifs with h3
        · rw [h.ldx (by omega : s.x + 1 < E.n)]
          show ∃ s' att', (ldBlk E.rt _ >>= _) = _ ∧ _
          rw [h.ldrt (h.mx _ (by omega))]
          show ∃ s' att', (ldBlk s.att _ >>= _) = _ ∧ _
          rw [ha, ld_cells (h.run _ (h.mx _ (by omega)))]
          show ∃ s' att', (stBlk _ _ _ >>= _) = _ ∧ _
          rw [st_cells (h.run _ (h.mx _ (by omega)))]
          exact ih _ _ rfl (by dsimp only; omega) hy (by dsimp only; omega)
        · exact ih _ att ha (by dsimp only; omega) hy (by dsimp only; omega)
    · rw [if_neg h1]
      exact ⟨s, att, rfl, ha, hx, rfl, fun _ => h1⟩

theorem eafDownGroupM_ok (h : EafMemOk E x sx sy rt) : ∀ (fuel : ℕ) (s : EafStM) (att : ℕ → ℤ), s.att = cells att E.nruns → s.x < E.n → s.y < E.n → E.n ≤ fuel + s.y →
    ∃ s' att', eafDownGroupM E fuel s = .ok s' ∧ s'.att = cells att' E.nruns ∧ s'.x = s.x ∧ s.y < s'.y ∧ s'.y ≤ E.n := by
  intro fuel
  induction fuel with
  | zero => intro s att _ _ hy hf; omega
  | succ fuel ih =>
    intro s att ha hx hy hf
    unfold eafDownGroupM
    have hs : ∃ s' att', eafLeaveM E s = .ok s' ∧ s'.att = cells att' E.nruns ∧ s'.x = s.x ∧ s'.y = s.y + 1 := by
      unfold eafLeaveM
      rw [h.valy hy (by omega), h.valx hx (by omega)]
      simp only [okBind]
      split_ifs with h1
      · rw [h.ldy hy]
        show ∃ s' att', (ldBlk E.rt _ >>= _) = _ ∧ _
        rw [h.ldrt (h.my _ hy)]
        show ∃ s' att', (ldBlk s.att _ >>= _) = _ ∧ _
        rw [ha, ld_cells (h.run _ (h.my _ hy))]
        show ∃ s' att', (stBlk _ _ _ >>= _) = _ ∧ _
        rw [st_cells (h.run _ (h.my _ hy))]
        exact ⟨_, _, rfl, rfl, rfl, rfl⟩
      · exact ⟨_, att, rfl, ha, rfl, rfl⟩
    obtain ⟨s', att', e, e1, e2, e3⟩ := hs
    rw [e]
    simp only [okBind]
    by_cases h2 : s.y + 1 < E.n
    · rw [if_pos h2, h.valy h2 (by omega), h.valy hy (by omega)]
      simp only [okBind]
      split_ifs with h3
      · obtain ⟨s'', att'', g1, g2, g3, g4, g5⟩ := ih s' att' e1 (by omega) (by omega) (by omega)
        exact ⟨s'', att'', g1, g2, by omega, by omega, g5⟩
      · exact ⟨s', att', rfl, e1, e2, by omega, by omega⟩
    · rw [if_neg h2]
      exact ⟨s', att', rfl, e1, e2, by omega, by omega⟩

theorem eafDownM_ok (h : EafMemOk E x sx sy rt) : ∀ (fuel : ℕ) (s : EafStM) (att : ℕ → ℤ) (g : ℕ → Option ℤ), s.att = cells att E.nruns → s.x < E.n → s.y < E.n →
    E.n + 1 ≤ fuel + s.y →
    ∃ s' att' save, eafDownM E fuel s (blk g E.nruns) = .ok (s', cells save E.nruns) ∧ s'.att = cells att' E.nruns ∧ s'.x = s.x ∧ s.y < s'.y ∧ s'.y ≤ E.n ∧
      (s'.natt < E.level ∨ s'.y = E.n) := by
  intro fuel
  induction fuel with
  | zero => intro s att g _ _ hy hf; omega
  | succ fuel ih =>
    intro s att g ha hx hy hf
    unfold eafDownM
    rw [ha]
    have e : cpBlk (blk g E.nruns) (cells att E.nruns) E.nruns = .ok (cells att E.nruns) := cpBlk_blk _ _ _
    rw [e]
    show ∃ s' att' save, (eafDownGroupM E fuel s >>= _) = _ ∧ _
    obtain ⟨s1, att1, e1, a1, x1, y1, y2⟩ := eafDownGroupM_ok h fuel s att ha hx hy (by omega)
    rw [e1]
    simp only [okBind]
    split_ifs with h1
    · obtain ⟨s2, att2, save, e2, a2, x2, y3, y4, y5⟩ := ih s1 att1 (fun i => some (att i)) a1 (by omega) h1.2 (by omega)
      exact ⟨s2, att2, save, e2, a2, by omega, by omega, y4, y5⟩
    · refine ⟨s1, att1, att, rfl, a1, x1, y1, y2, ?_⟩
      by_cases h2 : s1.natt < E.level
      · exact .inl h2
      · exact .inr (by by_contra h3; exact h1 ⟨not_lt.1 h2, by omega⟩)

/-- What a run of the sweep may end with. -/
def EafSafe (E : EafInM F) (m : ℕ) (r : Except MemErr (List (F × F × Blk ℤ))) : Prop :=
  (∃ out, r = .ok out ∧ out.length ≤ m ∧ ∀ o ∈ out, ∃ f : ℕ → ℤ, o.2.2 = cells f E.nruns) ∨ (E.asserts = true ∧ r = .error .assertion)

theorem eafSweepM_ok (h : EafMemOk E x sx sy rt) : ∀ (fuel : ℕ) (s : EafStM) (att : ℕ → ℤ) (g : ℕ → Option ℤ) (out : List (F × F × Blk ℤ)),
    s.att = cells att E.nruns → s.x < E.n → s.y < E.n → 2 * E.n + 2 ≤ fuel + s.y → (∀ o ∈ out, ∃ f : ℕ → ℤ, o.2.2 = cells f E.nruns) →
    EafSafe E (out.length + (E.n - s.y)) (eafSweepM E fuel s (blk g E.nruns) out) := by
  intro fuel
  induction fuel with
  | zero => intro s att g out _ _ hy hf; omega
  | succ fuel ih =>
    intro s att g out ha hx hy hf hout
    unfold eafSweepM
    obtain ⟨s1, att1, e1, a1, x1, y1, n1⟩ := eafRightM_ok h fuel s att ha hx hy (by omega)
    rw [e1]
    simp only [okBind]
    by_cases h1 : s1.natt < E.level
    · rw [if_pos h1, if_neg (by have := n1 h1; tauto)]
      exact .inl ⟨out, rfl, by omega, hout⟩
    · rw [if_neg h1]
      obtain ⟨s2, att2, save, e2, a2, x2, y2, y3, n2⟩ := eafDownM_ok h fuel s1 att1 g a1 x1 (by omega) (by omega)
      rw [e2]
      simp only [okBind]
      by_cases h2 : (E.asserts && !decide (s2.natt < E.level)) = true
      · rw [if_pos h2]
        rw [Bool.and_eq_true] at h2
        exact .inr ⟨h2.1, rfl⟩
      · rw [if_neg h2, h.valx (by omega : s2.x < E.n) (by omega), h.valy (by omega : s2.y - 1 < E.n) (by omega)]
        simp only [okBind]
        have hout' : ∀ o ∈ out ++ [(x (sx.getD s2.x 0) 0, x (sy.getD (s2.y - 1) 0) 1, cells save E.nruns)], ∃ f : ℕ → ℤ, o.2.2 = cells f E.nruns := by
          intro o ho
          rcases List.mem_append.1 ho with ho | ho
          · exact hout o ho
          · rw [List.mem_singleton] at ho
            exact ⟨save, by rw [ho]⟩
        split_ifs with h3
        · have := ih s2 att2 (fun i => some (save i)) _ a2 (by omega) h3.2 (by omega) hout'
          rcases this with ⟨o, e, l, p⟩ | h5
          · refine .inl ⟨o, e, ?_, p⟩
            rw [List.length_append, List.length_singleton] at l
            omega
          · exact .inr h5
        · refine .inl ⟨_, rfl, ?_, hout'⟩
          rw [List.length_append, List.length_singleton]
          omega

theorem eafLevelM_ok (h : EafMemOk E x sx sy rt) {fuel : ℕ} (hf : 2 * E.n + 2 ≤ fuel) : EafSafe E E.n (eafLevelM E fuel) := by
  unfold eafLevelM
  rw [fillM_alloc]
  show EafSafe _ _ (ldBlk E.dx 0 >>= _)
  rw [h.ldx h.pos]
  show EafSafe _ _ (ldBlk E.rt _ >>= _)
  rw [h.ldrt (h.mx _ h.pos)]
  show EafSafe _ _ (ldBlk _ _ >>= _)
  rw [ld_cells (h.run _ (h.mx _ h.pos))]
  show EafSafe _ _ (stBlk _ _ _ >>= _)
  rw [st_cells (h.run _ (h.mx _ h.pos))]
  show EafSafe _ _ (eafSweepM _ _ _ _ _)
  rw [allocBlk_eq]
  have := eafSweepM_ok h fuel ⟨0, 0, cells (upd (fun _ => 0) (rt (sx.getD 0 0)) (0 + 1)) E.nruns, 1⟩ _ (fun _ => none) [] rfl h.pos h.pos (by dsimp only; omega) (by simp)
  simpa using this

end

/-! ### The same as the exact model, for comparable values -/

section
variable {α : Type} [LinearOrder α]

/-- The exact input and the blocks hold the same. -/
structure EafSameIn (E : EafIn α) (M : EafInM α) (sx sy : List ℕ) : Prop where
  ok : EafMemOk M E.pts sx sy E.run
  n : M.n = E.n
  nruns : M.nruns = E.nruns
  level : M.level = E.level
  cmp : M.c = ordCmp α
  dx : E.datax = fun i => sx.getD i 0
  dy : E.datay = fun i => sy.getD i 0

/-- The state of the exact model, in blocks. -/
def EafSt.toM (nruns : ℕ) (s : EafSt) : EafStM := ⟨s.x, s.y, cells s.att nruns, s.natt⟩

variable {E : EafIn α} {M : EafInM α} {sx sy : List ℕ}

theorem eafRightM_same (h : EafSameIn E M sx sy) : ∀ (fuel : ℕ) (s s' : EafSt), s.x < E.n → eafRight E fuel s = some s' →
    eafRightM M fuel (s.toM M.nruns) = .ok (s'.toM M.nruns) ∧ s'.x < E.n ∧ s'.y = s.y := by
  intro fuel
  induction fuel with
  | zero => intro s s' _ he; simp [eafRight] at he
  | succ fuel ih =>
    intro s s' hx he
    have hn := h.n
    unfold eafRight at he
    unfold eafRightM
    show (if s.x < M.n - 1 then _ else _) = _ ∧ _
    by_cases h1 : s.x < E.n - 1
    · rw [if_pos (by omega)]
      have hgo : eafGoM M (s.toM M.nruns) = .ok (decide (s.natt < E.level ∨ E.X s.x = E.X (s.x + 1))) := by
        unfold eafGoM
        show (if s.natt < M.level then _ else _) = _
        rw [h.level]
        split_ifs with h2
        · simp [h2]
        · show (do
            let a ← M.ld M.dx s.x 0
            let b ← M.ld M.dx (s.x + 1) 0
            .ok (M.c.eq a b) : Except MemErr Bool) = _
          rw [h.ok.valx (by omega) (by omega), h.ok.valx (by omega) (by omega), h.cmp]
          simp only [h2, false_or, EafIn.X, h.dx]
          rfl
      rw [hgo]
      show (if decide (s.natt < E.level ∨ E.X s.x = E.X (s.x + 1)) then _ else _) = _ ∧ _
      by_cases h2 : s.natt < E.level ∨ E.X s.x = E.X (s.x + 1)
      · rw [if_pos ⟨h1, h2⟩] at he
        rw [if_pos (by simpa using h2)]
        dsimp only at he
        by_cases hy : s.y < E.n
        · rw [if_neg (by simpa using hy)] at he
          show (M.ld M.dx (s.x + 1) 1 >>= fun a => M.ld M.dy s.y 1 >>= fun b => _) = _ ∧ _
          rw [h.ok.valx (by omega : s.x + 1 < M.n) (by omega), h.ok.valy (by omega : s.y < M.n) (by omega)]
          show (if M.c.le _ _ then _ else _) = _ ∧ _
          have hc : M.c.le (E.pts (sx.getD (s.x + 1) 0) 1) (E.pts (sy.getD s.y 0) 1) = decide (E.pts (E.datax (s.x + 1)) 1 ≤ E.Y s.y) := by
            rw [h.cmp, h.dx, EafIn.Y, h.dy]; rfl
          rw [hc]
          by_cases h3 : E.pts (E.datax (s.x + 1)) 1 ≤ E.Y s.y
          · rw [if_pos h3] at he
            rw [if_pos (by simpa using h3)]
            have hrow := h.ok.mx (s.x + 1) (by omega)
            have hrun := h.ok.run _ hrow
            have hrun' : E.run (E.datax (s.x + 1)) < E.nruns := by rw [h.dx, ← h.nruns]; exact hrun
            rw [if_neg (by simpa using hrun')] at he
            show (ldBlk M.dx (s.x + 1) >>= _) = _ ∧ _
            rw [h.ok.ldx (by omega)]
            show (ldBlk M.rt _ >>= _) = _ ∧ _
            rw [h.ok.ldrt hrow]
            show (ldBlk (cells s.att M.nruns) _ >>= fun v => stBlk (cells s.att M.nruns) _ (v + 1) >>= _) = _ ∧ _
            rw [ld_cells hrun]
            show (stBlk _ _ _ >>= _) = _ ∧ _
            rw [st_cells hrun]
            rw [h.dx] at he
            exact ih _ _ (by dsimp only; omega) he
          · rw [if_neg h3] at he
            rw [if_neg (by simpa using h3)]
            exact ih _ _ (by dsimp only; omega) he
        · rw [if_pos hy] at he; simp at he
      · rw [if_neg (by tauto)] at he
        rw [if_neg (by simpa using h2)]
        obtain rfl := Option.some.inj he
        exact ⟨rfl, hx, rfl⟩
    · rw [if_neg (by tauto)] at he
      rw [if_neg (by omega)]
      obtain rfl := Option.some.inj he
      exact ⟨rfl, hx, rfl⟩

theorem eafDownGroupM_same (h : EafSameIn E M sx sy) : ∀ (fuel : ℕ) (s s' : EafSt), eafDownGroup E fuel s = some s' →
    eafDownGroupM M fuel (s.toM M.nruns) = .ok (s'.toM M.nruns) ∧ s'.x = s.x ∧ s.x < E.n ∧ s.y < E.n ∧ s'.y ≤ E.n ∧ s.y < s'.y := by
  intro fuel
  induction fuel with
  | zero => intro s s' he; simp [eafDownGroup] at he
  | succ fuel ih =>
    intro s s' he
    have hn := h.n
    unfold eafDownGroup at he
    by_cases h0 : s.y < E.n ∧ s.x < E.n
    · rw [if_neg (by simpa using h0)] at he
      have hrow := h.ok.my s.y (by omega)
      have hrun := h.ok.run _ hrow
      have hrun' : E.run (E.datay s.y) < E.nruns := by rw [h.dy, ← h.nruns]; exact hrun
      dsimp only at he
      rw [if_neg (by simpa using hrun')] at he
      unfold eafDownGroupM
      set s1 : EafSt := if E.pts (E.datay s.y) 0 ≤ E.X s.x then ⟨s.x, s.y + 1, upd s.att (E.run (E.datay s.y)) (s.att (E.run (E.datay s.y)) - 1),
          if upd s.att (E.run (E.datay s.y)) (s.att (E.run (E.datay s.y)) - 1) (E.run (E.datay s.y)) = 0 then s.natt - 1 else s.natt⟩
        else ⟨s.x, s.y + 1, s.att, s.natt⟩ with hs1
      have hs : eafLeaveM M (s.toM M.nruns) = .ok (s1.toM M.nruns) := by
        unfold eafLeaveM
        show (M.ld M.dy s.y 0 >>= fun a => M.ld M.dx s.x 0 >>= fun b => _) = _
        rw [h.ok.valy (by omega) (by omega), h.ok.valx (by omega) (by omega)]
        show (if M.c.le (E.pts (sy.getD s.y 0) 0) (E.pts (sx.getD s.x 0) 0) then _ else _) = _
        have hc : M.c.le (E.pts (sy.getD s.y 0) 0) (E.pts (sx.getD s.x 0) 0) = decide (E.pts (E.datay s.y) 0 ≤ E.X s.x) := by
          rw [h.cmp, EafIn.X, h.dx, h.dy]; rfl
        rw [hc, hs1]
        by_cases h1 : E.pts (E.datay s.y) 0 ≤ E.X s.x
        · rw [if_pos (by simpa using h1), if_pos h1]
          show (ldBlk M.dy s.y >>= _) = _
          rw [h.ok.ldy (by omega)]
          show (ldBlk M.rt _ >>= _) = _
          rw [h.ok.ldrt hrow]
          show (ldBlk (cells s.att M.nruns) _ >>= fun v => stBlk (cells s.att M.nruns) _ (v - 1) >>= _) = _
          rw [ld_cells hrun]
          show (stBlk _ _ _ >>= _) = _
          rw [st_cells hrun, h.dy]
          simp [EafSt.toM, upd]
          rfl
        · rw [if_neg (by simpa using h1), if_neg h1]
          rfl
      have e1 : s1.x = s.x := by rw [hs1]; split_ifs <;> rfl
      have e2 : s1.y = s.y + 1 := by rw [hs1]; split_ifs <;> rfl
      rw [hs]
      show (if s.y + 1 < M.n then _ else _) = _ ∧ _
      rw [e2] at he
      by_cases h2 : s.y + 1 < E.n
      · rw [if_pos (by omega)]
        show (M.ld M.dy (s.y + 1) 1 >>= fun a => M.ld M.dy s.y 1 >>= fun b => _) = _ ∧ _
        rw [h.ok.valy (by omega) (by omega), h.ok.valy (by omega) (by omega)]
        show (if M.c.eq _ _ then _ else _) = _ ∧ _
        have hc : M.c.eq (E.pts (sy.getD (s.y + 1) 0) 1) (E.pts (sy.getD s.y 0) 1) = decide (E.Y (s.y + 1) = E.Y (s.y + 1 - 1)) := by
          rw [h.cmp, EafIn.Y, EafIn.Y, h.dy]; rfl
        rw [hc]
        by_cases h3 : E.Y (s.y + 1) = E.Y (s.y + 1 - 1)
        · rw [if_pos ⟨h2, h3⟩] at he
          rw [if_pos (by simpa using h3)]
          obtain ⟨g1, g2, g3, g4, g5, g6⟩ := ih _ _ he
          exact ⟨g1, by omega, h0.2, h0.1, g5, by omega⟩
        · rw [if_neg (by tauto)] at he
          rw [if_neg (by simpa using h3)]
          obtain rfl := Option.some.inj he
          exact ⟨rfl, e1, h0.2, h0.1, by omega, by omega⟩
      · rw [if_neg (by tauto)] at he
        rw [if_neg (by omega)]
        obtain rfl := Option.some.inj he
        exact ⟨rfl, e1, h0.2, h0.1, by omega, by omega⟩
    · rw [if_pos h0] at he; simp at he

theorem eafDownM_same (h : EafSameIn E M sx sy) : ∀ (fuel : ℕ) (s s' : EafSt) (save : ℕ → ℤ) (g : ℕ → Option ℤ), eafDown E fuel s = some (s', save) →
    eafDownM M fuel (s.toM M.nruns) (blk g M.nruns) = .ok (s'.toM M.nruns, cells save M.nruns) ∧ s'.x = s.x ∧ s.x < E.n ∧ s'.y ≤ E.n ∧ s.y < s'.y := by
  intro fuel
  induction fuel with
  | zero => intro s s' save g he; simp [eafDown] at he
  | succ fuel ih =>
    intro s s' save g he
    unfold eafDown at he
    unfold eafDownM
    have e : cpBlk (blk g M.nruns) (s.toM M.nruns).att M.nruns = .ok (cells s.att M.nruns) := cpBlk_blk _ _ _
    rw [e]
    show (eafDownGroupM M fuel _ >>= _) = _ ∧ _
    cases hg : eafDownGroup E fuel s with
    | none => rw [hg] at he; simp at he
    | some s1 =>
      rw [hg] at he
      dsimp only at he
      obtain ⟨g1, g2, g3, g4, g5, g6⟩ := eafDownGroupM_same h fuel s s1 hg
      rw [g1]
      show (if s1.natt ≥ M.level ∧ s1.y < M.n then _ else _) = _ ∧ _
      rw [h.level, h.n]
      split_ifs at he ⊢ with h1
      · obtain ⟨k1, k2, k3, k4, k5⟩ := ih s1 s' save (fun i => some (s.att i)) he
        exact ⟨k1, by omega, g3, k4, by omega⟩
      · obtain ⟨rfl, rfl⟩ := Prod.mk.inj (Option.some.inj he)
        exact ⟨rfl, g2, g3, g5, g6⟩

/-- The list of the stored points, in blocks. -/
def eafOutM (nruns : ℕ) (out : List (α × α × (ℕ → ℤ))) : List (α × α × Blk ℤ) := out.map (fun o => (o.1, o.2.1, cells o.2.2 nruns))

theorem eafSweepM_same (h : EafSameIn E M sx sy) : ∀ (fuel : ℕ) (s : EafSt) (out out' : List (α × α × (ℕ → ℤ))) (g : ℕ → Option ℤ), s.x < E.n →
    eafSweep E fuel s out = some out' → eafSweepM M fuel (s.toM M.nruns) (blk g M.nruns) (eafOutM M.nruns out) = .ok (eafOutM M.nruns out') := by
  intro fuel
  induction fuel with
  | zero => intro s out out' g _ he; simp [eafSweep] at he
  | succ fuel ih =>
    intro s out out' g hx he
    have hn := h.n
    unfold eafSweep at he
    unfold eafSweepM
    cases hg : eafRight E fuel s with
    | none => rw [hg] at he; simp at he
    | some s1 =>
      rw [hg] at he
      dsimp only at he
      obtain ⟨g1, g2, g3⟩ := eafRightM_same h fuel s s1 hx hg
      rw [g1]
      show (if s1.natt < M.level then (if s1.x < M.n - 1 ∧ s1.y < M.n then _ else _) else _) = _
      rw [h.level, h.n]
      by_cases h1 : s1.natt < E.level
      · rw [if_pos h1] at he ⊢
        split_ifs at he ⊢ with h2
        · exact ih s1 out out' g g2 he
        · rw [Option.some.inj he]
      · rw [if_neg h1] at he ⊢
        cases hd : eafDown E fuel s1 with
        | none => rw [hd] at he; simp at he
        | some r =>
          obtain ⟨s2, save⟩ := r
          rw [hd] at he
          dsimp only at he
          obtain ⟨k1, k2, k3, k4, k5⟩ := eafDownM_same h fuel s1 s2 save g hd
          rw [k1]
          by_cases h3 : s2.natt < E.level
          · rw [if_neg (by simpa using h3)] at he
            show (if M.asserts && !decide (s2.natt < E.level) then _ else _) = _
            rw [if_neg (by simp [h3])]
            show (M.ld M.dx s2.x 0 >>= fun a => M.ld M.dy (s2.y - 1) 1 >>= fun b => _) = _
            rw [h.ok.valx (by omega) (by omega), h.ok.valy (by omega) (by omega)]
            show (if s2.x < E.n - 1 ∧ s2.y < E.n then _ else _) = _
            have e : eafOutM M.nruns out ++ [(E.pts (sx.getD s2.x 0) 0, E.pts (sy.getD (s2.y - 1) 0) 1, cells save M.nruns)] =
                eafOutM M.nruns (out ++ [(E.X s2.x, E.Y (s2.y - 1), save)]) := by
              rw [eafOutM, eafOutM, List.map_append, EafIn.X, EafIn.Y, h.dx, h.dy]; rfl
            split_ifs at he ⊢ with h4
            · have := ih s2 _ out' (fun i => some (save i)) (by omega) he
              rw [← e] at this
              exact this
            · rw [← Option.some.inj he, ← e]
          · rw [if_pos (by simpa using h3)] at he; simp at he

theorem eafLevelM_same (h : EafSameIn E M sx sy) {fuel : ℕ} {out : List (α × α × (ℕ → ℤ))} (he : eafLevel E fuel = some out) :
    eafLevelM M fuel = .ok (eafOutM M.nruns out) := by
  have hpos := h.ok.pos
  have hn := h.n
  have hrow := h.ok.mx 0 hpos
  have hrun := h.ok.run _ hrow
  unfold eafLevel at he
  rw [if_neg (by omega)] at he
  dsimp only at he
  rw [if_neg (by rw [h.dx, ← h.nruns]; simpa using hrun)] at he
  unfold eafLevelM
  rw [fillM_alloc]
  show (ldBlk M.dx 0 >>= _) = _
  rw [h.ok.ldx hpos]
  show (ldBlk M.rt _ >>= _) = _
  rw [h.ok.ldrt hrow]
  show (ldBlk _ _ >>= _) = _
  rw [ld_cells hrun]
  show (stBlk _ _ _ >>= _) = _
  rw [st_cells hrun]
  show eafSweepM _ _ _ _ _ = _
  rw [allocBlk_eq]
  rw [h.dx] at he
  exact eafSweepM_same h fuel _ [] out (fun _ => none) (by dsimp only; omega) he

end

end Moo
