import Verif.Model.EafCost
import Verif.Props.Eaf2d
import Mathlib.Analysis.Complex.ExponentialBounds

/-!
# C102: running time and reallocations of the computation of attainment surfaces
-/

set_option autoImplicit false
set_option linter.unusedSectionVars false

namespace Moo

section
variable {α : Type*} [LinearOrder α]

/-! ## The counting functions compute the same results -/

theorem eafRightC_fst (E : EafIn α) : ∀ (fuel : ℕ) (s : EafSt), (eafRightC E fuel s).map Prod.fst = eafRight E fuel s := by
  intro fuel
  induction fuel with
  | zero => intro s; rfl
  | succ fuel ih =>
    intro s
    unfold eafRightC eafRight
    dsimp only
    split_ifs
    all_goals first | rfl | (rw [Option.map_map]; exact ih _)

theorem eafDownGroupC_fst (E : EafIn α) : ∀ (fuel : ℕ) (s : EafSt), (eafDownGroupC E fuel s).map Prod.fst = eafDownGroup E fuel s := by
  intro fuel
  induction fuel with
  | zero => intro s; rfl
  | succ fuel ih =>
    intro s
    unfold eafDownGroupC eafDownGroup
    dsimp only
    split_ifs
    all_goals first | rfl | (rw [Option.map_map]; exact ih _)

theorem eafDownC_fst (E : EafIn α) : ∀ (fuel : ℕ) (s : EafSt), (eafDownC E fuel s).map Prod.fst = eafDown E fuel s := by
  intro fuel
  induction fuel with
  | zero => intro s; rfl
  | succ fuel ih =>
    intro s
    unfold eafDownC eafDown
    rw [← eafDownGroupC_fst]
    rcases eafDownGroupC E fuel s with _ | ⟨s', c⟩
    · rfl
    · simp only [Option.map_some]
      split_ifs
      · rw [Option.map_map]; exact ih _
      · rfl

theorem eafSweepC_fst (E : EafIn α) : ∀ (fuel : ℕ) (s : EafSt) (out : List (α × α × (ℕ → ℤ))),
    (eafSweepC E fuel s out).map Prod.fst = eafSweep E fuel s out := by
  intro fuel
  induction fuel with
  | zero => intro s out; rfl
  | succ fuel ih =>
    intro s out
    unfold eafSweepC eafSweep
    rw [← eafRightC_fst]
    rcases eafRightC E fuel s with _ | ⟨s1, c1⟩
    · rfl
    · simp only [Option.map_some]
      split_ifs with h1 h2
      · rw [Option.map_map]; exact ih _ _
      · rfl
      · rw [← eafDownC_fst]
        rcases eafDownC E fuel s1 with _ | ⟨⟨s2, save⟩, c2⟩
        · rfl
        · simp only [Option.map_some]
          split_ifs
          · rw [Option.map_map]; exact ih _ _
          · rfl
          · rfl

theorem eafLevelC_fst (E : EafIn α) (fuel : ℕ) : (eafLevelC E fuel).map Prod.fst = eafLevel E fuel := by
  unfold eafLevelC eafLevel
  dsimp only
  split_ifs
  all_goals first | rfl | (rw [Option.map_map]; exact eafSweepC_fst E _ _ _)

theorem eafLevelsC_fst (pts : ℕ → ℕ → α) (cumsize : ℕ → ℕ) (nruns : ℕ) (sx sy : List ℕ) (fuel : ℕ) : ∀ levels : List ℤ,
    (eafLevelsC pts cumsize nruns sx sy fuel levels).map Prod.fst = eaf2d pts cumsize nruns levels sx sy fuel := by
  intro levels
  induction levels with
  | nil => rfl
  | cons l ls ih =>
    unfold eafLevelsC
    unfold eaf2d at *
    rw [List.mapM_cons, ← ih, ← eafLevelC_fst]
    rcases eafLevelC _ fuel with _ | ⟨out, c⟩
    · rfl
    · dsimp only [Option.map_some]
      rcases eafLevelsC pts cumsize nruns sx sy fuel ls with _ | ⟨r, c'⟩ <;> rfl

theorem eaf2dC_fst (pts : ℕ → ℕ → α) (cumsize : ℕ → ℕ) (nruns : ℕ) (levels : List ℤ) (sx sy : List ℕ) (fuel : ℕ) :
    (eaf2dC pts cumsize nruns levels sx sy fuel).map Prod.fst = eaf2d pts cumsize nruns levels sx sy fuel := by
  unfold eaf2dC
  rw [Option.map_map]
  exact eafLevelsC_fst pts cumsize nruns sx sy fuel levels

/-! ## Bounds -/

theorem eafRightC_cost (E : EafIn α) : ∀ (fuel : ℕ) (s s' : EafSt) (c : ℕ), eafRightC E fuel s = some (s', c) →
    s'.y = s.y ∧ c + s.x = s'.x + 1 ∧ (s.x < E.n → s'.x < E.n) ∧ (s'.x < E.n - 1 → ¬ s'.natt < E.level) := by
  intro fuel
  induction fuel with
  | zero => intro s s' c h; simp [eafRightC] at h
  | succ fuel ih =>
    intro s s' c h
    unfold eafRightC at h
    dsimp only at h
    split_ifs at h with h1 h2 h3
    all_goals first
      | (obtain ⟨⟨t, c'⟩, ht, he⟩ := Option.map_eq_some_iff.1 h
         obtain ⟨rfl, rfl⟩ := Prod.mk.inj he
         obtain ⟨a, b, d, e⟩ := ih _ _ _ ht
         dsimp only at a b d e ⊢
         exact ⟨a, by omega, fun _ => d (by omega), e⟩)
      | (obtain ⟨rfl, rfl⟩ := Prod.mk.inj (Option.some.inj h)
         exact ⟨rfl, by omega, id, fun hx hn => h1 ⟨hx, Or.inl hn⟩⟩)

theorem eafDownGroupC_cost (E : EafIn α) : ∀ (fuel : ℕ) (s s' : EafSt) (c : ℕ), eafDownGroupC E fuel s = some (s', c) →
    s'.x = s.x ∧ s'.y = s.y + c ∧ 1 ≤ c ∧ s'.y ≤ E.n := by
  intro fuel
  induction fuel with
  | zero => intro s s' c h; simp [eafDownGroupC] at h
  | succ fuel ih =>
    intro s s' c h
    unfold eafDownGroupC at h
    dsimp only at h
    split_ifs at h with h1 h2 h3 h4
    all_goals first
      | (obtain ⟨⟨t, c'⟩, ht, he⟩ := Option.map_eq_some_iff.1 h
         obtain ⟨rfl, rfl⟩ := Prod.mk.inj he
         obtain ⟨a, b, d, e⟩ := ih _ _ _ ht
         dsimp only at a b d e ⊢
         exact ⟨a, by omega, by omega, e⟩)
      | (obtain ⟨rfl, rfl⟩ := Prod.mk.inj (Option.some.inj h)
         exact ⟨rfl, rfl, le_rfl, by dsimp only; omega⟩)

theorem eafDownC_cost (E : EafIn α) : ∀ (fuel : ℕ) (s s' : EafSt) (save : ℕ → ℤ) (c : ℕ), eafDownC E fuel s = some ((s', save), c) →
    s'.x = s.x ∧ s.y < s'.y ∧ s'.y ≤ E.n ∧ c ≤ (s'.y - s.y) * (E.nruns + 2) := by
  intro fuel
  induction fuel with
  | zero => intro s s' save c h; simp [eafDownC] at h
  | succ fuel ih =>
    intro s s' save c h
    unfold eafDownC at h
    rcases hg : eafDownGroupC E fuel s with _ | ⟨s1, c1⟩
    · rw [hg] at h; simp at h
    · rw [hg] at h
      dsimp only at h
      obtain ⟨a1, a2, a3, a4⟩ := eafDownGroupC_cost E fuel s s1 c1 hg
      have hb : E.nruns + c1 + 1 ≤ c1 * (E.nruns + 2) := by nlinarith
      split_ifs at h with h1
      · obtain ⟨⟨⟨t, sv⟩, c'⟩, ht, he⟩ := Option.map_eq_some_iff.1 h
        obtain ⟨e1, rfl⟩ := Prod.mk.inj he
        obtain ⟨rfl, rfl⟩ := Prod.mk.inj e1
        obtain ⟨b1, b2, b3, b4⟩ := ih _ _ _ _ ht
        refine ⟨by rw [b1, a1], by omega, b3, ?_⟩
        have : t.y - s.y = (t.y - s1.y) + c1 := by omega
        rw [this, add_mul]
        omega
      · obtain ⟨e1, rfl⟩ := Prod.mk.inj (Option.some.inj h)
        obtain ⟨rfl, rfl⟩ := Prod.mk.inj e1
        refine ⟨a1, by omega, a4, ?_⟩
        have : s1.y - s.y = c1 := by omega
        rw [this]; exact hb

theorem eafSweepC_cost (E : EafIn α) : ∀ (fuel : ℕ) (s : EafSt) (out out' : List (α × α × (ℕ → ℤ))) (c : ℕ), s.x < E.n → s.y < E.n →
    eafSweepC E fuel s out = some (out', c) → c + s.x ≤ E.n + 1 + (E.n - s.y) * (2 * E.nruns + 4) := by
  intro fuel
  induction fuel with
  | zero => intro s out out' c _ _ h; simp [eafSweepC] at h
  | succ fuel ih =>
    intro s out out' c hx hy h
    unfold eafSweepC at h
    rcases hr : eafRightC E fuel s with _ | ⟨s1, c1⟩
    · rw [hr] at h; simp at h
    · rw [hr] at h
      dsimp only at h
      obtain ⟨a1, a2, a3, a4⟩ := eafRightC_cost E fuel s s1 c1 hr
      have a3 := a3 hx
      split_ifs at h with h1 h2
      · exact absurd h1 (a4 h2.1)
      · obtain ⟨rfl, rfl⟩ := Prod.mk.inj (Option.some.inj h)
        have : 1 ≤ (E.n - s.y) * (2 * E.nruns + 4) := Nat.mul_pos (by omega) (by omega)
        omega
      · rcases hd : eafDownC E fuel s1 with _ | ⟨⟨s2, save⟩, c2⟩
        · rw [hd] at h; simp at h
        · rw [hd] at h
          dsimp only at h
          obtain ⟨b1, b2, b3, b4⟩ := eafDownC_cost E fuel s1 s2 save c2 hd
          have key : c2 + E.nruns + 2 ≤ (s2.y - s.y) * (2 * E.nruns + 4) := by
            have : 1 ≤ s2.y - s1.y := by omega
            rw [a1] at b4 this
            nlinarith
          have split : E.n - s.y = (E.n - s2.y) + (s2.y - s.y) := by omega
          split_ifs at h with h3 h4
          · obtain ⟨⟨t, c'⟩, ht, he⟩ := Option.map_eq_some_iff.1 h
            obtain ⟨rfl, rfl⟩ := Prod.mk.inj he
            have := ih _ _ _ _ (by omega) h4.2 ht
            rw [split, add_mul]
            omega
          · obtain ⟨rfl, rfl⟩ := Prod.mk.inj (Option.some.inj h)
            rw [split, add_mul]
            omega

theorem eafLevelC_cost (E : EafIn α) (fuel : ℕ) (out : List (α × α × (ℕ → ℤ))) (c : ℕ) (h : eafLevelC E fuel = some (out, c)) :
    c ≤ (E.n + 1) * (2 * E.nruns + 5) := by
  unfold eafLevelC at h
  dsimp only at h
  split_ifs at h with h1 h2
  obtain ⟨⟨t, c'⟩, ht, he⟩ := Option.map_eq_some_iff.1 h
  obtain ⟨rfl, rfl⟩ := Prod.mk.inj he
  have := eafSweepC_cost E _ _ _ _ _ h1 h1 ht
  dsimp only at this ⊢
  simp only [Nat.sub_zero, add_zero] at this
  nlinarith

theorem eafLevelsC_cost (pts : ℕ → ℕ → α) (cumsize : ℕ → ℕ) (nruns : ℕ) (sx sy : List ℕ) (fuel : ℕ) : ∀ (levels : List ℤ)
    (outs : List (List (α × α × (ℕ → ℤ)))) (c : ℕ), eafLevelsC pts cumsize nruns sx sy fuel levels = some (outs, c) →
    c ≤ levels.length * ((cumsize (nruns - 1) + 1) * (2 * nruns + 5)) := by
  intro levels
  induction levels with
  | nil => intro outs c h; simp [eafLevelsC] at h; omega
  | cons l ls ih =>
    intro outs c h
    unfold eafLevelsC at h
    rcases hl : eafLevelC (⟨cumsize (nruns - 1), nruns, pts, eafRuntab cumsize, (fun i => sx.getD i 0), (fun i => sy.getD i 0), l⟩ : EafIn α) fuel with _ | ⟨o, c1⟩
    · rw [hl] at h; simp at h
    · rw [hl] at h
      dsimp only at h
      obtain ⟨⟨t, c'⟩, ht, he⟩ := Option.map_eq_some_iff.1 h
      obtain ⟨rfl, rfl⟩ := Prod.mk.inj he
      have h1 := eafLevelC_cost _ fuel o c1 hl
      have h2 := ih _ _ ht
      rw [List.length_cons, add_mul, one_mul]
      dsimp only at h1 ⊢
      omega

end

section main
variable {α : Type*} [LinearOrder α] {pts : ℕ → ℕ → α} {cumsize : ℕ → ℕ} {nruns : ℕ} {sx sy : List ℕ} {fuel : ℕ}

/-- **C102 (time).**  For `N` points in `nruns` runs, `eaf2d` computes every level in at most `(N + 1) (2 nruns + 5)` steps: linear in the number of points,
whatever the ties and the level. -/
theorem C102_eaf2d_time (hr : RunsOk cumsize nruns) (hx : EafSortedX pts (cumsize (nruns - 1)) sx)
    (hy : EafSortedY pts (cumsize (nruns - 1)) sy) (hf : 2 * cumsize (nruns - 1) < fuel) (levels : List ℕ) (hl : ∀ k ∈ levels, 1 ≤ k) :
    ∃ res steps, eaf2d pts cumsize nruns (levels.map Int.ofNat) sx sy fuel = some res ∧
      eaf2dC pts cumsize nruns (levels.map Int.ofNat) sx sy fuel = some (res, steps) ∧
      steps ≤ 2 * cumsize (nruns - 1) + levels.length * ((cumsize (nruns - 1) + 1) * (2 * nruns + 5)) := by
  obtain ⟨res, h1, _⟩ := eaf2d_levels hr hx hy hf levels hl
  have h2 := eaf2dC_fst pts cumsize nruns (levels.map Int.ofNat) sx sy fuel
  rw [h1] at h2
  obtain ⟨⟨res', steps⟩, h3, h4⟩ := Option.map_eq_some_iff.1 h2
  obtain rfl : res' = res := h4
  refine ⟨res', steps, h1, h3, ?_⟩
  unfold eaf2dC at h3
  obtain ⟨⟨t, c'⟩, ht, he⟩ := Option.map_eq_some_iff.1 h3
  obtain ⟨rfl, rfl⟩ := Prod.mk.inj he
  have := eafLevelsC_cost pts cumsize nruns sx sy fuel _ _ _ ht
  rw [List.length_map] at this
  dsimp only
  omega

end main

/-! ## Reallocations -/

section
variable {α : Type*}

theorem eafRealloc_track {V : EafEnv α} {e e' : EafT α} {nobj : ℕ} (h : eafRealloc V e nobj = some e') :
    e'.size = e.size ∧ e'.maxsize = e.maxsize ∧ e'.nreallocs = e.nreallocs := by
  unfold eafRealloc at h
  split_ifs at h
  obtain rfl := Option.some.inj h
  exact ⟨rfl, rfl, rfl⟩

/-- What storing a point does to the three counters. -/
theorem eafStorePoint_track {V : EafEnv α} {nobj : ℕ} {e e' : EafT α} {p : ℕ → α} {saved : ℕ → ℤ} (h : eafStorePoint V nobj e p saved = some e') :
    e'.size = e.size + 1 ∧ ((e.size ≠ e.maxsize ∧ e'.maxsize = e.maxsize ∧ e'.nreallocs = e.nreallocs) ∨
      (e.size = e.maxsize ∧ e'.maxsize = V.grow e.nreallocs e.maxsize + 100 ∧ e'.nreallocs = e.nreallocs + 1)) := by
  unfold eafStorePoint at h
  rcases hs : eafStorePointHelp V e nobj saved with _ | e1
  · rw [hs] at h; simp at h
  rw [hs] at h
  dsimp only at h
  rcases hw : writeCoords (nobj * e1.size) p nobj e1.data with _ | d
  · rw [hw] at h; simp at h
  rw [hw] at h
  obtain rfl := Option.some.inj h
  unfold eafStorePointHelp at hs
  by_cases hm : e.size = e.maxsize
  · rw [if_pos hm] at hs
    by_cases hb : e.size < 2147483647 / 2
    · rw [if_pos hb] at hs
      rcases hr : eafRealloc V { e with maxsize := V.grow e.nreallocs e.maxsize + 100, nreallocs := e.nreallocs + 1 } nobj with _ | e2
      · rw [hr] at hs; simp at hs
      obtain ⟨r1, r2, r3⟩ := eafRealloc_track hr
      rw [hr] at hs
      dsimp only at hs
      rcases hbit : bitStoreRow e2.nruns e2.size (fun k => (saved k).natAbs) e2.nruns e2.bits with _ | b
      · rw [hbit] at hs; simp at hs
      rw [hbit] at hs
      obtain rfl := Option.some.inj hs
      dsimp only at r1 r2 r3 ⊢
      exact ⟨by rw [r1], Or.inr ⟨hm, r2, r3⟩⟩
    · rw [if_neg hb] at hs; simp at hs
  · rw [if_neg hm] at hs
    dsimp only at hs
    rcases hbit : bitStoreRow e.nruns e.size (fun k => (saved k).natAbs) e.nruns e.bits with _ | b
    · rw [hbit] at hs; simp at hs
    rw [hbit] at hs
    obtain rfl := Option.some.inj hs
    exact ⟨rfl, Or.inl ⟨hm, rfl, rfl⟩⟩

theorem eafStoreAll_inv {V : EafEnv α} {nobj : ℕ} (I : ℕ → ℕ → ℕ → Prop)
    (h1 : ∀ s m r, I s m r → s ≠ m → I (s + 1) m r) (h2 : ∀ s r, I s s r → I (s + 1) (V.grow r s + 100) (r + 1)) :
    ∀ (l : List ((ℕ → α) × (ℕ → ℤ))) (e e' : EafT α), eafStoreAll V nobj l e = some e' → I e.size e.maxsize e.nreallocs →
      I e'.size e'.maxsize e'.nreallocs ∧ e'.size = e.size + l.length := by
  intro l
  induction l with
  | nil => intro e e' h hI; obtain rfl := Option.some.inj h; exact ⟨hI, rfl⟩
  | cons r l ih =>
    intro e e' h hI
    unfold eafStoreAll at h
    rcases hs : eafStorePoint V nobj e r.1 r.2 with _ | e1
    · rw [hs] at h; simp at h
    rw [hs] at h
    dsimp only at h
    obtain ⟨a, b⟩ := eafStorePoint_track hs
    have : I e1.size e1.maxsize e1.nreallocs := by
      rcases b with ⟨b1, b2, b3⟩ | ⟨b1, b2, b3⟩
      · rw [a, b2, b3]; exact h1 _ _ _ hI b1
      · rw [a, b2, b3, ← b1]; rw [← b1] at hI; exact h2 _ _ hI
    obtain ⟨c, d⟩ := ih e1 e' h this
    exact ⟨c, by rw [d, a, List.length_cons]; omega⟩

theorem eafSurface2d_track [LinearOrder α] {V : EafEnv α} {nruns npoints : ℕ} {out : List (α × α × (ℕ → ℤ))} {e : EafT α}
    (h : eafSurface2d V nruns npoints out = some e) (I : ℕ → ℕ → ℕ → Prop)
    (h0 : I 0 (256 + npoints / (2 * nruns)) 0) (h1 : ∀ s m r, I s m r → s ≠ m → I (s + 1) m r) (h2 : ∀ s r, I s s r → I (s + 1) (V.grow r s + 100) (r + 1)) :
    e.size = out.length ∧ ∃ m, I out.length m e.nreallocs := by
  unfold eafSurface2d at h
  rcases hs : eafStoreAll V 2 (out.map (fun o => ((fun d => if d = 0 then o.1 else o.2.1), o.2.2))) (eafCreate V 2 nruns npoints) with _ | e1
  · rw [hs] at h; simp at h
  rw [hs] at h
  dsimp only at h
  obtain ⟨a, b⟩ := eafStoreAll_inv I h1 h2 _ _ _ hs h0
  have hsz : e1.size = out.length := by rw [b, List.length_map]; simp [eafCreate]
  rw [hsz] at a
  unfold eafAdjustMemory at h
  split_ifs at h
  · obtain ⟨r1, _, r3⟩ := eafRealloc_track h
    dsimp only at r1 r3
    exact ⟨by rw [r1, hsz], e1.maxsize, by rw [r3]; exact a⟩
  · obtain rfl := Option.some.inj h
    exact ⟨hsz, e1.maxsize, a⟩

/-- **C102 (reallocations, upper bound).**  A surface of `size` points is stored with at most `size / 100` reallocations, whatever the growth of the capacity. -/
theorem C102_reallocs_le [LinearOrder α] (V : EafEnv α) (hV : GrowOk V) (nruns npoints : ℕ) (out : List (α × α × (ℕ → ℤ))) (e : EafT α)
    (h : eafSurface2d V nruns npoints out = some e) : e.size = out.length ∧ 100 * e.nreallocs ≤ out.length := by
  obtain ⟨a, m, b⟩ := eafSurface2d_track h (fun s m r => s ≤ m ∧ 256 + 100 * r ≤ m ∧ 100 * r ≤ s) ⟨Nat.zero_le _, by simp, by simp⟩
    (fun s m r ⟨i, j, k⟩ hne => ⟨by omega, j, by omega⟩)
    (fun s r ⟨_, j, k⟩ => by have := hV r s; refine ⟨by omega, by omega, by omega⟩)
  exact ⟨a, b.2.2⟩

/-- **C102 (no reallocation).**  A surface of at most `256 + npoints / (2 nruns)` points, such as every surface of at most 256 points, is stored without reallocation. -/
theorem C102_no_realloc [LinearOrder α] (V : EafEnv α) (nruns npoints : ℕ) (out : List (α × α × (ℕ → ℤ))) (e : EafT α)
    (h : eafSurface2d V nruns npoints out = some e) (hl : out.length ≤ 256 + npoints / (2 * nruns)) : e.nreallocs = 0 := by
  obtain ⟨_, m, b⟩ := eafSurface2d_track h
    (fun s m r => (m = 256 + npoints / (2 * nruns) ∧ r = 0 ∧ s ≤ 256 + npoints / (2 * nruns)) ∨ 256 + npoints / (2 * nruns) < s) (Or.inl ⟨rfl, rfl, Nat.zero_le _⟩)
    (fun s m r hI hne => by
      rcases hI with ⟨a, b, c⟩ | a
      · exact Or.inl ⟨a, b, by omega⟩
      · exact Or.inr (by omega))
    (fun s r hI => by
      rcases hI with ⟨a, b, c⟩ | a
      · exact Or.inr (by omega)
      · exact Or.inr (by omega))
  rcases b with ⟨_, b, _⟩ | b
  · exact b
  · omega

/-- The product of the growth factors. -/
noncomputable def growProd (r : ℕ) : ℝ := ∏ i ∈ Finset.range r, (1 + 1 / (2 : ℝ) ^ ((i : ℝ) / 4))

theorem growProd_le (r : ℕ) : 1 ≤ growProd r ∧ growProd r ≤ 1097 := by
  have hpos : ∀ i : ℕ, (0 : ℝ) < 1 / (2 : ℝ) ^ ((i : ℝ) / 4) := fun i => by positivity
  constructor
  · unfold growProd
    exact Finset.one_le_prod (fun i _ => by have := hpos i; linarith)
  set q : ℝ := 1 / (2 : ℝ) ^ ((1 : ℝ) / 4) with hq
  have hq0 : 0 < q := by positivity
  have hpow : ∀ i : ℕ, 1 / (2 : ℝ) ^ ((i : ℝ) / 4) = q ^ i := by
    intro i
    rw [hq, div_pow, one_pow, ← Real.rpow_natCast ((2 : ℝ) ^ ((1 : ℝ) / 4)), ← Real.rpow_mul (by norm_num)]
    congr 2; ring
  have hq4 : q ^ 4 = 1 / 2 := by rw [← hpow 4]; norm_num
  have hq1 : q ≤ 0.85 := by
    by_contra hc
    have : (0.85 : ℝ) ^ 4 < q ^ 4 := pow_lt_pow_left₀ (not_le.1 hc) (by norm_num) (by norm_num)
    rw [hq4] at this
    norm_num at this
  have h1 : growProd r ≤ Real.exp (∑ i ∈ Finset.range r, q ^ i) := by
    rw [Real.exp_sum]
    unfold growProd
    refine Finset.prod_le_prod (fun i _ => by have := hpos i; linarith) (fun i _ => ?_)
    rw [hpow, add_comm]
    exact Real.add_one_le_exp _
  have h2 : ∑ i ∈ Finset.range r, q ^ i ≤ 7 := by
    have hg := geom_sum_eq (x := q) (by linarith) r
    rw [hg, ← neg_div_neg_eq, neg_sub, neg_sub, div_le_iff₀ (by linarith)]
    have : 0 < q ^ r := pow_pos hq0 r
    linarith
  have h3 : Real.exp 7 ≤ 1097 := by
    have : Real.exp 7 = Real.exp 1 ^ 7 := by rw [← Real.exp_nat_mul]; norm_num
    rw [this]
    calc Real.exp 1 ^ 7 ≤ (2.7182818286 : ℝ) ^ 7 := pow_le_pow_left₀ (Real.exp_pos _).le Real.exp_one_lt_d9.le 7
      _ ≤ 1097 := by norm_num
  exact h1.trans ((Real.exp_le_exp.2 h2).trans h3)

/-- **C102 (reallocations, lower bound).**  With the growth of the code, a surface of `size` points needs a number of reallocations that is proportional to `size`. -/
theorem C102_reallocs_ge [LinearOrder α] (V : EafEnv α) (hV : V.grow = eafGrow) (nruns npoints : ℕ) (out : List (α × α × (ℕ → ℤ))) (e : EafT α)
    (h : eafSurface2d V nruns npoints out = some e) :
    (out.length : ℝ) ≤ 1097 * (256 + npoints / (2 * nruns) + 100 * e.nreallocs) := by
  obtain ⟨_, m, b⟩ := eafSurface2d_track h
    (fun s m r => s ≤ m ∧ (m : ℝ) ≤ growProd r * (((256 + npoints / (2 * nruns) : ℕ) : ℝ) + 100 * r))
    ⟨Nat.zero_le _, by simp [growProd]⟩
    (fun s m r ⟨i, j⟩ hne => ⟨by omega, j⟩)
    (fun s r ⟨_, j⟩ => by
      have hp : (0 : ℝ) < 1 / (2 : ℝ) ^ ((r : ℝ) / 4) := by positivity
      have hs : s ≤ V.grow r s := by
        rw [hV]
        refine Nat.le_floor ?_
        have : (0 : ℝ) ≤ s := Nat.cast_nonneg s
        nlinarith
      refine ⟨by omega, ?_⟩
      have hfl : (V.grow r s : ℝ) ≤ (s : ℝ) * (1 + 1 / (2 : ℝ) ^ ((r : ℝ) / 4)) := by
        rw [hV]; exact Nat.floor_le (by positivity)
      have hsucc : growProd (r + 1) = growProd r * (1 + 1 / (2 : ℝ) ^ ((r : ℝ) / 4)) := Finset.prod_range_succ _ _
      have hge := (growProd_le (r + 1)).1
      have hmul := mul_le_mul_of_nonneg_right j (show (0 : ℝ) ≤ 1 + 1 / (2 : ℝ) ^ ((r : ℝ) / 4) by positivity)
      push_cast at hmul ⊢
      have e1 : growProd r * (256 + ((npoints / (2 * nruns) : ℕ) : ℝ) + 100 * r) * (1 + 1 / (2 : ℝ) ^ ((r : ℝ) / 4)) =
          growProd (r + 1) * (256 + ((npoints / (2 * nruns) : ℕ) : ℝ) + 100 * r) := by rw [hsucc]; ring
      rw [e1] at hmul
      nlinarith)
  obtain ⟨b1, b2⟩ := b
  have c1 : (out.length : ℝ) ≤ m := by exact_mod_cast b1
  have c2 := (growProd_le e.nreallocs).2
  have c3 : (((npoints / (2 * nruns) : ℕ)) : ℝ) ≤ (npoints : ℝ) / (2 * nruns) := by
    have := @Nat.cast_div_le ℝ _ _ _ npoints (2 * nruns)
    push_cast at this
    exact this
  have c4 : (0 : ℝ) ≤ 256 + ((npoints / (2 * nruns) : ℕ) : ℝ) + 100 * e.nreallocs := by positivity
  push_cast at b2
  nlinarith [mul_le_mul_of_nonneg_right c2 c4]

end

/-- The points `(i, N - i)`: none is at least as good as another. -/
def stairs (N : ℕ) (i d : ℕ) : ℤ := if d = 0 then (i : ℤ) else (N : ℤ) - i

theorem stairs_minimal (N nruns : ℕ) (cumsize : ℕ → ℕ) (hr : RunsOk cumsize nruns) {i : ℕ} (hi : i < cumsize (nruns - 1)) :
    MinimalAttained (stairs N) cumsize nruns 2 1 (vec2 (stairs N i 0) (stairs N i 1)) := by
  classical
  have hex : ∃ r, i < cumsize r := ⟨nruns - 1, hi⟩
  have hrun : InRun cumsize (Nat.find hex) i := ⟨fun s hs => not_lt.1 (Nat.find_min hex hs), Nat.find_spec hex⟩
  have hlt : Nat.find hex < nruns := by have := Nat.find_min' hex hi; have := hr.1; omega
  constructor
  · unfold attainCount
    refine Finset.card_pos.2 ⟨Nat.find hex, Finset.mem_filter.2 ⟨Finset.mem_range.2 hlt, i, hrun, fun d hd => ?_⟩⟩
    rcases (by omega : d = 0 ∨ d = 1) with rfl | rfl <;> simp [vec2]
  · intro w hw hle
    unfold attainCount at hw
    obtain ⟨r, hr'⟩ := Finset.card_pos.1 hw
    obtain ⟨k, _, hk⟩ := (Finset.mem_filter.1 hr').2
    have a0 := hk 0 (by omega)
    have a1 := hk 1 (by omega)
    have b0 := hle 0 (by omega)
    have b1 := hle 1 (by omega)
    simp only [stairs, vec2, if_true, one_ne_zero, if_false] at a0 a1 b0 b1
    intro d hd
    rcases (by omega : d = 0 ∨ d = 1) with rfl | rfl <;> simp only [stairs, vec2, if_true, one_ne_zero, if_false] <;> omega

/-- **C102: the number of reallocations is not logarithmic in the number of runs**, as the comment at c/eaf.c:87-88 claims (`at most log2(2 * nruns) realloc will
occur`): for 1024 runs of `k` points each, none dominated, the first level needs at least `1024 k / 300000` reallocations, more than `log2(2 * 1024) = 11`. -/
theorem C102_false_log_reallocs (k : ℕ) (hk : 4000 ≤ k) (hk2 : k ≤ 1048575) (V : EafEnv ℤ) (hV : V.grow = eafGrow) :
    ∃ (pts : ℕ → ℕ → ℤ) (cumsize : ℕ → ℕ) (sx sy : List ℕ) (fuel : ℕ) (out : List (ℤ × ℤ × (ℕ → ℤ))) (e : EafT ℤ),
      RunsOk cumsize 1024 ∧ cumsize (1024 - 1) = 1024 * k ∧ EafSortedX pts (1024 * k) sx ∧ EafSortedY pts (1024 * k) sy ∧
      eaf2d pts cumsize 1024 [1] sx sy fuel = some [out] ∧ eafSurface2d V 1024 (1024 * k) out = some e ∧
      Nat.log 2 (2 * 1024) < e.nreallocs ∧ 1024 * k ≤ 300000 * e.nreallocs := by
  set N := 1024 * k with hN
  let cumsize : ℕ → ℕ := fun r => (r + 1) * k
  have hc : cumsize (1024 - 1) = N := by simp only [cumsize]; norm_num [hN]
  have hr : RunsOk cumsize 1024 := by
    refine ⟨by norm_num, fun r _ => ?_, by rw [hc]; omega⟩
    simp only [cumsize]
    nlinarith
  obtain ⟨sx, hx⟩ := exists_eafSortedX (stairs N) N
  obtain ⟨sy, hy⟩ := exists_eafSortedY (stairs N) N
  obtain ⟨res, h1, h2⟩ := eaf2d_levels (fuel := 2 * N + 1) hr (by rw [hc]; exact hx) (by rw [hc]; exact hy) (by rw [hc]; omega) [1] (by simp)
  obtain ⟨out, rfl, hout⟩ : ∃ out, res = [out] ∧ EafLevelOk (stairs N) cumsize 1024 1 out := by
    cases h2 with
    | cons a b => cases b; exact ⟨_, rfl, a⟩
  have hgrow : GrowOk V := by
    intro r s
    rw [hV]
    refine Nat.le_floor ?_
    have hp : (0 : ℝ) < 1 / (2 : ℝ) ^ ((r : ℝ) / 4) := by positivity
    have : (0 : ℝ) ≤ s := Nat.cast_nonneg s
    nlinarith
  obtain ⟨e, he, _, _⟩ := eafSurface_of hr (by simp only [cumsize]; omega) le_rfl (by norm_num) (by rw [hc]; omega) V hgrow hout
  rw [hc] at he
  have hlen : N ≤ out.length := by
    have hsub : (Finset.range N).image (fun i => (stairs N i 0, stairs N i 1)) ⊆ (eafPoints out).toFinset := by
      intro z hz
      obtain ⟨i, hi, rfl⟩ := Finset.mem_image.1 hz
      rw [List.mem_toFinset]
      exact (hout.points.2 _ _).2 (stairs_minimal N 1024 cumsize hr (by rw [hc]; exact Finset.mem_range.1 hi))
    have hcard : ((Finset.range N).image (fun i => (stairs N i 0, stairs N i 1))).card = N := by
      rw [Finset.card_image_of_injOn, Finset.card_range]
      intro i _ j _ hij
      have := congrArg Prod.fst hij
      simpa [stairs] using this
    calc N = _ := hcard.symm
      _ ≤ _ := Finset.card_le_card hsub
      _ ≤ (eafPoints out).length := List.toFinset_card_le _
      _ = out.length := by simp [eafPoints]
  have hge := C102_reallocs_ge V hV 1024 N out e he
  have hlenR : (N : ℝ) ≤ out.length := by exact_mod_cast hlen
  have hkR : (4096000 : ℝ) ≤ N := by rw [hN]; push_cast; have : (4000 : ℝ) ≤ k := by exact_mod_cast hk
                                     linarith
  have hfin : (N : ℝ) ≤ 300000 * e.nreallocs := by push_cast at hge; linarith
  have hfinN : N ≤ 300000 * e.nreallocs := by exact_mod_cast hfin
  refine ⟨stairs N, cumsize, sx, sy, 2 * N + 1, out, e, hr, hc, hx, hy, by simpa using h1, he, ?_, hfinN⟩
  have : Nat.log 2 (2 * 1024) = 11 := by norm_num [Nat.log_eq_iff]
  rw [this]
  omega

/-- The hypotheses are met: 4000 points in each of the 1024 runs, and a memory that grows as in the code. -/
example : ∃ V : EafEnv ℤ, V.grow = eafGrow := ⟨⟨fun _ => 0, fun _ => 0, eafGrow⟩, rfl⟩

/-- The hypotheses of the time bound are met, on the example of C23: two runs. -/
example : ∃ sx sy, RunsOk eafExCum 2 ∧ EafSortedX eafExPts (eafExCum (2 - 1)) sx ∧ EafSortedY eafExPts (eafExCum (2 - 1)) sy := by
  obtain ⟨sx, hx⟩ := exists_eafSortedX eafExPts (eafExCum (2 - 1))
  obtain ⟨sy, hy⟩ := exists_eafSortedY eafExPts (eafExCum (2 - 1))
  exact ⟨sx, sy, eafEx_runs, hx, hy⟩

end Moo
