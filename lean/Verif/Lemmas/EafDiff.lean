import Verif.Lemmas.EafLabels
import Verif.Model.EafDiff
import Verif.Props.EafRect

/-!
# Lemmas: the runs of two labelled data sets together
-/

set_option autoImplicit false
set_option linter.unusedSectionVars false

namespace Moo

section cat

variable {cx cy : ℕ → ℕ} {sx sy : ℕ}

theorem runs_mono {c : ℕ → ℕ} {n : ℕ} (h : RunsOk c n) : ∀ {a b : ℕ}, a ≤ b → b < n → c a ≤ c b := by
  intro a b hab hb
  induction b with
  | zero => rw [Nat.le_zero.1 hab]
  | succ b ih =>
    rcases Nat.lt_or_ge a (b + 1) with h1 | h1
    · exact (ih (by omega) (by omega)).trans (h.2.1 b hb).le
    · rw [show a = b + 1 by omega]

theorem catCum_runsOk (hx : RunsOk cx sx) (hx0 : 0 < cx 0) (hy : RunsOk cy sy) (hy0 : 0 < cy 0) :
    RunsOk (catCum cx cy sx) (sx + sy) ∧ 0 < catCum cx cy sx 0 ∧ catCum cx cy sx (sx + sy - 1) = cx (sx - 1) + cy (sy - 1) := by
  have h1 := hx.1
  have h2 := hy.1
  have hlast : catCum cx cy sx (sx + sy - 1) = cx (sx - 1) + cy (sy - 1) := by
    unfold catCum
    rw [if_neg (by omega), show sx + sy - 1 - sx = sy - 1 by omega]
  refine ⟨⟨by omega, ?_, ?_⟩, ?_, hlast⟩
  · intro r hr
    unfold catCum
    by_cases ha : r + 1 < sx
    · rw [if_pos (by omega), if_pos ha]; exact hx.2.1 r ha
    · rw [if_neg ha]
      by_cases hb : r < sx
      · rw [if_pos hb, show r = sx - 1 by omega, show sx - 1 + 1 - sx = 0 by omega]; omega
      · rw [if_neg hb, show r + 1 - sx = (r - sx) + 1 by omega]
        have := hy.2.1 (r - sx) (by omega)
        omega
  · rw [hlast]; have := hx.2.2; omega
  · unfold catCum; rw [if_pos h1]; exact hx0

theorem inRun_cat_left {r k : ℕ} (hr : r < sx) : InRun (catCum cx cy sx) r k ↔ InRun cx r k := by
  unfold InRun catCum
  rw [if_pos hr]
  refine and_congr_left fun _ => forall_congr' fun s => forall_congr' fun hs => ?_
  rw [if_pos (by omega)]

theorem inRun_cat_right (hx : RunsOk cx sx) {r k : ℕ} (hr : sx ≤ r) :
    InRun (catCum cx cy sx) r k ↔ cx (sx - 1) ≤ k ∧ InRun cy (r - sx) (k - cx (sx - 1)) := by
  have h1 := hx.1
  unfold InRun catCum
  rw [if_neg (by omega)]
  constructor
  · rintro ⟨ha, hb⟩
    have h0 := ha (sx - 1) (by omega)
    rw [if_pos (by omega)] at h0
    refine ⟨h0, ?_, by omega⟩
    intro s hs
    have := ha (s + sx) (by omega)
    rw [if_neg (by omega), show s + sx - sx = s by omega] at this
    omega
  · rintro ⟨h0, ha, hb⟩
    refine ⟨?_, by omega⟩
    intro s hs
    split_ifs with h
    · exact (runs_mono hx (by omega : s ≤ sx - 1) (by omega)).trans h0
    · have := ha (s - sx) (by omega); omega

variable {α : Type*} [LinearOrder α] {X Y : ℕ → ℕ → α}

theorem attains_cat_left (hx : RunsOk cx sx) {nx : ℕ} (hnx : cx (sx - 1) = nx) {dim r : ℕ} (hr : r < sx) (z : ℕ → α) :
    Attains (stackRows nx X Y) (catCum cx cy sx) dim r z ↔ Attains X cx dim r z := by
  unfold Attains
  refine exists_congr fun k => ?_
  rw [inRun_cat_left hr]
  refine and_congr_right fun hk => ?_
  have hkn : k < nx := by
    rw [← hnx]
    exact hk.2.trans_le (runs_mono hx (by omega) (by omega))
  unfold stackRows
  rw [if_pos hkn]

theorem attains_cat_right (hx : RunsOk cx sx) {nx : ℕ} (hnx : cx (sx - 1) = nx) {dim r : ℕ} (z : ℕ → α) :
    Attains (stackRows nx X Y) (catCum cx cy sx) dim (r + sx) z ↔ Attains Y cy dim r z := by
  unfold Attains
  constructor
  · rintro ⟨k, hk, hd⟩
    rw [inRun_cat_right hx (by omega), hnx, Nat.add_sub_cancel] at hk
    refine ⟨k - nx, hk.2, ?_⟩
    unfold stackRows at hd
    rw [if_neg (by omega)] at hd
    exact hd
  · rintro ⟨k, hk, hd⟩
    refine ⟨k + nx, ?_, ?_⟩
    · rw [inRun_cat_right hx (by omega), hnx, Nat.add_sub_cancel, Nat.add_sub_cancel]
      exact ⟨by omega, hk⟩
    · unfold stackRows
      rw [if_neg (by omega), Nat.add_sub_cancel]
      exact hd

open Classical in
theorem attainedBetween_cat_left (hx : RunsOk cx sx) {nx : ℕ} (hnx : cx (sx - 1) = nx) (x y : α) :
    attainedBetween (stackRows nx X Y) (catCum cx cy sx) 0 sx x y = attainCount X cx sx 2 (vec2 x y) := by
  unfold attainedBetween attainCount
  rw [Finset.range_eq_Ico]
  congr 1
  apply Finset.filter_congr
  intro r hr
  exact attains_cat_left hx hnx (Finset.mem_Ico.1 hr).2 _

open Classical in
theorem attainedBetween_cat_right (hx : RunsOk cx sx) {nx : ℕ} (hnx : cx (sx - 1) = nx) (x y : α) :
    attainedBetween (stackRows nx X Y) (catCum cx cy sx) sx (sx + sy) x y = attainCount Y cy sy 2 (vec2 x y) := by
  unfold attainedBetween attainCount
  symm
  refine Finset.card_bij (fun r _ => r + sx) ?_ ?_ ?_
  · intro r hr
    rw [Finset.mem_filter, Finset.mem_range] at hr
    rw [Finset.mem_filter, Finset.mem_Ico]
    exact ⟨⟨by omega, by omega⟩, (attains_cat_right hx hnx _).2 hr.2⟩
  · intro a _ b _ h; omega
  · intro r hr
    rw [Finset.mem_filter, Finset.mem_Ico] at hr
    refine ⟨r - sx, ?_, by omega⟩
    rw [Finset.mem_filter, Finset.mem_range]
    refine ⟨by omega, ?_⟩
    rw [← attains_cat_right (X := X) (Y := Y) (cy := cy) hx hnx, Nat.sub_add_cancel hr.1.1]
    exact hr.2

open Classical in
theorem attainCount_split (pts : ℕ → ℕ → α) (c : ℕ → ℕ) (a b : ℕ) (x y : α) :
    attainCount pts c (a + b) 2 (vec2 x y) = attainedBetween pts c 0 a x y + attainedBetween pts c a (a + b) x y := by
  unfold attainedBetween attainCount
  rw [Finset.range_eq_Ico, ← Finset.card_union_of_disjoint, ← Finset.filter_union, Finset.Ico_union_Ico_eq_Ico (by omega) (by omega)]
  rw [Finset.disjoint_left]
  intro r h1 h2
  rw [Finset.mem_filter, Finset.mem_Ico] at h1 h2
  omega

end cat

/-! ## Both data sets -/

section both

variable {K : Type*} [Field K] [LinearOrder K] [IsStrictOrderedRing K] {L : Type*} [LinearOrder L] [Inhabited L]
variable {m : ℕ → Bool} {dx dy : ℕ → ℕ → K} {lx ly : List L} {ox oy : List ℕ}

theorem ordered_facts {l : List L} {o : List ℕ} (hn : l ≠ []) (ho : IsOrder l o) :
    RunsOk (cumSizes l) (nSets l) ∧ 0 < cumSizes l 0 ∧ cumSizes l (nSets l - 1) = l.length := by
  have hp := orderLabels_perm ho.1
  have hne : orderLabels l o ≠ [] := fun e => hn (by rw [e] at hp; exact hp.nil_eq.symm)
  have h := cumSizes_runsOk hne ho.2
  rw [cumSizes_perm hp, nSets_perm hp] at h
  exact ⟨h.1, h.2, cumSizes_last l⟩

theorem count_side {l : List L} {o : List ℕ} (ho : IsOrder l o) (data : ℕ → ℕ → K) (dim : ℕ) (w : ℕ → K) :
    attainCount (orderRows (transformMax m data) o) (cumSizes l) (nSets l) dim w = labelCount m data l dim (fun d => if m d then -w d else w d) := by
  have hp := orderLabels_perm ho.1
  have hs : (orderLabels l o).Pairwise (fun a b => a ≤ b) := ho.2
  rw [← labelCount_maximise, ← labelCount_order _ _ ho.1, labelCount_runs hs, cumSizes_perm hp, nSets_perm hp]

/-- The vector with the maximised coordinates negated. -/
def negVec (m : ℕ → Bool) (z : ℕ → K) : ℕ → K := fun d => if m d then -z d else z d

theorem negVec_negVec (z : ℕ → K) : negVec m (negVec m z) = z := by
  funext d; unfold negVec; by_cases h : m d <;> simp [h]

theorem diff_counts (hx : lx ≠ []) (hox : IsOrder lx ox) (hoy : IsOrder ly oy) (x y : K) :
    attainedBetween (diffData m dx dy lx ox oy) (diffCum lx ly) 0 (nSets lx) x y = labelCount m dx lx 2 (negVec m (vec2 x y)) ∧
    attainedBetween (diffData m dx dy lx ox oy) (diffCum lx ly) (nSets lx) (nSets lx + nSets ly) x y = labelCount m dy ly 2 (negVec m (vec2 x y)) ∧
    attainCount (diffData m dx dy lx ox oy) (diffCum lx ly) (nSets lx + nSets ly) 2 (vec2 x y) = pairCount m dx lx dy ly 2 (negVec m (vec2 x y)) := by
  obtain ⟨h1, h2, h3⟩ := ordered_facts hx hox
  have e1 : attainedBetween (diffData m dx dy lx ox oy) (diffCum lx ly) 0 (nSets lx) x y = labelCount m dx lx 2 (negVec m (vec2 x y)) := by
    unfold diffData diffCum
    rw [attainedBetween_cat_left h1 h3, count_side hox]
    rfl
  have e2 : attainedBetween (diffData m dx dy lx ox oy) (diffCum lx ly) (nSets lx) (nSets lx + nSets ly) x y = labelCount m dy ly 2 (negVec m (vec2 x y)) := by
    unfold diffData diffCum
    rw [attainedBetween_cat_right h1 h3, count_side hoy]
    rfl
  exact ⟨e1, e2, by rw [attainCount_split, e1, e2]; rfl⟩

theorem attainCount_congr2 {α : Type*} [LinearOrder α] (pts : ℕ → ℕ → α) (c : ℕ → ℕ) (n : ℕ) (w : ℕ → α) :
    attainCount pts c n 2 w = attainCount pts c n 2 (vec2 (w 0) (w 1)) := by
  classical
  unfold attainCount
  congr 1
  ext r
  rw [Finset.mem_filter, Finset.mem_filter]
  refine and_congr_right fun _ => ?_
  unfold Attains
  refine exists_congr fun k => and_congr_right fun _ => forall_congr' fun d => forall_congr' fun hd => ?_
  rcases (by omega : d = 0 ∨ d = 1) with rfl | rfl <;> simp [vec2]

theorem pairCount_congr {z z' : ℕ → K} (h : ∀ d < 2, z d = z' d) : pairCount m dx lx dy ly 2 z = pairCount m dx lx dy ly 2 z' := by
  unfold pairCount
  rw [labelCount_congr m dx lx 2 h, labelCount_congr m dy ly 2 h]

theorem diff_minimal (hx : lx ≠ []) (hox : IsOrder lx ox) (hoy : IsOrder ly oy) (k : ℕ) (x y : K) :
    MinimalAttained (diffData m dx dy lx ox oy) (diffCum lx ly) (nSets lx + nSets ly) 2 k (vec2 x y) ↔
      BestForPair m dx lx dy ly 2 k (negVec m (vec2 x y)) := by
  have hc : ∀ w, attainCount (diffData m dx dy lx ox oy) (diffCum lx ly) (nSets lx + nSets ly) 2 w = pairCount m dx lx dy ly 2 (negVec m w) := by
    intro w
    rw [attainCount_congr2, (diff_counts hx hox hoy _ _).2.2]
    apply pairCount_congr
    intro d hd
    rcases (by omega : d = 0 ∨ d = 1) with rfl | rfl <;> simp [vec2, negVec]
  unfold MinimalAttained BestForPair
  simp only [hc]
  refine and_congr_right fun _ => ⟨fun hw w h1 h2 d hd => ?_, fun hw w h1 h2 d hd => ?_⟩
  · have := hw (negVec m w) (by rw [negVec_negVec]; exact h1) (fun d hd => ?_) d hd
    · unfold negVec at this ⊢
      by_cases hm : m d <;> simp [hm] at this ⊢ <;> [rw [← this, neg_neg]; exact this]
    · have := h2 d hd
      unfold AsGood negVec at this
      unfold negVec
      by_cases hm : m d <;> simp [hm] at this ⊢ <;> linarith
  · have := hw (negVec m w) h1 (fun d hd => ?_) d hd
    · unfold negVec at this
      by_cases hm : m d <;> simp [hm] at this <;> exact this
    · have := h2 d hd
      unfold AsGood negVec
      by_cases hm : m d <;> simp [hm] <;> exact this

end both

end Moo
