import Verif.Lemmas.NdMem
import Verif.Model.ParetoRank
import Mathlib.Data.Finset.Card
import Mathlib.Data.Finset.Filter
import Mathlib.Data.Finset.Range
import Mathlib.Tactic.Push
import Mathlib.Data.List.GetD

set_option autoImplicit false
set_option linter.unusedSectionVars false

/-! # Helper lemmas: memory accesses of nondominated sorting -/

namespace Moo

section
variable {F : Type}

/-- All comparisons `pj[d] <= pk[d]` hold. -/
def rkLe (c : FCmp F) (dim : ℕ) (x : ℕ → ℕ → F) (j k : ℕ) : Bool := (List.range dim).all (fun d => c.le (x j d) (x k d))

theorem rkDomM_ok (c : FCmp F) (x : ℕ → ℕ → F) (dim size : ℕ) {j k : ℕ} (hj : j < size) (hk : k < size) :
    ∀ (ds : List ℕ) (s : Bool), (∀ d ∈ ds, d < dim) →
    rkDomM c (flatPts x dim size) dim j k ds s = .ok (s && ds.all (fun d => c.le (x j d) (x k d))) := by
  intro ds
  induction ds with
  | nil => intro s _; simp [rkDomM]
  | cons d ds ih =>
    intro s hd
    have hd0 := hd d (by simp)
    unfold rkDomM
    rw [ld_flat hj hd0, ld_flat hk hd0]
    simp only [bind, Except.bind]
    rw [ih _ (fun y hy => hd y (by simp [hy]))]
    simp [Bool.and_assoc]

/-- The loop over `k`, as a function of the relation between rows. -/
def rkInnerR (R : ℕ → ℕ → Bool) (level j : ℕ) : List ℕ → (ℕ → ℕ) → Bool → (ℕ → ℕ) × Bool
  | [], rank, nn => (rank, nn)
  | k :: ks, rank, nn =>
    if k = j then rkInnerR R level j ks rank nn
    else if rank k ≠ level - 1 then rkInnerR R level j ks rank nn
    else if R j k && !R k j then rkInnerR R level j ks (upd rank k (rank k + 1)) false
    else if !R j k && R k j then (upd rank j (rank j + 1), false)
    else rkInnerR R level j ks rank nn

/-- The loop over `j`, as a function of the relation between rows. -/
def rkPassR (R : ℕ → ℕ → Bool) (size level : ℕ) : List ℕ → (ℕ → ℕ) → Bool → (ℕ → ℕ) × Bool
  | [], rank, nn => (rank, nn)
  | j :: js, rank, nn =>
    if rank j ≠ level - 1 then rkPassR R size level js rank nn
    else rkPassR R size level js (rkInnerR R level j (List.range size) rank nn).1 (rkInnerR R level j (List.range size) rank nn).2

theorem rkInnerM_ok (c : FCmp F) (x : ℕ → ℕ → F) (dim size level : ℕ) {j : ℕ} (hj : j < size) :
    ∀ (ks : List ℕ) (rank : ℕ → ℕ) (nn : Bool), (∀ k ∈ ks, k < size) →
    rkInnerM c (flatPts x dim size) dim level j ks (cells rank size) nn =
      .ok (cells (rkInnerR (rkLe c dim x) level j ks rank nn).1 size, (rkInnerR (rkLe c dim x) level j ks rank nn).2) := by
  intro ks
  induction ks with
  | nil => intro rank nn _; simp [rkInnerM, rkInnerR]
  | cons k ks ih =>
    intro rank nn hks
    have hk := hks k (by simp)
    have ih' := fun rank nn => ih rank nn (fun y hy => hks y (by simp [hy]))
    unfold rkInnerM rkInnerR
    by_cases h1 : k = j
    · simp [h1, ih']
    · rw [if_neg h1, if_neg h1, ld_cells hk]
      simp only [bind, Except.bind]
      by_cases h2 : rank k ≠ level - 1
      · rw [if_pos h2, if_pos h2, ih']
      · rw [if_neg h2, if_neg h2]
        rw [rkDomM_ok c x dim size hj hk _ _ (fun d hd => List.mem_range.1 hd),
          rkDomM_ok c x dim size hk hj _ _ (fun d hd => List.mem_range.1 hd)]
        simp only [Bool.true_and]
        have e1 : (List.range dim).all (fun d => c.le (x j d) (x k d)) = rkLe c dim x j k := rfl
        have e2 : (List.range dim).all (fun d => c.le (x k d) (x j d)) = rkLe c dim x k j := rfl
        rw [e1, e2, st_cells hk, ld_cells hj]
        simp only
        rw [st_cells hj]
        simp only
        rw [ih', ih']
        split_ifs <;> rfl

/-- What the loop over `k` does to the ranks, whatever the relation. -/
theorem rkInnerR_facts (R : ℕ → ℕ → Bool) (L j : ℕ) : ∀ (ks : List ℕ) (rank : ℕ → ℕ) (nn : Bool), rank j = L →
    (∀ i, (rkInnerR R (L + 1) j ks rank nn).1 i = rank i ∨ (rank i = L ∧ (rkInnerR R (L + 1) j ks rank nn).1 i = L + 1)) ∧
    (∃ i, (i = j ∨ i ∈ ks) ∧ (rkInnerR R (L + 1) j ks rank nn).1 i = L) := by
  intro ks
  induction ks with
  | nil => intro rank nn hj; exact ⟨fun i => Or.inl rfl, j, Or.inl rfl, hj⟩
  | cons k ks ih =>
    intro rank nn hj
    have weaken : ∀ {r : ℕ → ℕ}, (∃ i, (i = j ∨ i ∈ ks) ∧ r i = L) → ∃ i, (i = j ∨ i ∈ k :: ks) ∧ r i = L := by
      rintro r ⟨i, h | h, e⟩
      · exact ⟨i, Or.inl h, e⟩
      · exact ⟨i, Or.inr (by simp [h]), e⟩
    unfold rkInnerR
    simp only [Nat.add_sub_cancel]
    by_cases h1 : k = j
    · rw [if_pos h1]
      obtain ⟨a, b⟩ := ih rank nn hj
      exact ⟨a, weaken b⟩
    · rw [if_neg h1]
      by_cases h2 : rank k ≠ L
      · rw [if_pos h2]
        obtain ⟨a, b⟩ := ih rank nn hj
        exact ⟨a, weaken b⟩
      · rw [if_neg h2]
        rw [not_not] at h2
        by_cases h3 : (R j k && !R k j) = true
        · rw [if_pos h3]
          obtain ⟨a, b⟩ := ih (upd rank k (rank k + 1)) false (by rw [upd_ne _ _ (fun h => h1 h.symm)]; exact hj)
          refine ⟨fun i => ?_, weaken b⟩
          rcases a i with h | ⟨h, h'⟩
          · rw [upd_apply] at h
            by_cases hi : i = k
            · right; subst hi; rw [if_pos rfl] at h; exact ⟨h2, by omega⟩
            · left; rw [if_neg hi] at h; exact h
          · rw [upd_apply] at h
            by_cases hi : i = k
            · subst hi; rw [if_pos rfl] at h; omega
            · right; rw [if_neg hi] at h; exact ⟨h, h'⟩
        · rw [if_neg h3]
          by_cases h4 : (!R j k && R k j) = true
          · rw [if_pos h4]
            refine ⟨fun i => ?_, k, Or.inr (by simp), by simp [h1, h2]⟩
            simp only [upd_apply]
            by_cases hi : i = j
            · right; subst hi; exact ⟨hj, by simp [hj]⟩
            · left; simp [hi]
          · rw [if_neg h4]
            obtain ⟨a, b⟩ := ih rank nn hj
            exact ⟨a, weaken b⟩

theorem rkPassR_facts (R : ℕ → ℕ → Bool) (size L : ℕ) : ∀ (js : List ℕ) (rank : ℕ → ℕ) (nn : Bool), (∀ j ∈ js, j < size) →
    (∀ i, (rkPassR R size (L + 1) js rank nn).1 i = rank i ∨ (rank i = L ∧ (rkPassR R size (L + 1) js rank nn).1 i = L + 1)) ∧
    ((∃ i < size, rank i = L) → ∃ i < size, (rkPassR R size (L + 1) js rank nn).1 i = L) ∧
    ((∀ i < size, rank i ≠ L) → (rkPassR R size (L + 1) js rank nn).2 = nn) := by
  intro js
  induction js with
  | nil => intro rank nn _; exact ⟨fun i => Or.inl rfl, id, fun _ => rfl⟩
  | cons j js ih =>
    intro rank nn hjs
    have hj := hjs j (by simp)
    have ih' := fun rank nn => ih rank nn (fun y hy => hjs y (by simp [hy]))
    unfold rkPassR
    simp only [Nat.add_sub_cancel]
    by_cases h1 : rank j ≠ L
    · rw [if_pos h1]; exact ih' rank nn
    · rw [if_neg h1]
      rw [not_not] at h1
      obtain ⟨a, i0, hi0, e0⟩ := rkInnerR_facts R L j (List.range size) rank nn h1
      have hi0' : i0 < size := by
        rcases hi0 with h | h
        · rw [h]; exact hj
        · exact List.mem_range.1 h
      obtain ⟨a', b', c'⟩ := ih' (rkInnerR R (L + 1) j (List.range size) rank nn).1 (rkInnerR R (L + 1) j (List.range size) rank nn).2
      refine ⟨fun i => ?_, fun _ => b' ⟨i0, hi0', e0⟩, fun h => absurd h1 (h j hj)⟩
      rcases a' i with h | ⟨h, h'⟩
      · rcases a i with g | ⟨g, g'⟩
        · left; rw [h, g]
        · right; exact ⟨g, by rw [h, g']⟩
      · rcases a i with g | ⟨g, g'⟩
        · right; exact ⟨by rw [← g, h], h'⟩
        · omega

theorem rkPassM_ok (c : FCmp F) (x : ℕ → ℕ → F) (dim size L : ℕ) :
    ∀ (js : List ℕ) (rank : ℕ → ℕ) (nn : Bool), (∀ j ∈ js, j < size) → (∀ i < size, rank i ≤ L + 1) →
    rkPassM c (flatPts x dim size) dim size (L + 1) js (cells rank size) nn =
      .ok (cells (rkPassR (rkLe c dim x) size (L + 1) js rank nn).1 size, (rkPassR (rkLe c dim x) size (L + 1) js rank nn).2) := by
  intro js
  induction js with
  | nil => intro rank nn _ _; simp [rkPassM, rkPassR]
  | cons j js ih =>
    intro rank nn hjs hr
    have hj := hjs j (by simp)
    have ih' := fun rank nn => ih rank nn (fun y hy => hjs y (by simp [hy]))
    unfold rkPassM rkPassR
    rw [ld_cells hj]
    simp only [bind, Except.bind]
    rw [if_neg (not_not.2 (hr j hj))]
    simp only [Nat.add_sub_cancel]
    by_cases h1 : rank j ≠ L
    · rw [if_pos h1, if_pos h1]; exact ih' rank nn hr
    · rw [if_neg h1, if_neg h1, rkInnerM_ok c x dim size (L + 1) hj _ _ _ (fun k hk => List.mem_range.1 hk)]
      rw [not_not] at h1
      simp only
      apply ih'
      intro i hi
      rcases (rkInnerR_facts (rkLe c dim x) L j (List.range size) rank nn h1).1 i with h | ⟨-, h⟩
      · rw [h]; exact hr i hi
      · omega

/-- The levels, as a function of the relation between rows. -/
def rkLevelsR (R : ℕ → ℕ → Bool) (size : ℕ) : ℕ → ℕ → (ℕ → ℕ) → Option (ℕ → ℕ)
  | 0, _, _ => none
  | fuel + 1, level, rank =>
    if (rkPassR R size level (List.range size) rank true).2 then some (rkPassR R size level (List.range size) rank true).1
    else rkLevelsR R size fuel (level + 1) (rkPassR R size level (List.range size) rank true).1

theorem rkLevelsM_ok (c : FCmp F) (x : ℕ → ℕ → F) (dim size : ℕ) :
    ∀ (fuel L : ℕ) (rank : ℕ → ℕ), (∀ i < size, 1 ≤ rank i ∧ rank i ≤ L) →
    ((Finset.range size).filter (fun i => rank i = L)).card < fuel →
    ∃ rank', rkLevelsR (rkLe c dim x) size fuel (L + 1) rank = some rank' ∧ (∀ i < size, 1 ≤ rank' i) ∧
      rkLevelsM c (flatPts x dim size) dim size fuel (L + 1) (cells rank size) = .ok (cells rank' size) := by
  intro fuel
  induction fuel with
  | zero => intro L rank _ h; omega
  | succ fuel ih =>
    intro L rank hr hc
    unfold rkLevelsR rkLevelsM
    rw [rkPassM_ok c x dim size L _ _ _ (fun j hj => List.mem_range.1 hj) (fun i hi => by have := (hr i hi).2; omega)]
    simp only [bind, Except.bind]
    obtain ⟨a, b, d⟩ := rkPassR_facts (rkLe c dim x) size L (List.range size) rank true (fun j hj => List.mem_range.1 hj)
    generalize hP : rkPassR (rkLe c dim x) size (L + 1) (List.range size) rank true = P at a b d ⊢
    have hr1 : ∀ i < size, 1 ≤ P.1 i ∧ P.1 i ≤ L + 1 := by
      intro i hi
      have := hr i hi
      rcases a i with h | ⟨h, h'⟩ <;> omega
    by_cases hn : P.2 = true
    · rw [if_pos hn, if_pos hn]
      exact ⟨_, rfl, fun i hi => (hr1 i hi).1, rfl⟩
    · rw [if_neg hn, if_neg hn]
      apply ih
      · exact hr1
      · have hex : ∃ i < size, rank i = L := by
          by_contra hno
          push Not at hno
          exact hn (d hno)
        obtain ⟨i0, hi0, e0⟩ := b hex
        have hrank0 : rank i0 = L := by
          rcases a i0 with h | ⟨h, -⟩
          · rw [← h, e0]
          · exact h
        have hlt : ((Finset.range size).filter (fun i => P.1 i = L + 1)).card < ((Finset.range size).filter (fun i => rank i = L)).card := by
          apply Finset.card_lt_card
          rw [Finset.ssubset_iff_of_subset]
          · refine ⟨i0, by simp [hi0, hrank0], by simp [e0]⟩
          · intro i hi
            simp only [Finset.mem_filter, Finset.mem_range] at hi ⊢
            refine ⟨hi.1, ?_⟩
            rcases a i with h | ⟨h, -⟩
            · have := (hr i hi.1).2; omega
            · exact h
        omega

theorem paretoRankGeneralM_ok (c : FCmp F) (x : ℕ → ℕ → F) (dim size fuel : ℕ) (hf : size < fuel) :
    ∃ rank, rkLevelsR (rkLe c dim x) size fuel 2 (fun _ => 1) = some rank ∧ (∀ i < size, 1 ≤ rank i) ∧
      paretoRankGeneralM c fuel (flatPts x dim size) dim size = .ok (cells rank size) := by
  unfold paretoRankGeneralM
  rw [fillM_alloc]
  simp only [bind, Except.bind]
  refine rkLevelsM_ok c x dim size fuel 1 (fun _ => 1) (fun _ _ => ⟨le_rfl, le_rfl⟩) ?_
  simpa using hf

/-! ## two objectives -/

/-- The comparisons of the two-objective algorithm between the point at position `k` and the one at position `e`. -/
def yLt (c : FCmp F) (pos : ℕ → ℕ → F) (k e : ℕ) : Bool := c.lt (pos k 1) (pos e 1)
def yGt (c : FCmp F) (pos : ℕ → ℕ → F) (k e : ℕ) : Bool := c.lt (pos e 1) (pos k 1) || (c.eq (pos k 1) (pos e 1) && c.lt (pos e 0) (pos k 0))
def xyEq (c : FCmp F) (pos : ℕ → ℕ → F) (k e : ℕ) : Bool := c.eq (pos k 1) (pos e 1) && c.eq (pos k 0) (pos e 0)

/-- The binary search, as a function of the comparisons. -/
def rkSearchR (lt gt : ℕ → Bool) (last : ℕ → ℕ) : ℕ → ℕ → ℕ → Option ℕ
  | 0, _, _ => none
  | fuel + 1, low, high =>
    if lt (last (low + (high - low) / 2)) then
      if low < low + (high - low) / 2 then rkSearchR lt gt last fuel low (low + (high - low) / 2) else some low
    else if gt (last (low + (high - low) / 2)) then
      if low + (high - low) / 2 + 1 < high then rkSearchR lt gt last fuel (low + (high - low) / 2 + 1) high else some (low + (high - low) / 2 + 1)
    else some (low + (high - low) / 2)

theorem rkSearchR_le {lt gt : ℕ → Bool} {last : ℕ → ℕ} {nf : ℕ} (hlt : lt (last nf) = true) : ∀ (fuel low high : ℕ), low < high → high ≤ nf + 1 →
    high - low < fuel → ∃ r, rkSearchR lt gt last fuel low high = some r ∧ r ≤ nf := by
  intro fuel
  induction fuel with
  | zero => intro low high _ _ h; omega
  | succ fuel ih =>
    intro low high h1 h2 h3
    unfold rkSearchR
    have hm : low + (high - low) / 2 < high := by omega
    split_ifs with h4 h5 h6 h7
    · exact ih _ _ h5 (by omega) (by omega)
    · exact ⟨low, rfl, by omega⟩
    · exact ih _ _ h7 h2 (by omega)
    · refine ⟨_, rfl, ?_⟩
      by_contra hgt
      have : low + (high - low) / 2 = nf := by omega
      rw [this] at h4
      exact h4 hlt
    · exact ⟨_, rfl, by omega⟩

/-- The body of the loop, as a function of the comparisons (`lt`, `gt`, `same` between positions). -/
def rk2dStepR (lt gt same : ℕ → ℕ → Bool) (asserts : Bool) (k : ℕ) (s : Rk2d) : Option Rk2d :=
  if lt k (s.last s.nFront) then
    match rkSearchR (lt k) (gt k) s.last (s.nFront + 2) 0 (s.nFront + 1) with
    | none => none
    | some low =>
      if asserts && !(lt k (s.last low) || same k (s.last low)) then none
      else some { s with last := upd s.last low k, f := upd s.f k low }
  else if same k (s.last s.nFront) then some { s with last := upd s.last s.nFront k, f := upd s.f k s.nFront }
  else some { nFront := s.nFront + 1, last := upd s.last (s.nFront + 1) k, f := upd s.f k (s.nFront + 1) }

/-- What is known before the step for `k`. -/
structure RkOk (k : ℕ) (s : Rk2d) : Prop where
  nf : s.nFront < k
  last : ∀ i ≤ s.nFront, s.last i < k
  fnf : ∀ i, s.f i ≤ s.nFront

theorem rk2dStepR_ok {lt gt same : ℕ → ℕ → Bool} {asserts : Bool} {k : ℕ} {s s' : Rk2d} (h : RkOk k s)
    (e : rk2dStepR lt gt same asserts k s = some s') : RkOk (k + 1) s' := by
  obtain ⟨h1, h2, h3⟩ := h
  unfold rk2dStepR at e
  by_cases hlt : lt k (s.last s.nFront) = true
  · rw [if_pos hlt] at e
    obtain ⟨r, er, hr⟩ := rkSearchR_le (gt := gt k) hlt (s.nFront + 2) 0 (s.nFront + 1) (by omega) le_rfl (by omega)
    rw [er] at e
    simp only at e
    split_ifs at e
    simp only [Option.some.injEq] at e
    subst e
    refine ⟨by simp only; omega, fun i hi => ?_, fun i => ?_⟩
    · simp only [upd_apply] at hi ⊢
      split_ifs
      · omega
      · have := h2 i hi; omega
    · simp only [upd_apply]
      split_ifs
      · exact hr
      · exact h3 i
  · rw [if_neg hlt] at e
    split_ifs at e
    · simp only [Option.some.injEq] at e
      subst e
      refine ⟨by simp only; omega, fun i hi => ?_, fun i => ?_⟩
      · simp only [upd_apply] at hi ⊢
        split_ifs
        · omega
        · have := h2 i hi; omega
      · simp only [upd_apply]
        split_ifs
        · exact le_rfl
        · exact h3 i
    · simp only [Option.some.injEq] at e
      subst e
      refine ⟨by simp only; omega, fun i hi => ?_, fun i => ?_⟩
      · simp only [upd_apply] at hi ⊢
        split_ifs
        · omega
        · have := h2 i (by omega); omega
      · simp only [upd_apply]
        split_ifs
        · exact le_rfl
        · have := h3 i; omega

section mem
variable (c : FCmp F) (x : ℕ → ℕ → F) (size : ℕ) (p : List ℕ) (hl : p.length = size) (hp : ∀ r ∈ p, r < size)

include hl hp in
theorem ld_pos {k : ℕ} (hk : k < size) : ∃ r, ldBlk (p.map some) k = .ok r ∧ ldBlk (flatPts x 2 size) (2 * r) = .ok (x (p.getD k 0) 0) ∧
    ldBlk (flatPts x 2 size) (2 * r + 1) = .ok (x (p.getD k 0) 1) := by
  have hk' : k < p.length := by omega
  refine ⟨p[k], ld_map_some hk', ?_, ?_⟩
  · rw [ld_flat_x (hp _ (List.getElem_mem hk')), List.getD_eq_getElem _ _ hk']
  · rw [ld_flat_y (hp _ (List.getElem_mem hk')), List.getD_eq_getElem _ _ hk']

include hl hp in
theorem rkSearchM_ok (asserts : Bool) {nf k : ℕ} {last : ℕ → ℕ} {g : ℕ → Option ℕ} (hnf : nf < size) (hlast : ∀ i ≤ nf, last i < size)
    (hg : ∀ i ≤ nf, g i = some (last i)) :
    ∀ (fuel low high : ℕ), low < high → high ≤ nf + 1 → high - low < fuel →
    ∀ r, rkSearchR (yLt c (fun k => x (p.getD k 0)) k) (yGt c (fun k => x (p.getD k 0)) k) last fuel low high = some r →
    rkSearchM c (flatPts x 2 size) (p.map some) (blk g size) asserts nf (x (p.getD k 0) 0) (x (p.getD k 0) 1) fuel low high = .ok r := by
  intro fuel
  induction fuel with
  | zero => intro low high _ _ h; omega
  | succ fuel ih =>
    intro low high h1 h2 h3 r
    unfold rkSearchR rkSearchM
    have hm : low + (high - low) / 2 ≤ nf := by omega
    simp only
    generalize hmid : low + (high - low) / 2 = mid at hm
    have hcond : (asserts && !decide (mid ≤ nf)) = false := by simp [hm]
    rw [hcond, ld_blk (by omega) (hg mid hm)]
    obtain ⟨rr, e1, e2, e3⟩ := ld_pos x size p hl hp (hlast mid hm)
    simp only [bind, Except.bind, Bool.false_eq_true, if_false]
    rw [e1]
    simp only
    rw [e2, e3]
    simp only
    have c1 : c.lt (x (p.getD k 0) 1) (x (p.getD (last mid) 0) 1) = yLt c (fun k => x (p.getD k 0)) k (last mid) := rfl
    have c2 : (c.lt (x (p.getD (last mid) 0) 1) (x (p.getD k 0) 1) || c.eq (x (p.getD k 0) 1) (x (p.getD (last mid) 0) 1) &&
      c.lt (x (p.getD (last mid) 0) 0) (x (p.getD k 0) 0)) = yGt c (fun k => x (p.getD k 0)) k (last mid) := rfl
    rw [c1, c2]
    split_ifs with h4 h5 h6 h7
    · intro h; exact ih _ _ h5 (by omega) (by omega) r h
    · intro h; rw [Option.some.injEq] at h; rw [h]
    · intro h; exact ih _ _ h7 h2 (by omega) r h
    · intro h; rw [Option.some.injEq] at h; rw [h]
    · intro h; rw [Option.some.injEq] at h; rw [h]

include hl hp in
/-- The checked step follows the abstract one; it fails exactly when the assertion at c/pareto.c:109-111 does. -/
theorem rk2dStepM_ok (asserts : Bool) {k : ℕ} (hk : k < size) {s : Rk2d} (hs : RkOk k s) {g : ℕ → Option ℕ} (hg : ∀ i ≤ s.nFront, g i = some (s.last i)) :
    match rk2dStepR (yLt c (fun k => x (p.getD k 0))) (yGt c (fun k => x (p.getD k 0))) (xyEq c (fun k => x (p.getD k 0))) asserts k s with
    | none => asserts = true ∧ rk2dStepM c (flatPts x 2 size) (p.map some) asserts k (s.nFront, blk g size, cells s.f size) = .error .assertion
    | some s' => ∃ g', rk2dStepM c (flatPts x 2 size) (p.map some) asserts k (s.nFront, blk g size, cells s.f size) =
        .ok (s'.nFront, blk g' size, cells s'.f size) ∧ ∀ i ≤ s'.nFront, g' i = some (s'.last i) := by
  obtain ⟨hnf, hlast, -⟩ := hs
  have hnf' : s.nFront < size := by omega
  have hlast' : ∀ i ≤ s.nFront, s.last i < size := fun i hi => by have := hlast i hi; omega
  unfold rk2dStepR rk2dStepM
  obtain ⟨rk, a1, a2, a3⟩ := ld_pos x size p hl hp hk
  obtain ⟨rq, b1, b2, b3⟩ := ld_pos x size p hl hp (hlast' s.nFront le_rfl)
  simp only [bind, Except.bind]
  rw [a1]
  simp only
  rw [a2, a3, ld_blk hnf' (hg _ le_rfl)]
  simp only
  rw [b1]
  simp only
  rw [b2, b3]
  simp only
  have c1 : c.lt (x (p.getD k 0) 1) (x (p.getD (s.last s.nFront) 0) 1) = yLt c (fun k => x (p.getD k 0)) k (s.last s.nFront) := rfl
  have c2 : (c.eq (x (p.getD k 0) 1) (x (p.getD (s.last s.nFront) 0) 1) && c.eq (x (p.getD k 0) 0) (x (p.getD (s.last s.nFront) 0) 0)) =
    xyEq c (fun k => x (p.getD k 0)) k (s.last s.nFront) := rfl
  rw [c1, c2]
  by_cases hlt : yLt c (fun k => x (p.getD k 0)) k (s.last s.nFront) = true
  · rw [if_pos hlt, if_pos hlt]
    obtain ⟨low, er, hr⟩ := rkSearchR_le (gt := yGt c (fun k => x (p.getD k 0)) k) hlt (s.nFront + 2) 0 (s.nFront + 1) (by omega) le_rfl (by omega)
    rw [er, rkSearchM_ok c x size p hl hp asserts hnf' hlast' hg (s.nFront + 2) 0 (s.nFront + 1) (by omega) le_rfl (by omega) low er]
    simp only
    have hcond : (asserts && !decide (low ≤ s.nFront)) = false := by simp [hr]
    rw [hcond]
    obtain ⟨rl, d1, d2, d3⟩ := ld_pos x size p hl hp (hlast' low hr)
    simp only [Bool.false_eq_true, if_false]
    rw [ld_blk (by omega) (hg low hr), st_blk (show low < size by omega), st_cells hk]
    simp only
    have fin : ∃ g', (Except.ok (s.nFront, blk (upd g low (some k)) size, cells (upd s.f k low) size) : Except MemErr (ℕ × Blk ℕ × Blk ℕ)) =
        .ok (s.nFront, blk g' size, cells (upd s.f k low) size) ∧ ∀ i ≤ s.nFront, g' i = some (upd s.last low k i) := by
      refine ⟨_, rfl, fun i hi => ?_⟩
      simp only [upd_apply]
      split_ifs
      · rfl
      · exact hg i hi
    cases asserts with
    | false => simpa using fin
    | true =>
      simp only [if_true]
      rw [d1]
      simp only
      rw [d2, d3]
      simp only [Bool.true_and]
      have c3 : (c.lt (x (p.getD k 0) 1) (x (p.getD (s.last low) 0) 1) || c.eq (x (p.getD k 0) 1) (x (p.getD (s.last low) 0) 1) &&
        c.eq (x (p.getD k 0) 0) (x (p.getD (s.last low) 0) 0)) =
        (yLt c (fun k => x (p.getD k 0)) k (s.last low) || xyEq c (fun k => x (p.getD k 0)) k (s.last low)) := rfl
      rw [c3]
      cases hb : (yLt c (fun k => x (p.getD k 0)) k (s.last low) || xyEq c (fun k => x (p.getD k 0)) k (s.last low)) with
      | false => simp
      | true => simpa using fin
  · rw [if_neg hlt, if_neg hlt]
    by_cases hsame : xyEq c (fun k => x (p.getD k 0)) k (s.last s.nFront) = true
    · rw [if_pos hsame, if_pos hsame, st_blk hnf', st_cells hk]
      refine ⟨_, rfl, fun i hi => ?_⟩
      simp only [upd_apply]
      split_ifs
      · rfl
      · exact hg i hi
    · rw [if_neg hsame, if_neg hsame, st_blk (show s.nFront + 1 < size by omega), st_cells hk]
      refine ⟨_, rfl, fun i hi => ?_⟩
      simp only [upd_apply]
      split_ifs
      · rfl
      · exact hg i (by simp only at hi; omega)

/-- The loop over `k`, as a function of the comparisons. -/
def rk2dLoopR (lt gt same : ℕ → ℕ → Bool) (asserts : Bool) : List ℕ → Rk2d → Option Rk2d
  | [], s => some s
  | k :: ks, s => match rk2dStepR lt gt same asserts k s with
    | none => none
    | some s' => rk2dLoopR lt gt same asserts ks s'

include hl hp in
theorem rk2dLoopM_ok (asserts : Bool) : ∀ (m k : ℕ) (s : Rk2d) (g : ℕ → Option ℕ), k + m = size → RkOk k s → (∀ i ≤ s.nFront, g i = some (s.last i)) →
    match rk2dLoopR (yLt c (fun k => x (p.getD k 0))) (yGt c (fun k => x (p.getD k 0))) (xyEq c (fun k => x (p.getD k 0))) asserts (List.range' k m) s with
    | none => asserts = true ∧ rk2dLoopM c (flatPts x 2 size) (p.map some) asserts (List.range' k m) (s.nFront, blk g size, cells s.f size) = .error .assertion
    | some s' => (∃ g', rk2dLoopM c (flatPts x 2 size) (p.map some) asserts (List.range' k m) (s.nFront, blk g size, cells s.f size) =
        .ok (s'.nFront, blk g' size, cells s'.f size)) ∧ RkOk size s' := by
  intro m
  induction m with
  | zero =>
    intro k s g hk hs hg
    simp only [List.range'_zero, rk2dLoopR, rk2dLoopM]
    exact ⟨⟨g, rfl⟩, by rw [show size = k by omega]; exact hs⟩
  | succ m ih =>
    intro k s g hk hs hg
    rw [List.range'_succ]
    unfold rk2dLoopR rk2dLoopM
    have h := rk2dStepM_ok c x size p hl hp asserts (show k < size by omega) hs hg
    cases e : rk2dStepR (yLt c (fun k => x (p.getD k 0))) (yGt c (fun k => x (p.getD k 0))) (xyEq c (fun k => x (p.getD k 0))) asserts k s with
    | none =>
      rw [e] at h
      simp only at h ⊢
      exact ⟨h.1, by rw [h.2]; rfl⟩
    | some s' =>
      rw [e] at h
      obtain ⟨g', e', hg'⟩ := h
      simp only [bind, Except.bind]
      rw [e']
      simp only
      exact ih (k + 1) s' g' (by omega) (rk2dStepR_ok hs e) hg'

include hl hp in
theorem rk2dStoreM_ok (f : ℕ → ℕ) :
    ∀ (m k : ℕ) (g : ℕ → Option ℕ), k + m = size →
    ∃ g', rk2dStoreM (p.map some) (cells f size) (List.range' k m) (blk g size) = .ok (blk g' size) ∧
      ∀ (new : ℕ → ℕ), (∀ i < size, g i = some (new i) ∨ (g i = none ∧ i ∈ p.drop k)) → ∀ i < size, g' i = some (rk2dStore f k (p.drop k) new i) := by
  intro m
  induction m with
  | zero =>
    intro k g hk
    refine ⟨g, rfl, fun new h i hi => ?_⟩
    rw [List.drop_of_length_le (by omega)]
    rcases h i hi with h | h
    · exact h
    · rw [List.drop_of_length_le (by omega)] at h; simp at h
  | succ m ih =>
    intro k g hk
    have hk' : k < p.length := by omega
    rw [List.range'_succ]
    unfold rk2dStoreM
    rw [ld_map_some hk', ld_cells (by omega)]
    simp only [bind, Except.bind]
    rw [st_blk (hp _ (List.getElem_mem hk'))]
    simp only
    obtain ⟨g', e, h⟩ := ih (k + 1) (upd g p[k] (some (f k + 1))) (by omega)
    refine ⟨g', e, fun new hg i hi0 => ?_⟩
    rw [List.drop_eq_getElem_cons hk', rk2dStore]
    refine h _ ?_ i hi0
    clear hi0 i
    intro i hi0
    simp only [upd_apply]
    by_cases hi : i = p[k]
    · simp [hi]
    · rcases hg i hi0 with h' | ⟨h', hm⟩
      · left; simp [hi, h']
      · right
        rw [List.drop_eq_getElem_cons hk'] at hm
        rcases List.mem_cons.1 hm with rfl | hm
        · exact absurd rfl hi
        · simp [hi, h', hm]

end mem

/-- `pareto_rank_2D` as a function of the comparisons; `none`: the assertion at c/pareto.c:109-111 fails. -/
def rank2dR (c : FCmp F) (p : List ℕ) (asserts : Bool) (garbage : ℕ → ℕ) (x : ℕ → ℕ → F) (size : ℕ) : Option (ℕ → ℕ) :=
  (rk2dLoopR (yLt c (fun k => x (p.getD k 0))) (yGt c (fun k => x (p.getD k 0))) (xyEq c (fun k => x (p.getD k 0))) asserts
    (List.range' 1 (size - 1)) ⟨0, fun _ => 0, fun _ => 0⟩).map (fun s => rk2dStore s.f 0 p garbage)

theorem paretoRank2dM_ok (c : FCmp F) (sortFn : Blk F → List ℕ → List ℕ) (asserts : Bool) (x : ℕ → ℕ → F) (size : ℕ) (h0 : 0 < size)
    (garbage : ℕ → ℕ) (hs : (sortFn (flatPts x 2 size) (List.range size)).Perm (List.range size)) :
    match rank2dR c (sortFn (flatPts x 2 size) (List.range size)) asserts garbage x size with
    | none => asserts = true ∧ paretoRank2dM c sortFn asserts (flatPts x 2 size) size = .error .assertion
    | some rank => paretoRank2dM c sortFn asserts (flatPts x 2 size) size = .ok (cells rank size) := by
  unfold rank2dR paretoRank2dM
  rw [fillM_alloc, fillM_alloc]
  generalize sortFn (flatPts x 2 size) (List.range size) = p at hs
  have hl : p.length = size := by rw [hs.length_eq]; simp
  have hp : ∀ r ∈ p, r < size := fun r hr => List.mem_range.1 (hs.mem_iff.1 hr)
  simp only [bind, Except.bind]
  rw [allocBlk_eq, st_blk h0, st_cells h0]
  simp only
  have hf : upd (fun _ => 0) 0 0 = (fun _ => 0 : ℕ → ℕ) := by funext i; simp [upd_apply]
  rw [hf]
  have h := rk2dLoopM_ok c x size p hl hp asserts (size - 1) 1 ⟨0, fun _ => 0, fun _ => 0⟩ (upd (fun _ => none) 0 (some 0)) (by omega)
    ⟨by simp, fun i hi => by simp, fun i => le_rfl⟩ (fun i hi => by simp only [Nat.le_zero] at hi; subst hi; simp)
  cases e : rk2dLoopR (yLt c (fun k => x (p.getD k 0))) (yGt c (fun k => x (p.getD k 0))) (xyEq c (fun k => x (p.getD k 0))) asserts
    (List.range' 1 (size - 1)) ⟨0, fun _ => 0, fun _ => 0⟩ with
  | none =>
    rw [e] at h
    simp only [Option.map_none] at h ⊢
    refine ⟨h.1, ?_⟩
    rw [h.2]
  | some s' =>
    rw [e] at h
    obtain ⟨⟨g', e'⟩, -⟩ := h
    simp only [Option.map_some]
    rw [e']
    simp only
    obtain ⟨g2, e2, h2⟩ := rk2dStoreM_ok size p hl hp s'.f size 0 (fun _ => none) (by omega)
    rw [List.range_eq_range', e2]
    congr 1
    apply blk_congr
    intro i hi
    exact h2 garbage (fun i hi => Or.inr ⟨rfl, hs.mem_iff.2 (List.mem_range.2 hi)⟩) i hi

end

end Moo
