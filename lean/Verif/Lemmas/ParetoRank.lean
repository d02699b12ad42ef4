import Verif.Spec.Rank
import Verif.Model.ParetoRank
import Verif.Lemmas.NondominatedSpec
import Mathlib.Data.List.Perm.Subperm
import Mathlib.Data.List.Nodup

set_option autoImplicit false
set_option linter.unusedSectionVars false

namespace Moo

section
variable {α : Type*} [LinearOrder α]

/-- all objectives minimised -/
abbrev allMin : ℕ → Bool := fun _ => false

theorem rkDominates_iff (p q : ℕ → α) (dim : ℕ) :
    rkDominates p q dim = true ↔ WeakDom dim allMin p q := by
  have h : ∀ (l : List ℕ) (b : Bool), l.foldl (fun s d => s && decide (p d ≤ q d)) b = true ↔
      b = true ∧ ∀ d ∈ l, p d ≤ q d := by
    intro l
    induction l with
    | nil => simp
    | cons a l ih => intro b; rw [List.foldl_cons, ih]; simp [and_assoc]
  unfold rkDominates WeakDom
  rw [h]; simp [AtLeastAsGood]

theorem rk_jk (p q : ℕ → α) (dim : ℕ) :
    (rkDominates p q dim && !rkDominates q p dim) = true ↔ Dom dim allMin p q := by
  rw [dom_iff, ← rkDominates_iff, ← rkDominates_iff]; simp

theorem rk_kj (p q : ℕ → α) (dim : ℕ) :
    (!rkDominates p q dim && rkDominates q p dim) = true ↔ Dom dim allMin q p := by
  rw [dom_iff, ← rkDominates_iff, ← rkDominates_iff]; simp [and_comm]

/-- Invariant of one pass over level `L + 1`: `S` are the rows which had rank `L` at the start, `rank0` the ranks at the start. -/
structure RkInv (pts : ℕ → ℕ → α) (dim L : ℕ) (S : ℕ → Prop) (rank0 rank : ℕ → ℕ) (nn : Bool) : Prop where
  out : ∀ i, ¬ S i → rank i = rank0 i
  inS : ∀ i, S i → rank i = L ∨ (rank i = L + 1 ∧ ∃ j, S j ∧ rank j = L ∧ Dom dim allMin (pts j) (pts i))
  new : nn = false ↔ ∃ i, S i ∧ rank i = L + 1

/-- demoting row `b` because of row `a` -/
theorem RkInv.demote {pts : ℕ → ℕ → α} {dim L : ℕ} {S : ℕ → Prop} {rank0 rank : ℕ → ℕ} {nn : Bool}
    (h : RkInv pts dim L S rank0 rank nn) {a b : ℕ} (hSa : S a) (hSb : S b) (ha : rank a = L)
    (hb : rank b = L) (hd : Dom dim allMin (pts a) (pts b)) :
    RkInv pts dim L S rank0 (upd rank b (rank b + 1)) false := by
  have hab : a ≠ b := by rintro rfl; exact Dom.irrefl hd
  constructor
  · intro i hi
    have : i ≠ b := by rintro rfl; exact hi hSb
    rw [upd_ne _ _ this]; exact h.out i hi
  · intro i hi
    by_cases hib : i = b
    · subst hib
      right
      rw [upd_same]
      exact ⟨by omega, a, hSa, by rw [upd_ne _ _ hab]; exact ha, hd⟩
    · rw [upd_ne _ _ hib]
      rcases h.inS i hi with h1 | ⟨h1, j, hj, hjr, hjd⟩
      · exact Or.inl h1
      · right
        refine ⟨h1, ?_⟩
        by_cases hjb : j = b
        · subst hjb
          exact ⟨a, hSa, by rw [upd_ne _ _ hab]; exact ha, hd.trans hjd⟩
        · exact ⟨j, hj, by rw [upd_ne _ _ hjb]; exact hjr, hjd⟩
  · simp only [true_iff]
    exact ⟨b, hSb, by rw [upd_same, hb]⟩

theorem rkInner_spec {pts : ℕ → ℕ → α} {dim L j : ℕ} {S : ℕ → Prop} {rank0 : ℕ → ℕ}
    (ks : List ℕ) (hj : S j) :
    ∀ (rank : ℕ → ℕ) (nn : Bool), RkInv pts dim L S rank0 rank nn → rank j = L →
      (∀ k ∈ ks, rank k = L → S k) →
      RkInv pts dim L S rank0 (rkInner pts dim (L + 1) j ks rank nn).1
        (rkInner pts dim (L + 1) j ks rank nn).2 ∧
      (∀ i, (rkInner pts dim (L + 1) j ks rank nn).1 i = L → rank i = L) ∧
      ((rkInner pts dim (L + 1) j ks rank nn).1 j = L → ∀ k ∈ ks,
        (rkInner pts dim (L + 1) j ks rank nn).1 k = L →
          ¬ Dom dim allMin (pts j) (pts k) ∧ ¬ Dom dim allMin (pts k) (pts j)) := by
  induction ks with
  | nil =>
    intro rank nn h hjr hk
    simp only [rkInner]
    exact ⟨h, fun i hi => hi, by simp⟩
  | cons k ks ih =>
    intro rank nn h hjr hk
    have hk' : ∀ k ∈ ks, rank k = L → S k := fun k hk0 => hk k (List.mem_cons_of_mem _ hk0)
    unfold rkInner
    simp only [Nat.add_sub_cancel]
    by_cases h1 : k = j
    · rw [if_pos h1]
      obtain ⟨a, b, c⟩ := ih rank nn h hjr hk'
      refine ⟨a, b, fun hjL k' hk'' => ?_⟩
      rcases List.mem_cons.1 hk'' with rfl | hm
      · intro _; subst h1; exact ⟨Dom.irrefl, Dom.irrefl⟩
      · exact c hjL k' hm
    · rw [if_neg h1]
      by_cases h2 : rank k ≠ L
      · rw [if_pos h2]
        obtain ⟨a, b, c⟩ := ih rank nn h hjr hk'
        refine ⟨a, b, fun hjL k' hk'' => ?_⟩
        rcases List.mem_cons.1 hk'' with rfl | hm
        · intro hh; exact absurd (b _ hh) h2
        · exact c hjL k' hm
      · rw [if_neg h2]
        rw [not_not] at h2
        have hSk : S k := hk k List.mem_cons_self h2
        by_cases h3 : Dom dim allMin (pts j) (pts k)
        · rw [if_pos ((rk_jk _ _ _).2 h3)]
          have hinv := h.demote hj hSk hjr h2 h3
          obtain ⟨a, b, c⟩ := ih _ _ hinv (by rw [upd_ne _ _ (Ne.symm h1)]; exact hjr)
            (by
              intro k' hk'' hr
              by_cases hkk : k' = k
              · exact hkk ▸ hSk
              · rw [upd_ne _ _ hkk] at hr; exact hk' k' hk'' hr)
          refine ⟨a, ?_, fun hjL k' hk'' => ?_⟩
          · intro i hi
            have := b i hi
            by_cases hik : i = k
            · subst hik; exact h2
            · rwa [upd_ne _ _ hik] at this
          · rcases List.mem_cons.1 hk'' with rfl | hm
            · intro hh
              have := b _ hh
              rw [upd_same] at this; omega
            · exact c hjL k' hm
        · rw [if_neg (by rw [rk_jk]; exact h3)]
          by_cases h4 : Dom dim allMin (pts k) (pts j)
          · rw [if_pos ((rk_kj _ _ _).2 h4)]
            have hinv := h.demote hSk hj h2 hjr h4
            refine ⟨hinv, ?_, ?_⟩
            · intro i hi
              by_cases hij : i = j
              · subst hij; exact hjr
              · simpa [upd_ne _ _ hij] using hi
            · intro hh
              simp only [upd_same] at hh
              omega
          · rw [if_neg (by rw [rk_kj]; exact h4)]
            obtain ⟨a, b, c⟩ := ih rank nn h hjr hk'
            refine ⟨a, b, fun hjL k' hk'' => ?_⟩
            rcases List.mem_cons.1 hk'' with rfl | hm
            · intro _; exact ⟨h3, h4⟩
            · exact c hjL k' hm

theorem rkPass_spec {pts : ℕ → ℕ → α} {dim size L : ℕ} {S : ℕ → Prop} {rank0 : ℕ → ℕ}
    (hS0 : ∀ i, rank0 i = L → i < size → S i) (hS2 : ∀ i, S i → i < size)
    (hle : ∀ i < size, rank0 i ≤ L) (js : List ℕ) (hjs : ∀ j ∈ js, j < size) :
    ∀ (rank : ℕ → ℕ) (nn : Bool), RkInv pts dim L S rank0 rank nn →
      ∃ rank' nn', rkPass pts dim size (L + 1) js rank nn = some (rank', nn') ∧
        RkInv pts dim L S rank0 rank' nn' ∧
        (∀ i, S i → rank' i = L → rank i = L) ∧
        (∀ j ∈ js, S j → rank' j = L → ∀ k, S k → rank' k = L →
          ¬ Dom dim allMin (pts j) (pts k) ∧ ¬ Dom dim allMin (pts k) (pts j)) := by
  induction js with
  | nil => intro rank nn h; exact ⟨rank, nn, rfl, h, fun _ _ hi => hi, by simp⟩
  | cons j js ih =>
    intro rank nn h
    have hjsz := hjs j List.mem_cons_self
    have hjs' : ∀ j ∈ js, j < size := fun k hk => hjs k (List.mem_cons_of_mem _ hk)
    have hr : rank j ≤ L + 1 := by
      by_cases hSj : S j
      · rcases h.inS j hSj with h1 | h1 <;> omega
      · rw [h.out j hSj]; have := hle j hjsz; omega
    unfold rkPass
    rw [if_neg (not_not.2 hr)]
    simp only [Nat.add_sub_cancel]
    by_cases h2 : rank j ≠ L
    · rw [if_pos h2]
      obtain ⟨rank', nn', e, a, b, c⟩ := ih hjs' rank nn h
      refine ⟨rank', nn', e, a, b, fun j' hj' hS hr' => ?_⟩
      rcases List.mem_cons.1 hj' with rfl | hm
      · exact absurd (b _ hS hr') h2
      · exact c j' hm hS hr'
    · rw [if_neg h2]
      rw [not_not] at h2
      have key : ∀ k < size, rank k = L → S k := by
        intro k hk hkr
        by_contra hn
        rw [h.out k hn] at hkr
        exact hn (hS0 k hkr hk)
      have hSj : S j := key j hjsz h2
      obtain ⟨a, b, c⟩ := rkInner_spec (List.range size) hSj rank nn h h2
        (fun k hk => key k (List.mem_range.1 hk))
      obtain ⟨rank', nn', e, a', b', c'⟩ := ih hjs' _ _ a
      refine ⟨rank', nn', e, a', fun i hi hir => b i (b' i hi hir), fun j' hj' hS hr' => ?_⟩
      rcases List.mem_cons.1 hj' with rfl | hm
      · intro k hk hkr
        exact c (b' _ hS hr') k (List.mem_range.2 (hS2 k hk)) (b' k hk hkr)
      · exact c' j' hm hS hr'

/-- The result of one complete pass. -/
theorem rkPass_level {pts : ℕ → ℕ → α} {dim size L : ℕ} {rank : ℕ → ℕ}
    (hle : ∀ i < size, rank i ≤ L) :
    ∃ rank' nn, rkPass pts dim size (L + 1) (List.range size) rank true = some (rank', nn) ∧
      (∀ i < size, rank i ≠ L → rank' i = rank i) ∧
      (∀ i < size, rank i = L → rank' i = L ∨ rank' i = L + 1) ∧
      (∀ i < size, rank i = L → (rank' i = L + 1 ↔
        ∃ j < size, rank j = L ∧ Dom dim allMin (pts j) (pts i))) ∧
      (nn = true ↔ ∀ i < size, rank i = L → rank' i = L) := by
  obtain ⟨rank', nn, e, a, -, c⟩ := rkPass_spec (pts := pts) (dim := dim) (size := size) (L := L)
    (S := fun i => i < size ∧ rank i = L) (rank0 := rank) (fun i h1 h2 => ⟨h2, h1⟩)
    (fun i h => h.1) hle (List.range size) (fun j hj => List.mem_range.1 hj) rank true
    ⟨fun _ _ => rfl, fun i h => Or.inl h.2, by
      constructor
      · intro h; exact absurd h (by simp)
      · rintro ⟨i, hi, h⟩; have := hi.2; omega⟩
  refine ⟨rank', nn, e, fun i hi hr => a.out i (fun h => hr h.2), ?_, ?_, ?_⟩
  · intro i hi hr
    rcases a.inS i ⟨hi, hr⟩ with h | h
    · exact Or.inl h
    · exact Or.inr h.1
  · intro i hi hr
    constructor
    · intro h
      rcases a.inS i ⟨hi, hr⟩ with h' | ⟨_, j, hj, -, hd⟩
      · omega
      · exact ⟨j, hj.1, hj.2, hd⟩
    · rintro ⟨j, hj, hjr, hd⟩
      rcases a.inS i ⟨hi, hr⟩ with h' | h'
      · exfalso
        rcases a.inS j ⟨hj, hjr⟩ with h1 | ⟨_, m, hm, hmr, hmd⟩
        · exact (c i (List.mem_range.2 hi) ⟨hi, hr⟩ h' j ⟨hj, hjr⟩ h1).2 hd
        · exact (c i (List.mem_range.2 hi) ⟨hi, hr⟩ h' m hm hmr).2 (hmd.trans hd)
      · exact h'.1
  · have := a.new
    constructor
    · intro hn i hi hr
      rcases a.inS i ⟨hi, hr⟩ with h' | h'
      · exact h'
      · exfalso
        have := this.2 ⟨i, ⟨hi, hr⟩, h'.1⟩
        rw [hn] at this; exact absurd this (by simp)
    · intro h
      by_contra hn
      obtain ⟨i, hi, hr⟩ := this.1 (by simpa using hn)
      have := h i hi.1 hi.2
      omega

theorem Remaining.lt {dim n : ℕ} {mx : ℕ → Bool} {pts : ℕ → ℕ → α} {r i : ℕ}
    (h : Remaining dim n mx pts r i) : i < n := by
  induction r with
  | zero => exact h
  | succ r ih => exact ih h.1

theorem Remaining.mono {dim n : ℕ} {mx : ℕ → Bool} {pts : ℕ → ℕ → α} {r s i : ℕ} (hrs : r ≤ s)
    (h : Remaining dim n mx pts s i) : Remaining dim n mx pts r i := by
  induction s with
  | zero => have : r = 0 := by omega
            subst this; exact h
  | succ s ih =>
    rcases Nat.lt_or_ge r (s + 1) with h' | h'
    · exact ih (by omega) h.1
    · have : r = s + 1 := by omega
      subst this; exact h

/-- State of the ranks before level `r + 2`. -/
def RkLevelInv (dim size : ℕ) (pts : ℕ → ℕ → α) (r : ℕ) (rank : ℕ → ℕ) : Prop :=
  ∀ i < size, (rank i = r + 1 ∧ Remaining dim size allMin pts r i) ∨
    (1 ≤ rank i ∧ rank i ≤ r ∧ Remaining dim size allMin pts (rank i - 1) i ∧ ¬ Remaining dim size allMin pts (rank i) i)

theorem remaining_step {dim size : ℕ} {pts : ℕ → ℕ → α} {r : ℕ} {rank : ℕ → ℕ}
    (h : RkLevelInv dim size pts r rank) (i : ℕ) (hi : i < size) :
    rank i = r + 1 ↔ Remaining dim size allMin pts r i := by
  rcases h i hi with h' | h'
  · exact ⟨fun _ => h'.2, fun _ => h'.1⟩
  · constructor
    · intro h; omega
    · intro hh; exact absurd (hh.mono h'.2.1) h'.2.2.2

/-- Every level loses a row: after `size` levels nothing remains. -/
theorem remaining_count {dim n : ℕ} {mx : ℕ → Bool} {pts : ℕ → ℕ → α} (r : ℕ) :
    ∀ i, Remaining dim n mx pts r i →
      ∃ l : List ℕ, l.length = r ∧ l.Nodup ∧ (∀ j ∈ l, j < n ∧ Dom dim mx (pts j) (pts i)) := by
  induction r with
  | zero => intro i _; exact ⟨[], rfl, List.nodup_nil, by simp⟩
  | succ r ih =>
    intro i hi
    obtain ⟨_, j, hj, hd⟩ := hi
    obtain ⟨l, hl, hn, ha⟩ := ih j hj
    refine ⟨j :: l, by simp [hl], List.nodup_cons.2 ⟨fun hm => Dom.irrefl (ha j hm).2, hn⟩, ?_⟩
    intro k hk
    rcases List.mem_cons.1 hk with rfl | hm
    · exact ⟨hj.lt, hd⟩
    · exact ⟨(ha k hm).1, (ha k hm).2.trans hd⟩

theorem not_remaining {dim n : ℕ} {mx : ℕ → Bool} {pts : ℕ → ℕ → α} {r i : ℕ} (hr : n ≤ r) :
    ¬ Remaining dim n mx pts r i := by
  intro h
  obtain ⟨l, hl, hn, ha⟩ := remaining_count r i h
  have hsub : (i :: l).Subperm (List.range n) := by
    apply List.subperm_of_subset
    · exact List.nodup_cons.2 ⟨fun hm => Dom.irrefl (ha i hm).2, hn⟩
    · intro k hk
      rcases List.mem_cons.1 hk with rfl | hm
      · exact List.mem_range.2 h.lt
      · exact List.mem_range.2 (ha k hm).1
  have := hsub.length_le
  simp at this; omega

theorem inFront_iff {dim n : ℕ} {mx : ℕ → Bool} {pts : ℕ → ℕ → α} {r i : ℕ} :
    InFront dim n mx pts (r + 1) i ↔ Remaining dim n mx pts r i ∧ ¬ Remaining dim n mx pts (r + 1) i := by
  unfold InFront
  simp only [Nat.add_sub_cancel, Nat.le_add_left, true_and]
  constructor
  · rintro ⟨h1, h2⟩
    exact ⟨h1, fun h => h.2.elim fun j hj => h2 j hj.1 hj.2⟩
  · rintro ⟨h1, h2⟩
    exact ⟨h1, fun j hj hd => h2 ⟨h1, j, hj, hd⟩⟩

/-- a row is in at most one front -/
theorem inFront_unique {dim n : ℕ} {mx : ℕ → Bool} {pts : ℕ → ℕ → α} {r s i : ℕ}
    (h1 : InFront dim n mx pts r i) (h2 : InFront dim n mx pts s i) : r = s := by
  obtain ⟨r, rfl⟩ := Nat.exists_eq_add_of_le' h1.1
  obtain ⟨s, rfl⟩ := Nat.exists_eq_add_of_le' h2.1
  rw [inFront_iff] at h1 h2
  rcases lt_trichotomy r s with h | h | h
  · exact absurd (h2.1.mono (by omega)) h1.2
  · omega
  · exact absurd (h1.1.mono (by omega)) h2.2

theorem rkLevels_spec {pts : ℕ → ℕ → α} {dim size : ℕ} (fuel : ℕ) :
    ∀ (r : ℕ) (rank : ℕ → ℕ), size < fuel + r → RkLevelInv dim size pts r rank →
      (r = 0 ∨ ∃ i, Remaining dim size allMin pts r i) →
      ∃ rank', rkLevels pts dim size fuel (r + 2) rank = .done rank' ∧
        ∀ i < size, InFront dim size allMin pts (rank' i) i := by
  induction fuel with
  | zero =>
    intro r rank hf h hne
    exfalso
    rcases hne with h0 | ⟨i, hi⟩
    · omega
    · exact not_remaining (by omega) hi
  | succ fuel ih =>
    intro r rank hf h _
    have hle : ∀ i < size, rank i ≤ r + 1 := by
      intro i hi; rcases h i hi with h' | h' <;> omega
    obtain ⟨rank', nn, e, h1, h2, h3, h4⟩ := rkPass_level (pts := pts) (dim := dim) hle
    unfold rkLevels
    rw [e]
    simp only
    have hstep := remaining_step h
    have hinv : RkLevelInv dim size pts (r + 1) rank' := by
      intro i hi
      by_cases hr : rank i = r + 1
      · have hrem := (hstep i hi).1 hr
        rcases h2 i hi hr with h' | h'
        · right
          refine ⟨by omega, by omega, ?_, ?_⟩
          · rw [h']; exact hrem
          · rw [h']
            rintro ⟨_, j, hj, hd⟩
            have := (h3 i hi hr).2 ⟨j, hj.lt, (hstep j hj.lt).2 hj, hd⟩
            omega
        · left
          obtain ⟨j, hj, hjr, hd⟩ := (h3 i hi hr).1 h'
          exact ⟨h', hrem, j, (hstep j hj).1 hjr, hd⟩
      · rcases h i hi with h' | h'
        · exact absurd h'.1 hr
        · right; rw [h1 i hi hr]; exact ⟨h'.1, by omega, h'.2.2⟩
    cases nn with
    | true =>
      refine ⟨rank', rfl, fun i hi => ?_⟩
      have h4' := h4.1 rfl
      rcases hinv i hi with ⟨h5, h6⟩ | ⟨h5, h6, h7, h8⟩
      · exfalso
        by_cases hr : rank i = r + 1
        · have := h4' i hi hr; omega
        · have := h1 i hi hr; rw [this] at h5; have := hle i hi; omega
      · obtain ⟨s, hs⟩ := Nat.exists_eq_add_of_le' h5
        rw [hs] at h7 h8 ⊢
        exact inFront_iff.2 ⟨by simpa using h7, h8⟩
    | false =>
      simp only [Bool.false_eq_true, if_false]
      refine ih (r + 1) rank' (by omega) hinv (Or.inr ?_)
      by_contra hn
      refine absurd (h4.2 fun i hi hr => ?_) (by simp)
      rcases h2 i hi hr with h' | h'
      · exact h'
      · exact absurd ⟨i, (remaining_step hinv i hi).1 h'⟩ hn

end

end Moo
