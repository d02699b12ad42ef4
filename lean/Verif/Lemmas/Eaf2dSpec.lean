import Verif.Lemmas.Eaf2d
import Mathlib.Data.List.GetD

/-!
# From the sweep to the specification
-/

set_option autoImplicit false
set_option linter.unusedSectionVars false

namespace Moo

open Classical

variable {α : Type*} [LinearOrder α]

theorem RunsOk.lt {cumsize : ℕ → ℕ} {nruns : ℕ} (h : RunsOk cumsize nruns) {r s : ℕ} (hrs : r < s) (hs : s < nruns) : cumsize r < cumsize s := by
  induction s with
  | zero => omega
  | succ s ih =>
    by_cases he : r = s
    · subst he; exact h.2.1 r hs
    · exact (ih (by omega) (by omega)).trans (h.2.1 s hs)

theorem RunsOk.le {cumsize : ℕ → ℕ} {nruns : ℕ} (h : RunsOk cumsize nruns) {r s : ℕ} (hrs : r ≤ s) (hs : s < nruns) : cumsize r ≤ cumsize s := by
  rcases Nat.lt_or_eq_of_le hrs with h1 | rfl
  · exact (h.lt h1 hs).le
  · exact le_rfl

theorem InRun.unique {cumsize : ℕ → ℕ} {r s k : ℕ} (h1 : InRun cumsize r k) (h2 : InRun cumsize s k) : r = s := by
  rcases lt_trichotomy r s with h | h | h
  · exact absurd (h2.1 r h) (by have := h1.2; omega)
  · exact h
  · exact absurd (h1.1 s h) (by have := h2.2; omega)

theorem eafRuntab_spec {cumsize : ℕ → ℕ} {nruns : ℕ} (h : RunsOk cumsize nruns) (k : ℕ) (hk : k < cumsize (nruns - 1)) :
    InRun cumsize (eafRuntab cumsize k) k ∧ eafRuntab cumsize k < nruns := by
  have hn := h.1
  induction k with
  | zero =>
    rw [eafRuntab]
    by_cases h0 : 0 = cumsize 0
    · rw [if_pos h0]
      have hr : 1 < nruns := by
        by_contra hle
        have : nruns - 1 = 0 := by omega
        rw [this] at hk; omega
      refine ⟨⟨?_, ?_⟩, hr⟩
      · intro s hs
        obtain rfl : s = 0 := by omega
        omega
      · have := h.2.1 0 hr
        simp at this; omega
    · rw [if_neg h0]
      exact ⟨⟨fun s hs => by omega, by omega⟩, hn⟩
  | succ k ih =>
    obtain ⟨⟨h1, h2⟩, h3⟩ := ih (by omega)
    rw [eafRuntab]
    by_cases h0 : k + 1 = cumsize (eafRuntab cumsize k)
    · rw [if_pos h0]
      have hr : eafRuntab cumsize k + 1 < nruns := by
        by_contra hle
        have : eafRuntab cumsize k = nruns - 1 := by omega
        rw [this] at h0; omega
      refine ⟨⟨?_, ?_⟩, hr⟩
      · intro s hs
        by_cases he : s = eafRuntab cumsize k
        · subst he; omega
        · have := h1 s (by omega); omega
      · have := h.2.1 _ hr; omega
    · rw [if_neg h0]
      exact ⟨⟨fun s hs => by have := h1 s hs; omega, by omega⟩, h3⟩

/-- The input of the sweep that `eaf2d` sets up. -/
def eafInput (pts : ℕ → ℕ → α) (cumsize : ℕ → ℕ) (nruns : ℕ) (sx sy : List ℕ) (level : ℤ) : EafIn α :=
  ⟨cumsize (nruns - 1), nruns, pts, eafRuntab cumsize, (fun i => sx.getD i 0), (fun i => sy.getD i 0), level⟩

theorem compareXasc_le {a b : ℕ → α} : compareXasc a b ≤ 0 ↔ a 0 ≤ b 0 := by
  unfold compareXasc
  rcases lt_trichotomy (a 0) (b 0) with h | h | h
  · simp [h, h.le]
  · simp [h]
  · simp [h, h.not_ge, h.not_gt]

theorem compareYdesc_le {a b : ℕ → α} : compareYdesc a b ≤ 0 ↔ b 1 ≤ a 1 := by
  unfold compareYdesc
  rcases lt_trichotomy (b 1) (a 1) with h | h | h
  · simp [h, h.le]
  · simp [h]
  · simp [h, h.not_ge, h.not_gt]

theorem perm_range_facts {n : ℕ} {l : List ℕ} (h : l.Perm (List.range n)) :
    l.length = n ∧ (∀ i < n, l.getD i 0 < n) ∧ (∀ i < n, ∀ j < n, l.getD i 0 = l.getD j 0 → i = j) ∧ (∀ p < n, ∃ i < n, l.getD i 0 = p) := by
  have hlen : l.length = n := by rw [h.length_eq, List.length_range]
  have hnd : l.Nodup := h.nodup_iff.2 List.nodup_range
  have hget : ∀ i (hi : i < n), l.getD i 0 = l[i]'(by omega) := by
    intro i hi; exact List.getD_eq_getElem _ _ _
  refine ⟨hlen, ?_, ?_, ?_⟩
  · intro i hi
    rw [hget i hi]
    have : l[i]'(by omega) ∈ List.range n := h.mem_iff.1 (List.getElem_mem _)
    exact List.mem_range.1 this
  · intro i hi j hj e
    rw [hget i hi, hget j hj] at e
    exact (List.Nodup.getElem_inj_iff hnd).1 e
  · intro p hp
    have : p ∈ l := h.mem_iff.2 (List.mem_range.2 hp)
    obtain ⟨i, hi, e⟩ := List.getElem_of_mem this
    exact ⟨i, by omega, by rw [hget i (by omega)]; exact e⟩

theorem eafInput_ok {pts : ℕ → ℕ → α} {cumsize : ℕ → ℕ} {nruns : ℕ} {sx sy : List ℕ} {level : ℤ} (hr : RunsOk cumsize nruns)
    (hx : EafSortedX pts (cumsize (nruns - 1)) sx) (hy : EafSortedY pts (cumsize (nruns - 1)) sy) (hl : 1 ≤ level) :
    EafOk (eafInput pts cumsize nruns sx sy level) := by
  obtain ⟨x1, x2, x3, x4⟩ := perm_range_facts hx.1
  obtain ⟨y1, y2, y3, y4⟩ := perm_range_facts hy.1
  refine ⟨x2, x3, x4, y2, y3, y4, ?_, ?_, fun p hp => (eafRuntab_spec hr p hp).2, hl⟩
  · intro i j hij hj
    have hj' : j < cumsize (nruns - 1) := hj
    rcases Nat.lt_or_eq_of_le hij with h | rfl
    · have := List.pairwise_iff_getElem.1 hx.2 i j (by omega) (by omega) h
      rw [compareXasc_le] at this
      simp only [EafIn.X, eafInput]
      rw [List.getD_eq_getElem _ _ (by omega), List.getD_eq_getElem _ _ (by omega)]
      exact this
    · exact le_rfl
  · intro i j hij hj
    have hj' : j < cumsize (nruns - 1) := hj
    rcases Nat.lt_or_eq_of_le hij with h | rfl
    · have := List.pairwise_iff_getElem.1 hy.2 i j (by omega) (by omega) h
      rw [compareYdesc_le] at this
      simp only [EafIn.Y, eafInput]
      rw [List.getD_eq_getElem _ _ (by omega), List.getD_eq_getElem _ _ (by omega)]
      exact this
    · exact le_rfl

theorem attains_iff {pts : ℕ → ℕ → α} {cumsize : ℕ → ℕ} {nruns : ℕ} {sx sy : List ℕ} {level : ℤ} (hr : RunsOk cumsize nruns) {r : ℕ} (hrn : r < nruns)
    (z : α × α) : Attains pts cumsize 2 r (vec2 z.1 z.2) ↔
      ∃ p ∈ eafD (eafInput pts cumsize nruns sx sy level) z, (eafInput pts cumsize nruns sx sy level).run p = r := by
  constructor
  · rintro ⟨k, hk, hd⟩
    have hkn : k < cumsize (nruns - 1) := lt_of_lt_of_le hk.2 (hr.le (by omega) (by have := hr.1; omega))
    refine ⟨k, mem_eafD.2 ⟨hkn, ?_, ?_⟩, (eafRuntab_spec hr k hkn).1.unique hk⟩
    · have := hd 0 (by omega); simpa [vec2, eafInput] using this
    · have := hd 1 (by omega); simpa [vec2, eafInput] using this
  · rintro ⟨p, hp, rfl⟩
    rw [mem_eafD] at hp
    refine ⟨p, (eafRuntab_spec hr p hp.1).1, ?_⟩
    intro d hd
    rcases (by omega : d = 0 ∨ d = 1) with rfl | rfl
    · simpa [vec2, eafInput] using hp.2.1
    · simpa [vec2, eafInput] using hp.2.2

theorem attainCount_eq {pts : ℕ → ℕ → α} {cumsize : ℕ → ℕ} {nruns : ℕ} {sx sy : List ℕ} {level : ℤ} (hr : RunsOk cumsize nruns)
    (z : α × α) : attainCount pts cumsize nruns 2 (vec2 z.1 z.2) =
      eafNrun (eafInput pts cumsize nruns sx sy level) (eafD (eafInput pts cumsize nruns sx sy level) z) := by
  unfold attainCount eafNrun
  congr 1
  ext r
  simp only [Finset.mem_filter, Finset.mem_range]
  constructor
  · rintro ⟨h1, h2⟩; exact ⟨h1, (attains_iff hr h1 z).1 h2⟩
  · rintro ⟨h1, h2⟩; exact ⟨h1, (attains_iff hr h1 z).2 h2⟩

theorem eafLevel_spec {E : EafIn α} (ok : EafOk E) (hn : 0 < E.n) {fuel : ℕ} (hf : 2 * E.n < fuel) :
    ∃ out, eafLevel E fuel = some out ∧ EafOut E out ∧
      ∀ z : α × α, E.level ≤ (eafNrun E (eafD E z) : ℤ) → ∃ o ∈ out, o.1 ≤ z.1 ∧ o.2.1 ≤ z.2 := by
  have hrun := ok.runlt _ (ok.dxlt 0 hn)
  rw [eafLevel, if_neg (not_not.2 hn)]
  dsimp only
  rw [if_neg (by simpa using hrun)]
  have hS0 : eafS E 0 0 = insert (E.datax 0) ∅ := by
    ext p
    unfold eafS
    simp only [Finset.mem_filter, Finset.mem_range, Finset.mem_insert, Finset.notMem_empty, or_false]
    constructor
    · rintro ⟨_, ⟨i, hi, _, rfl⟩, _⟩
      obtain rfl : i = 0 := by omega
      rfl
    · rintro rfl
      refine ⟨ok.dxlt 0 hn, ⟨0, le_rfl, hn, rfl⟩, ?_⟩
      obtain ⟨i, hi, e⟩ := ok.dysurj _ (ok.dxlt 0 hn)
      exact ⟨i, Nat.zero_le _, hi, e⟩
  have hempty : EafCnt E ∅ (fun _ => 0) 0 := ⟨by intro r; simp, by simp [eafNrun_empty]⟩
  have hc := cnt_insert hempty (p := E.datax 0) (by simp) hrun
  rw [← hS0] at hc
  simp only [if_true] at hc
  refine eafSweep_spec ok fuel ⟨0, 0, _, 1⟩ [] hn hn (Or.inl rfl) (by simp only; omega) hc ⟨by simp, by simp⟩ (Or.inl rfl) (by simp) ?_
  intro z hz
  right
  constructor
  · have hex : ∃ p, p ∈ eafD E z := by
      by_contra hno
      have : eafD E z = ∅ := Finset.eq_empty_of_forall_notMem (fun p hp => hno ⟨p, hp⟩)
      rw [this, eafNrun_empty] at hz
      have := ok.lev
      simp at hz; omega
    obtain ⟨p, hp⟩ := hex
    rw [mem_eafD] at hp
    obtain ⟨i, hi, rfl⟩ := ok.dxsurj p hp.1
    exact (ok.Xmono 0 i (Nat.zero_le _) hi).trans hp.2.1
  · intro p hp _
    obtain ⟨i, hi, rfl⟩ := ok.dysurj p hp
    exact ok.Yanti 0 i (Nat.zero_le _) hi

end Moo
