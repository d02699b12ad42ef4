import Verif.Model.HvNan3
import Verif.Lemmas.HvNan

/-!
# `fpli_hv` for three objectives makes no wrong access, for arbitrary doubles
-/

set_option autoImplicit false
set_option linter.unusedSectionVars false

namespace Moo

variable {K : Type} [Zero K] [One K] [Add K] [Sub K] [Mul K] [LT K] [DecidableLT K] [LE K] [DecidableLE K]

theorem HvMem.setNext_ignore {n d i p q : ℕ} {M M' : HvMem K} (h : M.setNext n d i p q = some M') : M'.ignore = M.ignore := by
  unfold HvMem.setNext at h
  split at h
  · cases h; rfl
  · exact absurd h (by simp)

theorem HvMem.setPrev_ignore {n d i p q : ℕ} {M M' : HvMem K} (h : M.setPrev n d i p q = some M') : M'.ignore = M.ignore := by
  unfold HvMem.setPrev at h
  split at h
  · cases h; rfl
  · exact absurd h (by simp)

theorem memLinkFrom_ignore (n d j : ℕ) : ∀ (l : List ℕ) (a : ℕ) (M M' : HvMem K), memLinkFrom n d j a l M = some M' → M'.ignore = M.ignore
  | [], a, M, M', h => by
    simp only [memLinkFrom, bind, Option.bind_eq_some_iff] at h
    obtain ⟨M1, h1, h2⟩ := h
    rw [HvMem.setPrev_ignore h2, HvMem.setNext_ignore h1]
  | q :: qs, a, M, M', h => by
    simp only [memLinkFrom, bind, Option.bind_eq_some_iff] at h
    obtain ⟨M1, h1, M2, h2, h3⟩ := h
    rw [memLinkFrom_ignore n d j qs q M2 M' h3, HvMem.setPrev_ignore h2, HvMem.setNext_ignore h1]

theorem memLinkAll_ignore (n d : ℕ) (ords : ℕ → List ℕ) : ∀ (m : ℕ) (M M' : HvMem K), memLinkAll n d ords m M = some M' → M'.ignore = M.ignore
  | 0, M, M', h => by cases h; rfl
  | m + 1, M, M', h => by
    simp only [memLinkAll, bind, Option.bind_eq_some_iff] at h
    obtain ⟨M1, h1, h2⟩ := h
    rw [memLinkAll_ignore n d ords m M1 M' h2, memLinkFrom_ignore n d m _ _ M M1 h1]

theorem memFilterDeleteNode_ignore (n d p : ℕ) : ∀ (m : ℕ) (M M' : HvMem K), memFilterDeleteNode n d p m M = some M' → M'.ignore = M.ignore
  | 0, M, M', h => by cases h; rfl
  | m + 1, M, M', h => by
    simp only [memFilterDeleteNode, memFilterDeleteStep, bind, Option.bind_eq_some_iff] at h
    obtain ⟨M1, h1, b, _, a, _, M2, h2, a', _, b', _, h3⟩ := h
    rw [HvMem.setNext_ignore h3, HvMem.setPrev_ignore h2, memFilterDeleteNode_ignore n d p m M M1 h1]

theorem memFilterDim_ignore (x : ℕ → ℕ → K) (ref : ℕ → K) (n d i : ℕ) : ∀ (np aux c : ℕ) (M : HvMem K) (r : ℕ × HvMem K),
    memFilterDim x ref n d i np aux c M = some r → r.2.ignore = M.ignore
  | 0, aux, c, M, r, h => by cases h; rfl
  | np + 1, aux, c, M, r, h => by
    simp only [memFilterDim, bind, Option.bind_eq_some_iff] at h
    obtain ⟨v, _, w, _, h1⟩ := h
    split at h1
    · cases h1; rfl
    · simp only [Option.bind_eq_some_iff] at h1
      obtain ⟨M1, h2, q, _, h3⟩ := h1
      rw [memFilterDim_ignore x ref n d i np q (c - 1) M1 r h3, memFilterDeleteNode_ignore n d aux d M M1 h2]

theorem memFilterRef_ignore (x : ℕ → ℕ → K) (ref : ℕ → K) (n d : ℕ) : ∀ (m c : ℕ) (M : HvMem K) (r : ℕ × HvMem K),
    memFilterRef x ref n d m c M = some r → r.2.ignore = M.ignore
  | 0, c, M, r, h => by cases h; rfl
  | m + 1, c, M, r, h => by
    simp only [memFilterRef, bind, Option.bind_eq_some_iff] at h
    obtain ⟨r1, h1, q, _, h2⟩ := h
    rw [memFilterDim_ignore x ref n d m _ _ _ _ r h2, memFilterRef_ignore x ref n d m c M r1 h1]

theorem hv3dPop_subset (x : ℕ → ℕ → K) (ref : ℕ → K) (pp : ℕ) (nxt0 : K) : ∀ (l : List ℕ) (h : K), (hv3dPop x ref pp nxt0 l h).1 ⊆ l
  | [], _ => by simp [hv3dPop]
  | [cur], _ => by simp [hv3dPop]
  | cur :: prv :: rest, h => by
    rw [hv3dPop]
    split
    · exact List.subset_cons_self _ _
    · exact List.Subset.trans (hv3dPop_subset x ref pp nxt0 (prv :: rest) _) (List.subset_cons_self _ _)

theorem hv3dUpdateAt_subset (x : ℕ → ℕ → K) (ref : ℕ → K) (before after : List ℕ) (pp : ℕ) (hypera : K) (r : List ℕ × K)
    (h : hv3dUpdateAt x ref before after pp hypera = some r) : r.1 ≠ [] ∧ ∀ t ∈ r.1, t = pp ∨ t ∈ before ++ after := by
  unfold hv3dUpdateAt at h
  dsimp only at h
  split at h
  · split at h
    · cases h
      refine ⟨by simp, fun u hu => ?_⟩
      simp only [List.mem_append, List.mem_cons] at hu ⊢
      tauto
    · rename_i t rest hrev
      split at h
      · cases h
        refine ⟨by simp, fun u hu => ?_⟩
        simp only [List.mem_append, List.mem_reverse, List.mem_cons] at hu
        rcases hu with hu | hu | hu
        · have := hv3dPop_subset x ref pp _ _ _ hu
          rw [← hrev] at this
          right; simp at this; simp [this]
        · left; exact hu
        · right; simp [hu]
      · cases h
        refine ⟨by simp, fun u hu => ?_⟩
        simp only [List.mem_append, List.mem_cons] at hu ⊢
        tauto
  · exact absurd h (by simp)

/-- The body of the loop succeeds, keeps the links, and the items of the tree are nodes. -/
theorem memHv3dBodyAt_ok (pos : ℕ → List ℕ → ℕ) (x : ℕ → ℕ → K) (ref : ℕ → K) (n pp : ℕ) (hpp : 1 ≤ pp ∧ pp ≤ n) (T : List ℕ) (hT : T ≠ [] ∧ ∀ t ∈ T, 1 ≤ t ∧ t ≤ n)
    (hypera hyperv height : K) (M : HvMem K) (hig : ∀ p ≤ n, ∃ v, M.ignore p = some v) :
    ∃ r, memHv3dBodyAt pos x ref n pp T hypera hyperv height M = some r ∧ (r.1 ≠ [] ∧ ∀ t ∈ r.1, 1 ≤ t ∧ t ≤ n) ∧ r.2.2.2.next = M.next ∧ r.2.2.2.prev = M.prev ∧
      ∀ p ≤ n, ∃ v, r.2.2.2.ignore p = some v := by
  obtain ⟨ig, hig'⟩ := hig pp hpp.2
  have hall : ∀ t ∈ pp :: T, 1 ≤ t ∧ t ≤ n := by
    intro t ht
    rcases List.mem_cons.1 ht with h | h
    · rw [h]; exact hpp
    · exact hT.2 t h
  unfold memHv3dBodyAt
  simp only [hig', bind, Option.bind_some]
  by_cases h2 : ig ≥ 2
  · rw [if_pos h2]; exact ⟨_, rfl, hT, rfl, rfl, hig⟩
  · rw [if_neg h2, if_pos ⟨hT.1, hall⟩]
    cases hu : hv3dUpdateAt x ref (T.take (pos pp T)) (T.drop (pos pp T)) pp hypera with
    | none =>
      simp only [HvMem.setIgnore, hpp.2, if_true, Option.bind_some]
      refine ⟨_, rfl, hT, rfl, rfl, ?_⟩
      intro p hp
      simp only [upd]
      split
      · exact ⟨2, rfl⟩
      · exact hig p hp
    | some r =>
      obtain ⟨T', a'⟩ := r
      refine ⟨_, rfl, ⟨(hv3dUpdateAt_subset x ref _ _ pp hypera _ hu).1, ?_⟩, rfl, rfl, hig⟩
      intro t ht
      have := (hv3dUpdateAt_subset x ref _ _ pp hypera _ hu).2 t ht
      rw [List.take_append_drop] at this
      rcases this with h | h
      · rw [h]; exact hpp
      · exact hT.2 t h

/-- The height of the slice of a node of the list. -/
theorem memHeight_ok (x : ℕ → ℕ → K) (ref : ℕ → K) (n d : ℕ) (hd : 2 < d) (isLast : Bool) (pp q : ℕ) (hpp : 1 ≤ pp ∧ pp ≤ n) (M : HvMem K)
    (hq : isLast = false → M.next 2 pp = some q ∧ 1 ≤ q ∧ q ≤ n) : ∃ h, memHeight x ref n d isLast pp M = some h := by
  unfold memHeight
  cases isLast with
  | true => exact ⟨_, by simp [rdRef, rdData, hd, hpp.1, hpp.2]; rfl⟩
  | false =>
    obtain ⟨h1, h2, h3⟩ := hq rfl
    exact ⟨_, by simp [rdData, hd, hpp.1, hpp.2, h1, h2, h3]; rfl⟩

theorem memHv3dLoopAt_ok (pos : ℕ → List ℕ → ℕ) (x : ℕ → ℕ → K) (ref : ℕ → K) (n d : ℕ) (hd : 2 < d) : ∀ (fuel : ℕ) (l1 : List ℕ) (pp : ℕ) (l2 T : List ℕ)
    (hypera hyperv : K) (M : HvMem K) (L : ℕ → List ℕ), MemLists n d M L → L 2 = l1 ++ pp :: l2 → (L 2).Nodup → (∀ p ∈ L 2, 1 ≤ p ∧ p ≤ n) → l2.length < fuel →
    (T ≠ [] ∧ ∀ t ∈ T, 1 ≤ t ∧ t ≤ n) → (∀ p ≤ n, ∃ v, M.ignore p = some v) → ∃ r, memHv3dLoopAt pos x ref n d fuel pp T hypera hyperv M = some r := by
  intro fuel
  induction fuel with
  | zero => intro l1 pp l2 T hypera hyperv M L _ _ _ _ h; omega
  | succ fuel ih =>
    intro l1 pp l2 T hypera hyperv M L hML hL hnd hb hf hT hig
    obtain ⟨nx, pv, hM, hlk⟩ := id hML
    have hpp := hb pp (by rw [hL]; simp)
    have hl := hlk 2 hd
    rw [hL] at hl
    have hat := LinkedFrom.at hl
    have hlast : M.prev 2 0 = some (lastD pp l2) := by
      rw [(hM 2 hd 0 (by omega)).2.1, LinkedFrom.last hl, lastD_append_cons]
    have hnext : M.next 2 pp = some (l2.headD 0) := by
      rw [(hM 2 hd pp hpp.2).1, hat.2.2.1]
    have hq : decide (pp = lastD pp l2) = false → M.next 2 pp = some (l2.headD 0) ∧ 1 ≤ l2.headD 0 ∧ l2.headD 0 ≤ n := by
      intro h
      cases l2 with
      | nil => simp [lastD] at h
      | cons q l2 => exact ⟨hnext, hb q (by rw [hL]; simp)⟩
    obtain ⟨height, hh⟩ := memHeight_ok x ref n d hd (decide (pp = lastD pp l2)) pp (l2.headD 0) hpp M hq
    obtain ⟨r, hr, hrT, hrn, hrp, hri⟩ := memHv3dBodyAt_ok pos x ref n pp hpp T hT hypera hyperv height M hig
    have hML' : MemLists n d r.2.2.2 L := ⟨nx, pv, by rw [hrn, hrp]; exact hM, hlk⟩
    cases l2 with
    | nil =>
      refine ⟨(r.2.2.1, r.2.2.2), ?_⟩
      have hn0 : r.2.2.2.next 2 pp = some 0 := by rw [hrn, hnext]; rfl
      simp only [memHv3dLoopAt, hlast, hh, hr, hn0, bind, Option.bind_some, if_true]
    | cons q l2 =>
      have hn0 : r.2.2.2.next 2 pp = some q := by rw [hrn, hnext]; rfl
      have hq0 : q ≠ 0 := by have := hb q (by rw [hL]; simp); omega
      obtain ⟨r', hr'⟩ := ih (l1 ++ [pp]) q l2 r.1 r.2.1 r.2.2.1 r.2.2.2 L hML' (by rw [hL]; simp) hnd hb (by simp at hf; omega) hrT hri
      refine ⟨r', ?_⟩
      simp only [memHv3dLoopAt, hlast, hh, hr, hn0, bind, Option.bind_some, hq0, if_false]
      exact hr'

theorem memHv3dRefAt_ok (pos : ℕ → List ℕ → ℕ) (x : ℕ → ℕ → K) (ref : ℕ → K) (n d : ℕ) (hd : 2 < d) (M : HvMem K) (L : ℕ → List ℕ) (hML : MemLists n d M L)
    (hnd : (L 2).Nodup) (hb : ∀ p ∈ L 2, 1 ≤ p ∧ p ≤ n) (hne : L 2 ≠ []) (hig : ∀ p ≤ n, ∃ v, M.ignore p = some v) :
    ∃ r, memHv3dRefAt pos x ref n d (L 2).length M = some r := by
  obtain ⟨nx, pv, hM, hlk⟩ := id hML
  obtain ⟨pp, l2, hL⟩ := List.exists_cons_of_ne_nil hne
  have hpp := hb pp (by rw [hL]; simp)
  have hl := hlk 2 hd
  rw [hL] at hl
  have h0 : M.next 2 0 = some pp := by rw [(hM 2 hd 0 (by omega)).1, hl.1]
  have hnext : M.next 2 pp = some (l2.headD 0) := by
    rw [(hM 2 hd pp hpp.2).1, (LinkedFrom.at (l1 := []) hl).2.2.1]
  have hq : decide ((L 2).length = 1) = false → M.next 2 pp = some (l2.headD 0) ∧ 1 ≤ l2.headD 0 ∧ l2.headD 0 ≤ n := by
    intro h
    cases l2 with
    | nil => rw [hL] at h; simp at h
    | cons q l2 => exact ⟨hnext, hb q (by rw [hL]; simp)⟩
  obtain ⟨height, hh⟩ := memHeight_ok x ref n d hd (decide ((L 2).length = 1)) pp (l2.headD 0) hpp M hq
  have hd0 : 0 < d := by omega
  have hd1 : 1 < d := by omega
  have e0 : rdData x n d pp 0 = some (x pp 0) := by simp [rdData, hpp.1, hpp.2, hd0]
  have e1 : rdData x n d pp 1 = some (x pp 1) := by simp [rdData, hpp.1, hpp.2, hd1]
  have f0 : rdRef ref d 0 = some (ref 0) := by simp [rdRef, hd0]
  have f1 : rdRef ref d 1 = some (ref 1) := by simp [rdRef, hd1]
  cases l2 with
  | nil =>
    refine ⟨((ref 0 - x pp 0) * (ref 1 - x pp 1) * height, M), ?_⟩
    simp only [memHv3dRefAt, h0, e0, e1, f0, f1, hh, hnext, bind, Option.bind_some, List.headD_nil, if_true]
  | cons q l2 =>
    have hq0 : q ≠ 0 := by have := hb q (by rw [hL]; simp); omega
    obtain ⟨r', hr'⟩ := memHv3dLoopAt_ok pos x ref n d hd (L 2).length [pp] q l2 [pp] ((ref 0 - x pp 0) * (ref 1 - x pp 1))
      ((ref 0 - x pp 0) * (ref 1 - x pp 1) * height) M L hML (by rw [hL]; simp) hnd hb (by rw [hL]; simp) (by simpa using hpp) hig
    refine ⟨r', ?_⟩
    simp only [memHv3dRefAt, h0, e0, e1, f0, f1, hh, hnext, bind, Option.bind_some, List.headD_cons, hq0, if_false]
    exact hr'

/-- `fpli_hv` for three objectives gives a value. -/
theorem fpliHv3MemAt_ok (pos : ℕ → List ℕ → ℕ) (x : ℕ → ℕ → K) (n : ℕ) (ref : ℕ → K) (ords : ℕ → List ℕ) (b0 : K)
    (hords : ∀ i < 3, (ords i).Perm (List.range' 1 n)) : ∃ v, fpliHv3MemAt pos x n ref ords b0 = some v := by
  obtain ⟨M, h1, h2⟩ := memSetup_lists n 3 ords b0 hords
  have hr : ∀ p, p ∈ List.range' 1 n ↔ 1 ≤ p ∧ p ≤ n := by intro p; rw [List.mem_range'_1]; omega
  obtain ⟨A, M', L', g1, g2, g3, g4, g5, g6, g7⟩ := memFilterRef_ok x ref n 3 (List.range' 1 n) M ords h2 hords (List.nodup_range' ..)
    (fun p hp => (hr p).1 hp) 3 le_rfl
  rw [List.length_range'] at g1
  have hig : ∀ p ≤ n, ∃ v, M'.ignore p = some v := by
    intro p hp
    have e1 := memFilterRef_ignore x ref n 3 3 n M _ g1
    have e2 := memLinkAll_ignore n 3 ords 3 _ M h1
    exact ⟨0, by rw [e1, e2]; simp [hp]⟩
  have hp2 := (g3 2 (by omega)).1
  have hAb : ∀ p ∈ A, 1 ≤ p ∧ p ≤ n := fun p hp => (hr p).1 (g5 hp)
  unfold fpliHv3MemAt
  simp only [h1, g1, bind, Option.bind_some]
  by_cases hA0 : A.length = 0
  · rw [if_pos hA0]; exact ⟨_, rfl⟩
  · rw [if_neg hA0]
    by_cases hA1 : A.length = 1
    · rw [if_pos hA1]
      obtain ⟨p, hp⟩ := List.length_eq_one_iff.1 hA1
      obtain ⟨nx, pv, k1, k2⟩ := g2
      have hn0 : M'.next 0 0 = some p := by
        have hl := k2 0 (by omega)
        have hperm := (g3 0 (by omega)).1
        rw [hp] at hperm
        rw [List.perm_singleton.1 hperm] at hl
        rw [(k1 0 (by omega) 0 (by omega)).1, hl.1]
      exact ⟨_, by rw [hn0, Option.bind_some, memBox_ok x ref n 3 p (hAb p (by simp [hp])) 3 le_rfl]⟩
    · rw [if_neg hA1]
      obtain ⟨r, hr'⟩ := memHv3dRefAt_ok pos x ref n 3 (by omega) M' L' g2 (hp2.nodup_iff.2 g4) (fun p hp => hAb p (hp2.mem_iff.1 hp))
        (by intro h; rw [h] at hp2; have := hp2.length_eq; simp at this; omega) hig
      rw [hp2.length_eq] at hr'
      exact ⟨r.1, by rw [hr']; rfl⟩

/-! ## The model of `HvMem.lean` is the case in which the search ends before the first item that is not smaller -/

/-- Where the search of the model in `HvMem.lean` ends. -/
def firstNotSmaller (x : ℕ → ℕ → K) (pp : ℕ) (T : List ℕ) : ℕ := (T.takeWhile (fun t => decide (0 < compareTreeAsc (x pp) (x t)))).length

theorem hv3dUpdate_eq (x : ℕ → ℕ → K) (ref : ℕ → K) (T : List ℕ) (pp : ℕ) (hypera : K) :
    hv3dUpdate x ref T pp hypera = hv3dUpdateAt x ref (T.take (firstNotSmaller x pp T)) (T.drop (firstNotSmaller x pp T)) pp hypera := by
  have e := List.takeWhile_append_dropWhile (p := fun t => decide (0 < compareTreeAsc (x pp) (x t))) (l := T)
  have h1 : T.take (firstNotSmaller x pp T) = T.takeWhile (fun t => decide (0 < compareTreeAsc (x pp) (x t))) := by
    conv_lhs => rw [← e]
    rw [firstNotSmaller, List.take_left']
    rw [e]
  have h2 : T.drop (firstNotSmaller x pp T) = T.dropWhile (fun t => decide (0 < compareTreeAsc (x pp) (x t))) := by
    conv_lhs => rw [← e]
    rw [firstNotSmaller, List.drop_left']
    rw [e]
  rw [h1, h2]
  rfl

theorem memHv3dBody_of (x : ℕ → ℕ → K) (ref : ℕ → K) (n pp : ℕ) (T : List ℕ) (hypera hyperv height : K) (M : HvMem K) (r : List ℕ × K × K × HvMem K)
    (h : memHv3dBodyAt (firstNotSmaller x) x ref n pp T hypera hyperv height M = some r) : memHv3dBody x ref n pp T hypera hyperv height M = some r := by
  unfold memHv3dBodyAt at h
  unfold memHv3dBody
  rw [hv3dUpdate_eq]
  cases hi : M.ignore pp with
  | none => rw [hi] at h; exact absurd h (by simp)
  | some ig =>
    rw [hi] at h
    simp only [bind, Option.bind_some] at h ⊢
    by_cases h2 : ig ≥ 2
    · rw [if_pos h2] at h ⊢; exact h
    · rw [if_neg h2] at h ⊢
      by_cases hT : T ≠ [] ∧ ∀ t ∈ pp :: T, 1 ≤ t ∧ t ≤ n
      · rw [if_pos hT] at h
        rw [if_pos hT.2]
        exact h
      · rw [if_neg hT] at h; exact absurd h (by simp)

theorem memHv3dLoop_of (x : ℕ → ℕ → K) (ref : ℕ → K) (n d : ℕ) : ∀ (fuel pp : ℕ) (T : List ℕ) (hypera hyperv : K) (M : HvMem K) (r : K × HvMem K),
    memHv3dLoopAt (firstNotSmaller x) x ref n d fuel pp T hypera hyperv M = some r → memHv3dLoop x ref n d fuel pp T hypera hyperv M = some r := by
  intro fuel
  induction fuel with
  | zero => intro pp T hypera hyperv M r h; exact absurd h (by simp [memHv3dLoopAt])
  | succ fuel ih =>
    intro pp T hypera hyperv M r h
    simp only [memHv3dLoopAt, bind, Option.bind_eq_some_iff] at h
    obtain ⟨last, h1, height, h2, s, h3, q, h4, h5⟩ := h
    simp only [memHv3dLoop, bind, h1, h2, memHv3dBody_of x ref n pp T hypera hyperv height M s h3, h4, Option.bind_some]
    by_cases hq : q = 0
    · rw [if_pos hq] at h5 ⊢; exact h5
    · rw [if_neg hq] at h5 ⊢; exact ih _ _ _ _ _ _ h5

theorem fpliHvMem_three (x : ℕ → ℕ → K) (n : ℕ) (ref : ℕ → K) (ords : ℕ → List ℕ) (b0 v : K) (h : fpliHv3MemAt (firstNotSmaller x) x n ref ords b0 = some v) :
    fpliHvMem x 3 n ref ords b0 = some v := by
  simp only [fpliHv3MemAt, bind, Option.bind_eq_some_iff] at h
  obtain ⟨M, h1, r, h2, h3⟩ := h
  simp only [fpliHvMem, bind, h1, h2, Option.bind_some]
  by_cases h0 : r.1 = 0
  · rw [if_pos h0] at h3 ⊢; exact h3
  · rw [if_neg h0] at h3 ⊢
    by_cases h1' : r.1 = 1
    · rw [if_pos h1'] at h3 ⊢
      obtain ⟨p, e1, e2⟩ := Option.bind_eq_some_iff.1 h3
      rw [e1]; exact e2
    · rw [if_neg h1'] at h3 ⊢
      obtain ⟨s, e1, e2⟩ := Option.bind_eq_some_iff.1 h3
      simp only [memHv3dRefAt, bind, Option.bind_eq_some_iff] at e1
      obtain ⟨pp, k1, a, k2, b, k3, c, k4, e, k5, ht, k6, q, k7, k8⟩ := e1
      simp only [Nat.sub_self, memRec, memHv3dRef, bind, k1, k2, k3, k4, k5, k6, k7, Option.bind_some]
      by_cases hq : q = 0
      · rw [if_pos hq] at k8 ⊢
        cases k8
        exact e2
      · rw [if_neg hq] at k8 ⊢
        rw [memHv3dLoop_of _ _ _ _ _ _ _ _ _ _ _ k8]
        exact e2

end Moo
