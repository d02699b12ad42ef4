import Verif.Lemmas.Nondominated
import Mathlib.Data.List.Nodup
import Mathlib.Data.List.Range
import Mathlib.Tactic.Ring
import Mathlib.Tactic.Push

set_option autoImplicit false

/-! # Helper lemmas for dominance filtering: the two-objective scan -/

namespace Moo

section
variable {α : Type*} [LinearOrder α]

/-- lexicographic order of rows in two objectives -/
def lex2 (pts : ℕ → ℕ → α) (a b : ℕ) : Prop :=
  pts a 0 < pts b 0 ∨ (pts a 0 = pts b 0 ∧ pts a 1 ≤ pts b 1)

theorem compareXascYasc_le (p q : ℕ → α) :
    compareXascYasc p q ≤ 0 ↔ (p 0 < q 0 ∨ (p 0 = q 0 ∧ p 1 ≤ q 1)) := by
  unfold compareXascYasc
  rcases lt_trichotomy (p 0) (q 0) with h | h | h
  · simp [h]
  · rcases lt_trichotomy (p 1) (q 1) with h' | h' | h'
    · simp [h, h', h'.le]
    · simp [h, h']
    · simp [h, h', not_lt.2 h'.le]
  · simp [h, not_lt.2 h.le, ne_of_gt h]

theorem sorted_lex {pts : ℕ → ℕ → α} {size : ℕ} {p : List ℕ} (h : SortedPP2d pts size p) :
    p.Pairwise (lex2 pts) :=
  h.2.imp (fun hab => (compareXascYasc_le _ _).1 hab)

theorem sorted_nodup {pts : ℕ → ℕ → α} {size : ℕ} {p : List ℕ} (h : SortedPP2d pts size p) :
    p.Nodup := h.1.nodup_iff.2 List.nodup_range

theorem sorted_mem {pts : ℕ → ℕ → α} {size : ℕ} {p : List ℕ} (h : SortedPP2d pts size p) (i : ℕ) :
    i ∈ p ↔ i < size := by rw [h.1.mem_iff, List.mem_range]

theorem sorted_length {pts : ℕ → ℕ → α} {size : ℕ} {p : List ℕ} (h : SortedPP2d pts size p) :
    p.length = size := by rw [h.1.length_eq, List.length_range]

/-- row `r` survives the scan after the rows `pre` -/
def Keepf (pts : ℕ → ℕ → α) (keep : Bool) (pre : List ℕ) (r : ℕ) : Prop :=
  ∀ q ∈ pre, pts q 1 ≤ pts r 1 → keep = true ∧ pts r 0 = pts q 0 ∧ pts r 1 = pts q 1

instance (pts : ℕ → ℕ → α) (keep : Bool) (pre : List ℕ) (r : ℕ) :
    Decidable (Keepf pts keep pre r) := by unfold Keepf; infer_instance

/-- state of the scan: `k` is the first row with the least second objective among `pre` -/
structure ScanInv (pts : ℕ → ℕ → α) (pre : List ℕ) (k : ℕ) : Prop where
  mem : k ∈ pre
  least : ∀ q ∈ pre, pts k 1 ≤ pts q 1
  first : ∀ q ∈ pre, pts q 1 ≤ pts k 1 → pts k 0 ≤ pts q 0

theorem scan_keepf {pts : ℕ → ℕ → α} {pre : List ℕ} {k j : ℕ} (hinv : ScanInv pts pre k)
    (hlex : ∀ q ∈ pre, lex2 pts q j) (keep : Bool) (hge : pts j 1 ≥ pts k 1) :
    (!keep || decide (pts j 0 ≠ pts k 0) || decide (pts j 1 ≠ pts k 1)) = true ↔
      ¬ Keepf pts keep pre j := by
  constructor
  · intro h hK
    obtain ⟨a, b, c⟩ := hK k hinv.mem hge
    simp [a, b, c] at h
  · intro h
    by_contra hc
    simp only [Bool.not_eq_true, Bool.or_eq_false_iff, Bool.not_eq_false', decide_eq_false_iff_not,
      not_not] at hc
    obtain ⟨⟨a, b⟩, c⟩ := hc
    apply h
    intro q hq hqj
    have h1 : pts q 1 ≤ pts k 1 := by rw [← c]; exact hqj
    have h2 := hinv.first q hq h1
    have h3 := hinv.least q hq
    refine ⟨a, ?_, ?_⟩
    · rcases hlex q hq with hl | hl
      · rw [b] at hl; exact absurd hl (not_lt.2 h2)
      · exact hl.1.symm
    · exact le_antisymm (by rw [c]; exact h3) hqj

theorem ScanInv.keep_k {pts : ℕ → ℕ → α} {pre : List ℕ} {k j : ℕ} (hinv : ScanInv pts pre k)
    (hlex : ∀ q ∈ pre, lex2 pts q j) (hge : pts j 1 ≥ pts k 1) : ScanInv pts (pre ++ [j]) k where
  mem := by simp [hinv.mem]
  least := by
    intro q hq; rcases List.mem_append.1 hq with h | h
    · exact hinv.least q h
    · rw [List.mem_singleton] at h; subst h; exact hge
  first := by
    intro q hq hle; rcases List.mem_append.1 hq with h | h
    · exact hinv.first q h hle
    · rw [List.mem_singleton] at h; subst h
      rcases hlex k hinv.mem with h | h
      · exact h.le
      · exact h.1.le

theorem ScanInv.new_k {pts : ℕ → ℕ → α} {pre : List ℕ} {k j : ℕ} (hinv : ScanInv pts pre k)
    (hlt : pts j 1 < pts k 1) : ScanInv pts (pre ++ [j]) j where
  mem := by simp
  least := by
    intro q hq; rcases List.mem_append.1 hq with h | h
    · exact (hlt.trans_le (hinv.least q h)).le
    · rw [List.mem_singleton] at h; subst h; exact le_refl _
  first := by
    intro q hq hle; rcases List.mem_append.1 hq with h | h
    · exact absurd hle (not_le.2 (hlt.trans_le (hinv.least q h)))
    · rw [List.mem_singleton] at h; subst h; exact le_refl _

theorem keepf_of_lt {pts : ℕ → ℕ → α} {pre : List ℕ} {k j : ℕ} (hinv : ScanInv pts pre k)
    (keep : Bool) (hlt : pts j 1 < pts k 1) : Keepf pts keep pre j := by
  intro q hq hle
  exact absurd hle (not_le.2 (hlt.trans_le (hinv.least q hq)))

theorem nd2dScan_spec (pts : ℕ → ℕ → α) (keep : Bool) (pre : List ℕ) (k : ℕ) (rest : List ℕ)
    (nd : ℕ → Bool) (c : ℤ) (hinv : ScanInv pts pre k) (hs : (pre ++ rest).Pairwise (lex2 pts)) (pos : ℕ) :
    (∀ i < pos, (nd2dScan pts keep k pos rest nd c).1 i = nd i) ∧
    (∀ t (ht : t < rest.length), (nd2dScan pts keep k pos rest nd c).1 (pos + t) = true ↔
      (nd (pos + t) = true ∧ Keepf pts keep (pre ++ rest.take t) rest[t])) ∧
    (nd2dScan pts keep k pos rest nd c).2 = c +
      (((List.range rest.length).filter
        (fun t => !decide (∃ h : t < rest.length, Keepf pts keep (pre ++ rest.take t) rest[t]))).length : ℤ) := by
  induction rest generalizing pre k nd c pos with
  | nil => simp [nd2dScan]
  | cons j js ih =>
    have hs' : ((pre ++ [j]) ++ js).Pairwise (lex2 pts) := by simpa using hs
    have hlex : ∀ q ∈ pre, lex2 pts q j := by
      intro q hq
      exact (List.pairwise_append.1 hs).2.2 q hq j (by simp)
    have hcount : ∀ (P : ℕ → Bool), (((List.range (j :: js).length).filter P).length : ℤ) =
        (if P 0 then 1 else 0) + ((List.range js.length).filter (fun t => P (t + 1))).length := by
      intro P
      rw [List.length_cons, List.range_succ_eq_map, List.filter_cons, List.filter_map]
      split_ifs with h
      · simp only [List.length_cons, List.length_map]; push_cast; rw [add_comm]; rfl
      · simp only [List.length_map]; simp; rfl
    have hshift : ∀ t, (∃ h : t + 1 < (j :: js).length,
          Keepf pts keep (pre ++ (j :: js).take (t + 1)) (j :: js)[t + 1]) ↔
        (∃ h : t < js.length, Keepf pts keep ((pre ++ [j]) ++ js.take t) js[t]) := by
      intro t
      simp
    have h0 : (∃ h : 0 < (j :: js).length, Keepf pts keep (pre ++ (j :: js).take 0) (j :: js)[0]) ↔
        Keepf pts keep pre j := by simp
    rw [hcount]
    simp only [hshift, h0]
    unfold nd2dScan
    by_cases hge : pts j 1 ≥ pts k 1
    · have hk := scan_keepf hinv hlex keep hge
      by_cases hK : Keepf pts keep pre j
      · have hcond : ¬ ((!keep || decide (pts j 0 ≠ pts k 0) || decide (pts j 1 ≠ pts k 1)) = true) :=
          fun h => (hk.1 h) hK
        simp only [if_pos hge, if_neg hcond]
        obtain ⟨i1, i2, i3⟩ := ih (pre ++ [j]) k nd c (hinv.keep_k hlex hge) hs' (pos + 1)
        refine ⟨fun i hi => i1 i (by omega), ?_, ?_⟩
        · intro t ht
          cases t with
          | zero => simp [i1 pos (by omega), hK]
          | succ t =>
            have := i2 t (by simpa using ht)
            rw [show pos + 1 + t = pos + (t + 1) by omega] at this
            rw [this]; simp
        · rw [i3]; simp [hK]
      · have hcond := hk.2 hK
        simp only [if_pos hge, if_pos hcond]
        obtain ⟨i1, i2, i3⟩ := ih (pre ++ [j]) k (upd nd pos false) (c + 1) (hinv.keep_k hlex hge) hs' (pos + 1)
        refine ⟨?_, ?_, ?_⟩
        · intro i hi; rw [i1 i (by omega)]; exact upd_ne _ _ (by omega)
        · intro t ht
          cases t with
          | zero => simp [i1 pos (by omega), hK]
          | succ t =>
            have := i2 t (by simpa using ht)
            rw [show pos + 1 + t = pos + (t + 1) by omega] at this
            rw [this, upd_ne _ _ (by omega)]; simp
        · rw [i3]; simp [hK]; ring
    · have hlt : pts j 1 < pts k 1 := not_le.1 hge
      have hK := keepf_of_lt hinv keep hlt
      simp only [if_neg hge]
      obtain ⟨i1, i2, i3⟩ := ih (pre ++ [j]) j nd c (hinv.new_k hlt) hs' (pos + 1)
      refine ⟨fun i hi => i1 i (by omega), ?_, ?_⟩
      · intro t ht
        cases t with
        | zero => simp [i1 pos (by omega), hK]
        | succ t =>
          have := i2 t (by simpa using ht)
          rw [show pos + 1 + t = pos + (t + 1) by omega] at this
          rw [this]; simp
      · rw [i3]; simp [hK]

theorem scanInv_single (pts : ℕ → ℕ → α) (k : ℕ) : ScanInv pts [k] k where
  mem := by simp
  least := by simp
  first := by simp

theorem keepf_nil (pts : ℕ → ℕ → α) (keep : Bool) (k : ℕ) : Keepf pts keep [] k := by
  intro q hq; simp at hq

/-- the scan started on a whole sorted list -/
theorem nd2dScan_start (pts : ℕ → ℕ → α) (keep : Bool) (k : ℕ) (js : List ℕ)
    (nd : ℕ → Bool) (hs : (k :: js).Pairwise (lex2 pts)) (hnd : ∀ t < (k :: js).length, nd t = true) :
    (∀ t (ht : t < (k :: js).length), (nd2dScan pts keep k 1 js nd 0).1 t =
       decide (Keepf pts keep ((k :: js).take t) (k :: js)[t])) ∧
    (nd2dScan pts keep k 1 js nd 0).2 =
      (((List.range (k :: js).length).filter
        (fun t => !(nd2dScan pts keep k 1 js nd 0).1 t)).length : ℤ) := by
  obtain ⟨i1, i2, i3⟩ := nd2dScan_spec pts keep [k] k js nd 0 (scanInv_single pts k) (by simpa using hs) 1
  have key : ∀ t (ht : t < (k :: js).length), (nd2dScan pts keep k 1 js nd 0).1 t =
       decide (Keepf pts keep ((k :: js).take t) (k :: js)[t]) := by
    intro t ht
    cases t with
    | zero => rw [i1 0 (by omega), hnd 0 (by simp)]; simp [keepf_nil]
    | succ t =>
      have := i2 t (by simpa using ht)
      rw [show 1 + t = t + 1 by omega] at this
      rw [Bool.eq_iff_iff, this, hnd _ ht, decide_eq_true_iff]; simp
  refine ⟨key, ?_⟩
  rw [i3, List.length_cons, List.range_succ_eq_map, List.filter_cons, List.filter_map]
  rw [key 0 (by simp)]
  simp only [List.take_zero, List.getElem_cons_zero, keepf_nil, decide_true, Bool.not_true,
    Bool.false_eq_true, if_false, List.length_map, zero_add]
  congr 2
  apply List.filter_congr
  intro t ht
  rw [List.mem_range] at ht
  simp only [Function.comp]
  rw [key (t + 1) (by simpa using ht), Bool.eq_iff_iff, Bool.not_eq_true', Bool.not_eq_true', decide_eq_false_iff_not,
    decide_eq_false_iff_not]
  simp [ht]

theorem ndUnsort_other (nd : ℕ → Bool) (pos : ℕ) (rs : List ℕ) (new : ℕ → Bool) (r : ℕ) (h : r ∉ rs) :
    ndUnsort nd pos rs new r = new r := by
  induction rs generalizing pos new with
  | nil => rfl
  | cons a rs ih =>
    simp only [List.mem_cons, not_or] at h
    unfold ndUnsort
    rw [ih _ _ h.2, upd_ne _ _ h.1]

theorem ndUnsort_get (nd : ℕ → Bool) (pos : ℕ) (rs : List ℕ) (new : ℕ → Bool) (hn : rs.Nodup)
    (t : ℕ) (ht : t < rs.length) : ndUnsort nd pos rs new rs[t] = nd (pos + t) := by
  induction rs generalizing pos new t with
  | nil => simp at ht
  | cons a rs ih =>
    unfold ndUnsort
    rw [List.nodup_cons] at hn
    cases t with
    | zero => simp only [List.getElem_cons_zero]; rw [ndUnsort_other _ _ _ _ _ hn.1]; simp
    | succ t =>
      simp only [List.getElem_cons_succ]
      rw [ih _ _ hn.2 t (by simpa using ht)]
      congr 1; omega

/-- in two (minimised) objectives: row `a` is weakly better than row `b` -/
def le2 (pts : ℕ → ℕ → α) (a b : ℕ) : Prop := pts a 0 ≤ pts b 0 ∧ pts a 1 ≤ pts b 1

/-- row `a` eliminates row `b` in the scan of the sorted list `p` -/
def Beats2 (pts : ℕ → ℕ → α) (keep : Bool) (p : List ℕ) (a b : ℕ) : Prop :=
  le2 pts a b ∧ (¬ le2 pts b a ∨ (keep = false ∧ p.idxOf a < p.idxOf b))

theorem keepf_iff {pts : ℕ → ℕ → α} {p : List ℕ} (keep : Bool) (hs : p.Pairwise (lex2 pts))
    (hn : p.Nodup) (t : ℕ) (ht : t < p.length) :
    Keepf pts keep (p.take t) p[t] ↔ ∀ q ∈ p, ¬ Beats2 pts keep p q p[t] := by
  have hidx : p.idxOf p[t] = t := hn.idxOf_getElem t ht
  constructor
  · rintro hK q hq ⟨hle, hb⟩
    obtain ⟨s, hs', rfl⟩ := List.mem_iff_getElem.1 hq
    have hidx' : p.idxOf p[s] = s := hn.idxOf_getElem s hs'
    rw [hidx, hidx'] at hb
    by_cases hst : s < t
    · have : p[s] ∈ p.take t := by
        rw [List.mem_take_iff_getElem]
        exact ⟨s, by omega, rfl⟩
      obtain ⟨a, b, c⟩ := hK _ this hle.2
      rcases hb with hb | hb
      · exact hb ⟨b.le, c.le⟩
      · simp [a] at hb
    · have hle' : le2 pts p[t] p[s] := by
        rcases Nat.lt_or_eq_of_le (not_lt.1 hst) with h | h
        · rcases List.pairwise_iff_getElem.1 hs t s ht hs' h with hl | hl
          · exact absurd hle.1 (not_le.2 hl)
          · exact ⟨hl.1.le, hl.2⟩
        · subst h; exact ⟨le_refl _, le_refl _⟩
      rcases hb with hb | hb
      · exact hb hle'
      · omega
  · intro h q hq hy
    obtain ⟨s, hs', rfl⟩ := List.mem_take_iff_getElem.1 hq
    have hst : s < t := by omega
    have hsl : s < p.length := by omega
    have hx : pts p[s] 0 ≤ pts p[t] 0 := by
      rcases List.pairwise_iff_getElem.1 hs s t hsl ht hst with hl | hl
      · exact hl.le
      · exact hl.1.le
    have hidx' : p.idxOf p[s] = s := hn.idxOf_getElem s hsl
    have := h _ (List.getElem_mem hsl)
    unfold Beats2 at this
    rw [hidx, hidx'] at this
    simp only [not_and, not_or, not_not] at this
    obtain ⟨h1, h2⟩ := this ⟨hx, hy⟩
    refine ⟨?_, le_antisymm h1.1 hx, le_antisymm h1.2 hy⟩
    cases keep
    · exact absurd hst (h2 rfl)
    · rfl

theorem filter_length_perm {p : List ℕ} {size : ℕ} (hp : p.Perm (List.range size)) (f : ℕ → Bool) :
    ((List.range p.length).filter (fun t => f (p.getD t 0))).length = ((List.range size).filter f).length := by
  rw [← (hp.filter f).length_eq]
  have : p = (List.range p.length).map (fun t => p.getD t 0) := by
    apply List.ext_getElem
    · simp
    · intro i h1 h2; simp [h1]
  conv_rhs => rw [this]
  rw [List.filter_map, List.length_map]
  simp only [Function.comp_def]

/-- The two-objective filter leaves exactly the rows that no row beats, and returns the number
of rows that it has *cleared*. -/
theorem findNondominatedSet2d_spec {pts : ℕ → ℕ → α} {size : ℕ} {p : List ℕ} (keep : Bool)
    (garbage nd : ℕ → Bool) (hs : SortedPP2d pts size p) (hnd : ∀ i < size, nd i = true) :
    (∀ i < size, (findNondominatedSet2d pts keep garbage nd p).2 i = true ↔
      ∀ j < size, ¬ Beats2 pts keep p j i) ∧
    (findNondominatedSet2d pts keep garbage nd p).1 =
      (((List.range size).filter
        (fun i => !(findNondominatedSet2d pts keep garbage nd p).2 i)).length : ℤ) := by
  have hlex := sorted_lex hs
  have hn := sorted_nodup hs
  have hmem := sorted_mem hs
  have hlen := sorted_length hs
  have hperm := hs.1
  cases p with
  | nil =>
    simp only [List.length_nil] at hlen
    subst hlen
    simp [findNondominatedSet2d]
  | cons k js =>
    obtain ⟨h1, h2⟩ := nd2dScan_start pts keep k js nd hlex (by rw [hlen]; exact hnd)
    have hget : ∀ t (ht : t < (k :: js).length),
        (findNondominatedSet2d pts keep garbage nd (k :: js)).2 (k :: js)[t] =
          (nd2dScan pts keep k 1 js nd 0).1 t := by
      intro t ht
      unfold findNondominatedSet2d
      simp only
      rw [ndUnsort_get _ _ _ _ hn t ht, Nat.zero_add]
    constructor
    · intro i hi
      obtain ⟨t, ht, rfl⟩ := List.mem_iff_getElem.1 ((hmem i).2 hi)
      rw [hget t ht, h1 t ht, decide_eq_true_iff, keepf_iff keep hlex hn t ht]
      constructor
      · intro h j hj; exact h j ((hmem j).2 hj)
      · intro h j hj; exact h j ((hmem j).1 hj)
    · have : (findNondominatedSet2d pts keep garbage nd (k :: js)).1 =
        (nd2dScan pts keep k 1 js nd 0).2 := rfl
      rw [this, h2]
      rw [← filter_length_perm hperm]
      congr 2
      apply List.filter_congr
      intro t ht
      rw [List.mem_range] at ht
      rw [← hget t ht, List.getD_eq_getElem?_getD, List.getElem?_eq_getElem ht, Option.getD_some]

/-! ## search of one dominated row -/

theorem findDominated2dScan_spec (pts : ℕ → ℕ → α) (keep : Bool) (pre : List ℕ) (k : ℕ) (rest : List ℕ)
    (hinv : ScanInv pts pre k) (hs : (pre ++ rest).Pairwise (lex2 pts)) :
    ((∀ t (ht : t < rest.length), Keepf pts keep (pre ++ rest.take t) rest[t]) ∧
      findDominated2dScan pts keep k rest = -1) ∨
    (∃ t, ∃ ht : t < rest.length, ¬ Keepf pts keep (pre ++ rest.take t) rest[t] ∧
      findDominated2dScan pts keep k rest = rest[t]) := by
  induction rest generalizing pre k with
  | nil => left; simp [findDominated2dScan]
  | cons j js ih =>
    have hs' : ((pre ++ [j]) ++ js).Pairwise (lex2 pts) := by simpa using hs
    have hlex : ∀ q ∈ pre, lex2 pts q j := by
      intro q hq
      exact (List.pairwise_append.1 hs).2.2 q hq j (by simp)
    have lift : ∀ k', Keepf pts keep pre j → ScanInv pts (pre ++ [j]) k' →
        findDominated2dScan pts keep k (j :: js) = findDominated2dScan pts keep k' js →
        ((∀ t (ht : t < (j :: js).length), Keepf pts keep (pre ++ (j :: js).take t) (j :: js)[t]) ∧
          findDominated2dScan pts keep k (j :: js) = -1) ∨
        (∃ t, ∃ ht : t < (j :: js).length, ¬ Keepf pts keep (pre ++ (j :: js).take t) (j :: js)[t] ∧
          findDominated2dScan pts keep k (j :: js) = ((j :: js)[t] : ℕ)) := by
      intro k' hK hi he
      rw [he]
      rcases ih (pre ++ [j]) k' hi hs' with ⟨h1, h2⟩ | ⟨t, ht, h1, h2⟩
      · left
        refine ⟨?_, h2⟩
        intro t ht
        cases t with
        | zero => simpa using hK
        | succ t => simpa using h1 t (by simpa using ht)
      · right
        exact ⟨t + 1, by simpa using ht, by simpa using h1, by simpa using h2⟩
    by_cases hge : pts j 1 ≥ pts k 1
    · have hk := scan_keepf hinv hlex keep hge
      by_cases hK : Keepf pts keep pre j
      · have hcond : ¬ ((!keep || decide (pts j 0 ≠ pts k 0) || decide (pts j 1 ≠ pts k 1)) = true) :=
          fun h => (hk.1 h) hK
        apply lift k hK (hinv.keep_k hlex hge)
        conv_lhs => unfold findDominated2dScan
        rw [if_pos hge, if_neg hcond]
      · right
        refine ⟨0, by simp, by simpa using hK, ?_⟩
        unfold findDominated2dScan
        rw [if_pos hge, if_pos (hk.2 hK)]; simp
    · have hlt : pts j 1 < pts k 1 := not_le.1 hge
      apply lift j (keepf_of_lt hinv keep hlt) (hinv.new_k hlt)
      conv_lhs => unfold findDominated2dScan
      rw [if_neg hge]

theorem findDominated2d_spec {pts : ℕ → ℕ → α} {size : ℕ} {p : List ℕ} (keep : Bool)
    (hs : SortedPP2d pts size p) :
    ((∀ i < size, ∀ j < size, ¬ Beats2 pts keep p j i) ∧ findDominated2d pts keep p = -1) ∨
    (∃ i < size, ∃ j < size, Beats2 pts keep p j i ∧ findDominated2d pts keep p = i) := by
  have hlex := sorted_lex hs
  have hn := sorted_nodup hs
  have hmem := sorted_mem hs
  have hlen := sorted_length hs
  cases p with
  | nil =>
    simp only [List.length_nil] at hlen
    subst hlen
    left; simp [findDominated2d]
  | cons k js =>
    rcases findDominated2dScan_spec pts keep [k] k js (scanInv_single pts k) (by simpa using hlex) with
      ⟨h1, h2⟩ | ⟨t, ht, h1, h2⟩
    · left
      refine ⟨?_, h2⟩
      intro i hi j hj
      obtain ⟨t, ht, rfl⟩ := List.mem_iff_getElem.1 ((hmem i).2 hi)
      have hK : Keepf pts keep ((k :: js).take t) (k :: js)[t] := by
        cases t with
        | zero => simpa using keepf_nil pts keep k
        | succ t => simpa using h1 t (by simpa using ht)
      exact (keepf_iff keep hlex hn t ht).1 hK j ((hmem j).2 hj)
    · right
      have ht' : t + 1 < (k :: js).length := by simpa using ht
      have hK : ¬ Keepf pts keep ((k :: js).take (t + 1)) (k :: js)[t + 1] := by simpa using h1
      rw [keepf_iff keep hlex hn (t + 1) ht'] at hK
      push Not at hK
      obtain ⟨q, hq, hB⟩ := hK
      refine ⟨(k :: js)[t + 1], (hmem _).1 (List.getElem_mem ht'), q, (hmem q).1 hq, hB, ?_⟩
      simpa [findDominated2d] using h2

end

end Moo
