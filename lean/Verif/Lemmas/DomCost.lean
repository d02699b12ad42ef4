import Verif.Model.DomCost
import Verif.Lemmas.HvCostLoops
import Verif.Lemmas.ParetoRank2d

/-!
# Number of steps of dominance filtering, nondominated sorting and the epsilon indicators
-/

set_option autoImplicit false
set_option linter.unusedSectionVars false

namespace Moo

theorem forT_runs {σ : Type} {g : σ → ℕ → Tm σ} {f : σ → ℕ → σ} {B : ℕ} (h : ∀ s k, Runs (g s k) (f s k) B) :
    ∀ (l : List ℕ) (s : σ), Runs (forT g l s) (l.foldl f s) (l.length * (B + 1))
  | [], s => (Runs.ret s).mono (by simp)
  | k :: ks, s => by
    refine Runs.tickB (B := B + ks.length * (B + 1)) ((h s k).bind (forT_runs h ks (f s k))) ?_
    rw [List.length_cons, Nat.succ_mul]; omega

theorem forT_ret_runs {σ : Type} (f : σ → ℕ → σ) (l : List ℕ) (s : σ) : Runs (forT (fun s k => Tm.ret (f s k)) l s) (l.foldl f s) l.length :=
  (forT_runs (B := 0) (fun s k => Runs.ret (f s k)) l s).mono (by simp)

section
variable {α : Type} [LinearOrder α]

theorem leqPairT_runs (dim : ℕ) (minmax : ℕ → ℤ) (agree : ℤ) (pj pk : ℕ → α) : Runs (leqPairT dim minmax agree pj pk) (leqPair dim minmax agree pj pk) dim := by
  have := forT_ret_runs (fun (s : Bool × Bool) d =>
    if agree < 0 then (s.1 && decide (pj d ≤ pk d), s.2 && decide (pk d ≤ pj d))
    else if agree > 0 then (s.1 && decide (pj d ≥ pk d), s.2 && decide (pk d ≥ pj d))
    else if minmax d < 0 then (s.1 && decide (pj d ≤ pk d), s.2 && decide (pk d ≤ pj d))
    else if minmax d > 0 then (s.1 && decide (pj d ≥ pk d), s.2 && decide (pk d ≥ pj d))
    else s) (List.range dim) (true, true)
  rw [List.length_range] at this
  exact this

theorem ndInnerT_runs (pts : ℕ → ℕ → α) (dim : ℕ) (minmax : ℕ → ℤ) (agree : ℤ) (fd kw : Bool) (k : ℕ) : ∀ (js : List ℕ) (nd : ℕ → Bool),
    Runs (ndInnerT pts dim minmax agree fd kw k js nd) (ndInner pts dim minmax agree fd kw k js nd) (js.length * (dim + 1))
  | [], nd => (Runs.ret _).mono (by simp)
  | j :: js, nd => by
    rw [ndInnerT, ndInner]
    have hlen : dim + js.length * (dim + 1) + 1 ≤ (j :: js).length * (dim + 1) := by rw [List.length_cons, Nat.succ_mul]; omega
    refine Runs.tickB ?_ hlen
    split_ifs with h1 h2
    · exact (Runs.ret _).mono (by omega)
    · exact (ndInnerT_runs pts dim minmax agree fd kw k js nd).mono (by omega)
    · refine (leqPairT_runs dim minmax agree (pts j) (pts k)).bind ?_
      simp only
      split_ifs
      all_goals first
        | exact (Runs.ret _).mono (by omega)
        | exact ndInnerT_runs pts dim minmax agree fd kw k js _

theorem ndOuterT_runs (pts : ℕ → ℕ → α) (dim size : ℕ) (minmax : ℕ → ℤ) (agree : ℤ) (fd kw : Bool) : ∀ (ks : List ℕ) (nd : ℕ → Bool),
    Runs (ndOuterT pts dim size minmax agree fd kw ks nd) (ndOuter pts dim size minmax agree fd kw ks nd) (ks.length * ((size - 1) * (dim + 1) + 1))
  | [], nd => (Runs.ret _).mono (by simp)
  | k :: ks, nd => by
    rw [ndOuterT, ndOuter]
    have hin := ndInnerT_runs pts dim minmax agree fd kw k (List.range' (k + 1) (size - (k + 1))) nd
    rw [List.length_range'] at hin
    have hle : (size - (k + 1)) * (dim + 1) ≤ (size - 1) * (dim + 1) := Nat.mul_le_mul_right _ (by omega)
    refine Runs.tickB ((hin.mono hle).bind (B2 := ks.length * ((size - 1) * (dim + 1) + 1)) ?_)
      (by rw [List.length_cons, Nat.succ_mul]; omega)
    cases hr : ndInner pts dim minmax agree fd kw k (List.range' (k + 1) (size - (k + 1))) nd with
    | cont nd' => exact ndOuterT_runs pts dim size minmax agree fd kw ks nd'
    | ret r nd' => exact (Runs.ret _).mono (by omega)
    | assertFail => exact (Runs.ret _).mono (by omega)

theorem findDominated2dScanT_runs (pts : ℕ → ℕ → α) (kw : Bool) : ∀ (js : List ℕ) (k : ℕ),
    Runs (findDominated2dScanT pts kw k js) (findDominated2dScan pts kw k js) (js.length + 1)
  | [], k => Runs.tickB (Runs.ret _) (by simp)
  | j :: js, k => by
    rw [findDominated2dScanT, findDominated2dScan]
    refine Runs.tickB (B := js.length + 1) ?_ (by simp)
    split_ifs
    all_goals first
      | exact (Runs.ret _).mono (by omega)
      | exact findDominated2dScanT_runs pts kw js _

theorem findDominated2dT_runs (pts : ℕ → ℕ → α) (kw : Bool) (p : List ℕ) : Runs (findDominated2dT pts kw p) (findDominated2d pts kw p) (2 * p.length) := by
  cases p with
  | nil => exact (Runs.ret _).mono (by omega)
  | cons k js => exact Runs.ticksB (findDominated2dScanT_runs pts kw js k) (by simp; omega)

theorem nd2dScanT_runs (pts : ℕ → ℕ → α) (kw : Bool) : ∀ (js : List ℕ) (k pos : ℕ) (nd : ℕ → Bool) (c : ℤ),
    Runs (nd2dScanT pts kw k pos js nd c) (nd2dScan pts kw k pos js nd c) (js.length + 1)
  | [], k, pos, nd, c => Runs.tickB (Runs.ret _) (by simp)
  | j :: js, k, pos, nd, c => by
    rw [nd2dScanT, nd2dScan]
    refine Runs.tickB (B := js.length + 1) ?_ (by simp)
    split_ifs
    all_goals exact nd2dScanT_runs pts kw js _ _ _ _

theorem ndUnsortT_runs (nd : ℕ → Bool) : ∀ (rs : List ℕ) (pos : ℕ) (new : ℕ → Bool), Runs (ndUnsortT nd pos rs new) (ndUnsort nd pos rs new) rs.length
  | [], pos, new => Runs.ret _
  | r :: rs, pos, new => Runs.tickB (ndUnsortT_runs nd rs _ _) (by simp)

theorem nondomInitT_runs (n : ℕ) : Runs (nondomInitT n) nondomInit n := Runs.ticksB (Runs.ret _) (by omega)

theorem minmaxFromBoolT_runs (d : ℕ) (maximise : ℕ → Bool) : Runs (minmaxFromBoolT d maximise) (minmaxFromBool maximise) d := Runs.ticksB (Runs.ret _) (by omega)

theorem findNondominatedSet2dT_runs (pts : ℕ → ℕ → α) (kw : Bool) (garbage nd : ℕ → Bool) (p : List ℕ) :
    Runs (findNondominatedSet2dT pts kw garbage nd p) (findNondominatedSet2d pts kw garbage nd p) (4 * p.length) := by
  cases p with
  | nil => exact (Runs.ret _).mono (by omega)
  | cons k js =>
    refine Runs.ticksB (B := 3 * (k :: js).length) (((nd2dScanT_runs pts kw js k 1 nd 0).bind' (B2 := 2 * (k :: js).length)) ?_ (by simp; omega)) (by omega)
    exact ((ndUnsortT_runs _ (k :: js) 0 garbage).bind' (B2 := (k :: js).length)) (Runs.ticksB (Runs.ret _) (by omega)) (by omega)

theorem countFlagsT_runs (nd : ℕ → Bool) (size : ℕ) : Runs (countFlagsT nd size) (countFlags nd size) size := by
  have := forT_ret_runs (fun (c : ℤ) k => if nd k then c + 1 else c) (List.range size) 0
  rw [List.length_range] at this
  exact this

/-! ### Nondominated sorting -/

theorem rkDominatesT_runs (pj pk : ℕ → α) (dim : ℕ) : Runs (rkDominatesT pj pk dim) (rkDominates pj pk dim) dim := by
  have := forT_ret_runs (fun s d => s && decide (pj d ≤ pk d)) (List.range dim) true
  rw [List.length_range] at this
  exact this

theorem rkInnerT_runs (pts : ℕ → ℕ → α) (dim level j : ℕ) : ∀ (ks : List ℕ) (rank : ℕ → ℕ) (nn : Bool),
    Runs (rkInnerT pts dim level j ks rank nn) (rkInner pts dim level j ks rank nn) (ks.length * (2 * dim + 1))
  | [], rank, nn => (Runs.ret _).mono (by simp)
  | k :: ks, rank, nn => by
    rw [rkInnerT, rkInner]
    have hlen : dim + (dim + ks.length * (2 * dim + 1)) + 1 ≤ (k :: ks).length * (2 * dim + 1) := by rw [List.length_cons, Nat.succ_mul ks.length]; omega
    refine Runs.tickB ?_ hlen
    split_ifs with h1 h2
    · exact (rkInnerT_runs pts dim level j ks _ _).mono (by omega)
    · exact (rkInnerT_runs pts dim level j ks _ _).mono (by omega)
    · refine (rkDominatesT_runs _ _ dim).bind ((rkDominatesT_runs _ _ dim).bind ?_)
      simp only
      split_ifs
      all_goals first
        | exact (Runs.ret _).mono (by omega)
        | exact rkInnerT_runs pts dim level j ks _ _

theorem rkPassT_runs (pts : ℕ → ℕ → α) (dim size level : ℕ) : ∀ (js : List ℕ) (rank : ℕ → ℕ) (nn : Bool),
    Runs (rkPassT pts dim size level js rank nn) (rkPass pts dim size level js rank nn) (js.length * (size * (2 * dim + 1) + 1))
  | [], rank, nn => (Runs.ret _).mono (by simp)
  | j :: js, rank, nn => by
    rw [rkPassT, rkPass]
    have hlen : size * (2 * dim + 1) + js.length * (size * (2 * dim + 1) + 1) + 1 ≤ (j :: js).length * (size * (2 * dim + 1) + 1) := by
      rw [List.length_cons, Nat.succ_mul js.length]; omega
    refine Runs.tickB ?_ hlen
    split_ifs with h1 h2
    · exact (rkPassT_runs pts dim size level js _ _).mono (by omega)
    · have := rkInnerT_runs pts dim level j (List.range size) rank nn
      rw [List.length_range] at this
      exact this.bind (rkPassT_runs pts dim size level js _ _)
    · exact (Runs.ret _).mono (by omega)

/-- If the levels end after at most `f0` iterations, no run with more fuel takes more steps. -/
theorem rkLevelsT_runs (pts : ℕ → ℕ → α) (dim size : ℕ) {r : ℕ → ℕ} : ∀ (f0 fuel level : ℕ) (rank : ℕ → ℕ), f0 ≤ fuel → rkLevels pts dim size f0 level rank = .done r →
    Runs (rkLevelsT pts dim size fuel level rank) (.done r) (f0 * (size * (size * (2 * dim + 1) + 1) + 1))
  | 0, _, _, _, _, h => by cases h
  | f0 + 1, 0, _, _, hf, _ => by omega
  | f0 + 1, fuel + 1, level, rank, hf, h => by
    rw [rkLevelsT]
    rw [rkLevels] at h
    have hp := rkPassT_runs pts dim size level (List.range size) rank true
    rw [List.length_range] at hp
    refine Runs.tickB (hp.bind (B2 := f0 * (size * (size * (2 * dim + 1) + 1) + 1)) ?_) (by rw [Nat.succ_mul f0]; omega)
    cases hr : rkPass pts dim size level (List.range size) rank true with
    | none => rw [hr] at h; cases h
    | some q =>
      obtain ⟨rank', nn⟩ := q
      rw [hr] at h
      simp only at h ⊢
      cases nn with
      | true =>
        simp only [if_true] at h ⊢
        cases h
        exact (Runs.ret _).mono (by omega)
      | false =>
        simp only [Bool.false_eq_true, if_false] at h ⊢
        exact rkLevelsT_runs pts dim size f0 fuel (level + 1) rank' (by omega) h

theorem rkSearchT_runs (pos : ℕ → ℕ → α) (fl : ℕ → ℕ) (nFront : ℕ) (p : ℕ → α) : ∀ (fuel low high r B : ℕ), low < high → high - low < 2 ^ B →
    rkSearch pos fl nFront p fuel low high = some r → Runs (rkSearchT pos fl nFront p fuel low high) r B
  | 0, _, _, _, _, _, _, h => by cases h
  | fuel + 1, low, high, r, 0, hlt, hB, h => by simp at hB; omega
  | fuel + 1, low, high, r, B + 1, hlt, hB, h => by
    rw [rkSearchT]
    rw [rkSearch] at h
    refine Runs.tickB (B := B) ?_ (le_refl _)
    rw [pow_succ] at hB
    simp only at h ⊢
    by_cases h1 : low + (high - low) / 2 ≤ nFront
    swap
    · rw [if_pos h1] at h; cases h
    rw [if_neg (by simpa using h1)] at h ⊢
    by_cases h2 : p 1 < pos (fl (low + (high - low) / 2)) 1
    · rw [if_pos h2] at h ⊢
      by_cases h3 : low < low + (high - low) / 2
      · rw [if_pos h3] at h ⊢
        exact rkSearchT_runs pos fl nFront p fuel _ _ r B h3 (by omega) h
      · rw [if_neg h3] at h ⊢
        cases h
        exact (Runs.ret _).mono (by omega)
    · rw [if_neg h2] at h ⊢
      by_cases h3 : p 1 > pos (fl (low + (high - low) / 2)) 1 ∨ (p 1 = pos (fl (low + (high - low) / 2)) 1 ∧ p 0 > pos (fl (low + (high - low) / 2)) 0)
      · rw [if_pos h3] at h ⊢
        by_cases h4 : low + (high - low) / 2 + 1 < high
        · rw [if_pos h4] at h ⊢
          exact rkSearchT_runs pos fl nFront p fuel _ _ r B h4 (by omega) h
        · rw [if_neg h4] at h ⊢
          cases h
          exact (Runs.ret _).mono (by omega)
      · rw [if_neg h3] at h ⊢
        cases h
        exact (Runs.ret _).mono (by omega)

theorem rk2dStepT_runs (pos : ℕ → ℕ → α) (k : ℕ) (s s' : Rk2d) (B : ℕ) (hB : s.nFront + 1 < 2 ^ B) (h : rk2dStep pos k s = some s') :
    Runs (rk2dStepT pos k s) s' B ∧ s'.nFront ≤ s.nFront + 1 := by
  unfold rk2dStep at h
  unfold rk2dStepT
  simp only at h ⊢
  by_cases h1 : pos k 1 < pos (s.last s.nFront) 1
  · rw [if_pos h1] at h ⊢
    cases hs : rkSearch pos s.last s.nFront (pos k) (s.nFront + 2) 0 (s.nFront + 1) with
    | none => rw [hs] at h; cases h
    | some low =>
      rw [hs] at h
      simp only at h
      have hrun := rkSearchT_runs pos s.last s.nFront (pos k) (s.nFront + 2) 0 (s.nFront + 1) low B (by omega) (by simpa using hB) hs
      by_cases h2 : ¬ low ≤ s.nFront
      · rw [if_pos h2] at h; cases h
      rw [if_neg h2] at h
      by_cases h3 : ¬ (pos k 1 < pos (s.last low) 1 ∨ (pos k 1 = pos (s.last low) 1 ∧ pos k 0 = pos (s.last low) 0))
      · rw [if_pos h3] at h; cases h
      rw [if_neg h3] at h
      cases h
      refine ⟨hrun.bind' (B2 := 0) ?_ (by omega), by simp⟩
      rw [if_neg h2, if_neg h3]
      exact Runs.ret _
  · rw [if_neg h1] at h ⊢
    split_ifs at h ⊢ with h2
    all_goals
      cases h
      exact ⟨(Runs.ret _).mono (by omega), by simp⟩

theorem rk2dLoopT_runs (pos : ℕ → ℕ → α) (B : ℕ) : ∀ (ks : List ℕ) (s s' : Rk2d), s.nFront + ks.length < 2 ^ B → rk2dLoop pos ks s = some s' →
    Runs (rk2dLoopT pos ks s) s' (ks.length * (B + 1))
  | [], s, s', _, h => by cases h; exact (Runs.ret _).mono (by simp)
  | k :: ks, s, s', hB, h => by
    rw [rk2dLoop] at h
    cases hs : rk2dStep pos k s with
    | none => rw [hs] at h; cases h
    | some s1 =>
      rw [hs] at h
      simp only [List.length_cons] at h hB
      obtain ⟨hr, hn⟩ := rk2dStepT_runs pos k s s1 B (by omega) hs
      exact Runs.tickB (hr.bind (rk2dLoopT_runs pos B ks s1 s' (by omega) h)) (by rw [List.length_cons, Nat.succ_mul]; omega)

theorem rk2dStoreT_runs (f : ℕ → ℕ) : ∀ (is : List ℕ) (k : ℕ) (rank : ℕ → ℕ), Runs (rk2dStoreT f k is rank) (rk2dStore f k is rank) is.length
  | [], _, _ => Runs.ret _
  | i :: is, k, rank => Runs.tickB (rk2dStoreT_runs f is _ _) (by simp)

end

/-! ### Epsilon indicators -/

section
variable {K : Type} [Field K] [LinearOrder K] [IsStrictOrderedRing K]

theorem epsAddMaxT_runs (dim : ℕ) (minmax : ℕ → ℤ) (pa pb : ℕ → K) : Runs (epsAddMaxT dim minmax pa pb) (epsAddMax dim minmax pa pb) dim := by
  have := forT_ret_runs (fun m d => cMax m (fin (epsAddTemp (minmax d) (pa d) (pb d)))) (List.range dim) ⊥
  rw [List.length_range] at this
  exact this

theorem epsAddMinT_runs (dim : ℕ) (minmax : ℕ → ℤ) (A : ℕ → ℕ → K) (sizeA : ℕ) (pb : ℕ → K) :
    Runs (epsAddMinT dim minmax A sizeA pb) (epsAddMin dim minmax A sizeA pb) (sizeA * (dim + 1)) := by
  have := forT_runs (g := fun m a => epsAddMaxT dim minmax (A a) pb >>= fun x => Tm.ret (cMin m x)) (f := fun m a => cMin m (epsAddMax dim minmax (A a) pb)) (B := dim)
    (fun m a => (epsAddMaxT_runs dim minmax (A a) pb).bind' (Runs.ret _) (by omega)) (List.range sizeA) ⊤
  rw [List.length_range] at this
  exact this

theorem epsMultMaxT_runs (minmax : ℕ → ℤ) (pa pb : ℕ → K) : ∀ (ds : List ℕ) (m : Ext K), Runs (epsMultMaxT minmax pa pb ds m) (epsMultMax minmax pa pb ds m) ds.length
  | [], m => Runs.ret _
  | d :: ds, m => by
    rw [epsMultMaxT, epsMultMax]
    refine Runs.tickB (B := ds.length) ?_ (by simp)
    simp only
    split_ifs
    · exact (Runs.ret _).mono (by omega)
    · exact (Runs.ret _).mono (by omega)
    · exact epsMultMaxT_runs minmax pa pb ds _

theorem epsMultMinT_runs (dim : ℕ) (minmax : ℕ → ℤ) (A : ℕ → ℕ → K) (pb : ℕ → K) : ∀ (as : List ℕ) (m : Ext K),
    Runs (epsMultMinT dim minmax A pb as m) (epsMultMin dim minmax A pb as m) (as.length * (dim + 1))
  | [], m => (Runs.ret _).mono (by simp)
  | a :: as, m => by
    rw [epsMultMinT, epsMultMin]
    have := epsMultMaxT_runs minmax (A a) pb (List.range dim) (fin 0)
    rw [List.length_range] at this
    refine Runs.tickB (this.bind (B2 := as.length * (dim + 1)) ?_) (by rw [List.length_cons, Nat.succ_mul]; omega)
    cases epsMultMax minmax (A a) pb (List.range dim) (fin 0) with
    | none => exact (Runs.ret _).mono (by omega)
    | some mx => exact epsMultMinT_runs dim minmax A pb as _

theorem epsMultOuterT_runs (dim : ℕ) (minmax : ℕ → ℤ) (A : ℕ → ℕ → K) (sizeA : ℕ) (B : ℕ → ℕ → K) : ∀ (bs : List ℕ) (m : Ext K),
    Runs (epsMultOuterT dim minmax A sizeA B bs m) (epsMultOuter dim minmax A sizeA B bs m) (bs.length * (sizeA * (dim + 1) + 1))
  | [], m => (Runs.ret _).mono (by simp)
  | b :: bs, m => by
    rw [epsMultOuterT, epsMultOuter]
    have := epsMultMinT_runs dim minmax A (B b) (List.range sizeA) ⊤
    rw [List.length_range] at this
    refine Runs.tickB (this.bind (B2 := bs.length * (sizeA * (dim + 1) + 1)) ?_) (by rw [List.length_cons, Nat.succ_mul]; omega)
    cases epsMultMin dim minmax A (B b) (List.range sizeA) ⊤ with
    | none => exact (Runs.ret _).mono (by omega)
    | some mx => exact epsMultOuterT_runs dim minmax A sizeA B bs _

end

end Moo
