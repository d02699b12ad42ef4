import Verif.Model.HvMem
import Verif.Lemmas.HvLinks
import Verif.Lemmas.HvRecBase
import Mathlib.Data.List.Perm.Basic
import Mathlib.Data.List.Nodup

/-!
# The lists of `fpli_hv` before the recursion, for arbitrary doubles

Nothing is assumed about the comparisons of doubles or about the order that `qsort` leaves.
-/

set_option autoImplicit false
set_option linter.unusedSectionVars false

namespace Moo

variable {K : Type} [Zero K] [One K] [Add K] [Sub K] [Mul K] [LT K] [DecidableLT K] [LE K] [DecidableLE K]

/-- In dimension `i` the memory holds the circular list with head `0` and nodes `L i`; the pointers of all nodes are initialised. -/
def MemLists (n d : ℕ) (M : HvMem K) (L : ℕ → List ℕ) : Prop :=
  ∃ nx pv : ℕ → ℕ → ℕ, (∀ i < d, ∀ p ≤ n, M.next i p = some (nx i p) ∧ M.prev i p = some (pv i p) ∧ nx i p ≤ n ∧ pv i p ≤ n) ∧
    ∀ i < d, Linked (nx i) (pv i) (L i)

/-- The circular list on cells that may be undefined. -/
def OLinkedFrom (nx pv : ℕ → Option ℕ) : ℕ → List ℕ → Prop
  | a, [] => nx a = some 0 ∧ pv 0 = some a
  | a, q :: qs => nx a = some q ∧ pv q = some a ∧ OLinkedFrom nx pv q qs

theorem memLinkFrom_ok (n d j : ℕ) (hj : j < d) : ∀ (l : List ℕ) (a : ℕ) (M : HvMem K), a ≤ n → (∀ p ∈ l, p ≤ n) → (a :: l).Nodup → 0 ∉ l →
    ∃ M', memLinkFrom n d j a l M = some M' ∧ (∀ i, i ≠ j → M'.next i = M.next i ∧ M'.prev i = M.prev i) ∧
      OLinkedFrom (M'.next j) (M'.prev j) a l ∧ (∀ u, u ∉ a :: l → M'.next j u = M.next j u) ∧ (∀ v, v ∉ 0 :: l → M'.prev j v = M.prev j v) := by
  intro l
  induction l with
  | nil =>
    intro a M ha _ _ _
    refine ⟨{ M with next := upd2 M.next j a (some 0), prev := upd2 M.prev j 0 (some a) }, ?_, ?_, ?_, ?_, ?_⟩
    · simp [memLinkFrom, HvMem.setNext, HvMem.setPrev, hj, ha]
    · intro i hi; constructor <;> funext p <;> simp [upd2, hi]
    · simp [OLinkedFrom, upd2]
    · intro u hu; simp at hu; simp [upd2, hu]
    · intro v hv; simp at hv; simp [upd2, hv]
  | cons q qs ih =>
    intro a M ha hl hnd h0
    have hq : q ≤ n := hl q (by simp)
    have hq0 : q ≠ 0 := fun h => h0 (by simp [h])
    have hnd' := List.nodup_cons.1 hnd
    have hnd'' := List.nodup_cons.1 hnd'.2
    obtain ⟨M', h1, h2, h3, h4, h5⟩ := ih q { M with next := upd2 M.next j a (some q), prev := upd2 M.prev j q (some a) } hq
      (fun p hp => hl p (by simp [hp])) hnd'.2 (fun h => h0 (by simp [h]))
    refine ⟨M', ?_, ?_, ?_, ?_, ?_⟩
    · simpa [memLinkFrom, HvMem.setNext, HvMem.setPrev, hj, ha, hq] using h1
    · intro i hi
      rw [(h2 i hi).1, (h2 i hi).2]
      constructor <;> funext p <;> simp [upd2, hi]
    · refine ⟨?_, ?_, h3⟩
      · rw [h4 a hnd'.1]; simp [upd2]
      · rw [h5 q (by simp [hq0, hnd''.1])]; simp [upd2]
    · intro u hu
      simp only [List.mem_cons, not_or] at hu
      rw [h4 u (by simp [hu.2])]; simp [upd2, hu.1]
    · intro v hv
      simp only [List.mem_cons, not_or] at hv
      rw [h5 v (by simp [hv.1, hv.2.2])]; simp [upd2, hv.2.1]

theorem memLinkAll_ok (n d : ℕ) (ords : ℕ → List ℕ) (hords : ∀ i < d, (∀ p ∈ ords i, p ≤ n) ∧ (ords i).Nodup ∧ 0 ∉ ords i) :
    ∀ (m : ℕ) (M : HvMem K), m ≤ d → ∃ M', memLinkAll n d ords m M = some M' ∧
      (∀ i < m, OLinkedFrom (M'.next i) (M'.prev i) 0 (ords i)) ∧ ∀ i, m ≤ i → M'.next i = M.next i ∧ M'.prev i = M.prev i := by
  intro m
  induction m with
  | zero => intro M _; exact ⟨M, rfl, by simp, by simp⟩
  | succ m ih =>
    intro M hm
    obtain ⟨hb, hnd, h0⟩ := hords m (by omega)
    obtain ⟨M1, h1, h2, h3, _, _⟩ := memLinkFrom_ok n d m (by omega) (ords m) 0 M (by omega) hb (List.nodup_cons.2 ⟨h0, hnd⟩) h0
    obtain ⟨M2, g1, g2, g3⟩ := ih M1 (by omega)
    refine ⟨M2, ?_, ?_, ?_⟩
    · simp [memLinkAll, h1, g1]
    · intro i hi
      rcases Nat.lt_succ_iff_lt_or_eq.1 hi with h | h
      · exact g2 i h
      · subst h
        rw [(g3 i le_rfl).1, (g3 i le_rfl).2]; exact h3
    · intro i hi
      rw [(g3 i (by omega)).1, (g3 i (by omega)).2]
      exact h2 i (by omega)

theorem OLinkedFrom.defined {nx pv : ℕ → Option ℕ} : ∀ {l : List ℕ} {a : ℕ}, OLinkedFrom nx pv a l →
    (∀ p ∈ a :: l, ∃ q ∈ 0 :: l, nx p = some q) ∧ (∀ p ∈ 0 :: l, ∃ q ∈ a :: l, pv p = some q)
  | [], a, h => by
    constructor
    · intro p hp; simp at hp; subst hp; exact ⟨0, by simp, h.1⟩
    · intro p hp; simp at hp; subst hp; exact ⟨a, by simp, h.2⟩
  | q :: qs, a, h => by
    obtain ⟨i1, i2⟩ := OLinkedFrom.defined h.2.2
    constructor
    · intro p hp
      rcases List.mem_cons.1 hp with h' | h'
      · subst h'; exact ⟨q, by simp, h.1⟩
      · obtain ⟨r, hr, e⟩ := i1 p h'
        refine ⟨r, ?_, e⟩
        simp only [List.mem_cons] at hr ⊢; tauto
    · intro p hp
      by_cases hpq : p = q
      · subst hpq; exact ⟨a, by simp, h.2.1⟩
      · obtain ⟨r, hr, e⟩ := i2 p (by simp only [List.mem_cons] at hp ⊢; tauto)
        exact ⟨r, by simp only [List.mem_cons] at hr ⊢; tauto, e⟩

theorem OLinkedFrom.linked {nx pv : ℕ → Option ℕ} : ∀ {l : List ℕ} {a : ℕ}, OLinkedFrom nx pv a l →
    LinkedFrom (fun p => (nx p).getD 0) (fun p => (pv p).getD 0) a l
  | [], _, h => by simp [LinkedFrom, h.1, h.2]
  | q :: qs, _, h => ⟨by simp [h.1], by simp [h.2.1], OLinkedFrom.linked h.2.2⟩

/-- After `setup_cdllist` the lists are the orders. -/
theorem memSetup_lists (n d : ℕ) (ords : ℕ → List ℕ) (b0 : K) (hords : ∀ i < d, (ords i).Perm (List.range' 1 n)) :
    ∃ M : HvMem K, memSetup n d ords b0 = some M ∧ MemLists n d M ords := by
  have hmem : ∀ i < d, ∀ p, p ∈ ords i ↔ 1 ≤ p ∧ p ≤ n := by
    intro i hi p
    rw [(hords i hi).mem_iff, List.mem_range'_1]; omega
  obtain ⟨M, h1, h2, _⟩ := memLinkAll_ok n d ords
    (fun i hi => ⟨fun p hp => ((hmem i hi p).1 hp).2, (hords i hi).nodup_iff.2 (List.nodup_range' ..), fun h => by have := (hmem i hi 0).1 h; omega⟩)
    d { next := fun _ _ => none, prev := fun _ _ => none, ignore := fun p => if p ≤ n then some 0 else none
        area := fun i p => if p = 0 ∧ i < d then some (0 : K) else none, vol := fun _ _ => none
        bound := fun i => if i < d then some b0 else none } le_rfl
  refine ⟨M, h1, fun i p => (M.next i p).getD 0, fun i p => (M.prev i p).getD 0, ?_, fun i hi => (h2 i hi).linked⟩
  intro i hi p hp
  obtain ⟨d1, d2⟩ := (h2 i hi).defined
  have hin : p ∈ 0 :: ords i := by
    rcases Nat.eq_zero_or_pos p with h | h
    · simp [h]
    · exact List.mem_cons_of_mem _ ((hmem i hi p).2 ⟨h, hp⟩)
  have hle : ∀ q ∈ 0 :: ords i, q ≤ n := by
    intro q hq
    rcases List.mem_cons.1 hq with h | h
    · omega
    · exact ((hmem i hi q).1 h).2
  obtain ⟨q, hq, e⟩ := d1 p hin
  obtain ⟨r, hr, e'⟩ := d2 p hin
  simp [e, e', hle q hq, hle r hr]

/-- The pointers after `filter_delete_node` in the first `m` dimensions. -/
theorem memFilterDeleteNode_ok (n d p : ℕ) (hp : p ≤ n) (nx pv : ℕ → ℕ → ℕ) (M : HvMem K)
    (h : ∀ i < d, ∀ q ≤ n, M.next i q = some (nx i q) ∧ M.prev i q = some (pv i q) ∧ nx i q ≤ n ∧ pv i q ≤ n)
    (hself : ∀ i < d, nx i p ≠ p) :
    ∀ m ≤ d, ∃ M', memFilterDeleteNode n d p m M = some M' ∧
      ∀ i < d, ∀ q ≤ n, M'.next i q = some (if i < m then upd (nx i) (pv i p) (nx i p) q else nx i q) ∧
        M'.prev i q = some (if i < m then upd (pv i) (nx i p) (pv i p) q else pv i q) := by
  intro m
  induction m with
  | zero => intro _; exact ⟨M, rfl, fun i hi q hq => by simp [(h i hi q hq).1, (h i hi q hq).2.1]⟩
  | succ m ih =>
    intro hm
    obtain ⟨M1, h1, h2⟩ := ih (by omega)
    have hm' : m < d := by omega
    have hnp := (h2 m hm' p hp).1
    have hpp := (h2 m hm' p hp).2
    simp only [lt_irrefl, if_false] at hnp hpp
    have b1 := (h m hm' p hp).2.2
    have hs := hself m hm'
    refine ⟨{ M1 with prev := upd2 M1.prev m (nx m p) (some (pv m p)), next := upd2 M1.next m (pv m p) (some (nx m p)) }, ?_, ?_⟩
    · simp [memFilterDeleteNode, h1, memFilterDeleteStep, hnp, hpp, HvMem.setPrev, HvMem.setNext, hm', b1.1, b1.2, upd2, hs.symm]
    · intro i hi q hq
      have g := h2 i hi q hq
      by_cases him : i = m
      · subst him
        simp only [lt_irrefl, if_false] at g
        simp only [upd2, upd, Nat.lt_succ_self, if_true]
        constructor
        · by_cases hq' : q = pv i p
          · simp [hq']
          · simp [hq', g.1]
        · by_cases hq' : q = nx i p
          · simp [hq']
          · simp [hq', g.2]
      · have : (i < m + 1) = (i < m) := by apply propext; omega
        simp only [this]
        have e1 : upd2 M1.next m (pv m p) (some (nx m p)) i = M1.next i := by funext u; simp [upd2, upd, him]
        have e2 : upd2 M1.prev m (nx m p) (some (pv m p)) i = M1.prev i := by funext u; simp [upd2, upd, him]
        simpa only [e1, e2] using g

/-- A node in all the lists is taken out of all of them; its own pointers still point to its former neighbours. -/
theorem memFilterDelete_lists {n d p : ℕ} {M : HvMem K} {L : ℕ → List ℕ} (h : MemLists n d M L) (hp : p ≤ n)
    (hL : ∀ i < d, (L i).Nodup ∧ 0 ∉ L i ∧ p ∈ L i) :
    ∃ M', memFilterDeleteNode n d p d M = some M' ∧ MemLists n d M' (fun i => (L i).erase p) ∧
      ∀ i < d, ∀ l1 l2, L i = l1 ++ p :: l2 → M'.prev i p = some (lastD 0 l1) := by
  obtain ⟨nx, pv, hM, hlk⟩ := h
  have hself : ∀ i < d, nx i p ≠ p := by
    intro i hi
    obtain ⟨hnd, h0, hin⟩ := hL i hi
    obtain ⟨l1, l2, e⟩ := List.append_of_mem hin
    have := hlk i hi
    rw [e] at this hnd h0
    exact (Linked.nbr this hnd h0).2.2.2
  obtain ⟨M', h1, h2⟩ := memFilterDeleteNode_ok n d p hp nx pv M hM hself d le_rfl
  refine ⟨M', h1, ⟨fun i q => upd (nx i) (pv i p) (nx i p) q, fun i q => upd (pv i) (nx i p) (pv i p) q, ?_, ?_⟩, ?_⟩
  · intro i hi q hq
    have g := h2 i hi q hq
    simp only [hi, if_true] at g
    refine ⟨g.1, g.2, ?_, ?_⟩
    · simp only [upd]; split
      · exact (hM i hi p hp).2.2.1
      · exact (hM i hi q hq).2.2.1
    · simp only [upd]; split
      · exact (hM i hi p hp).2.2.2
      · exact (hM i hi q hq).2.2.2
  · intro i hi
    obtain ⟨hnd, h0, hin⟩ := hL i hi
    obtain ⟨l1, l2, e⟩ := List.append_of_mem hin
    have hl := hlk i hi
    rw [e] at hl hnd h0
    have hp1 : p ∉ l1 := by
      intro hp1
      exact (List.nodup_append.1 hnd).2.2 p hp1 p (by simp) rfl
    have : (L i).erase p = l1 ++ l2 := by rw [e, List.erase_append_right _ hp1]; simp
    change Linked _ _ ((L i).erase p)
    rw [this]
    exact hl.unlink hnd h0
  · intro i hi l1 l2 e
    have g := (h2 i hi p hp).2
    simp only [hi, if_true, upd, (hself i hi).symm, if_false] at g
    rw [g]
    have hl := hlk i hi
    rw [e] at hl
    rw [(LinkedFrom.at hl).1]

/-- The inner loop of `filter_ref`: it takes a suffix of the list of dimension `i` out of all lists. -/
theorem memFilterDim_ok (x : ℕ → ℕ → K) (ref : ℕ → K) (n d i : ℕ) (hi : i < d) :
    ∀ (r : List ℕ) (M : HvMem K) (L : ℕ → List ℕ), MemLists n d M L → L i = r → (∀ j < d, (L j).Perm r) → r.Nodup → (∀ p ∈ r, 1 ≤ p ∧ p ≤ n) →
      ∃ r' s M' L', r = r' ++ s ∧ memFilterDim x ref n d i r.length (lastD 0 r) r.length M = some (r'.length, M') ∧ MemLists n d M' L' ∧
        (∀ j < d, (L' j).Perm r' ∧ (L' j).Sublist (L j)) ∧ (∀ p ∈ s, ¬ x p i < ref i) ∧ (∀ p ∈ r'.getLast?, x p i < ref i) := by
  intro r
  induction r using List.reverseRecOn with
  | nil =>
    intro M L hML hLi hperm hnd hb
    exact ⟨[], [], M, L, rfl, rfl, hML, fun j hj => ⟨hperm j hj, List.Sublist.refl _⟩, by simp, by simp⟩
  | append_singleton r p ih =>
    intro M L hML hLi hperm hnd hb
    have hpb := hb p (by simp)
    by_cases hlt : x p i < ref i
    · refine ⟨r ++ [p], [], M, L, by simp, ?_, hML, fun j hj => ⟨hperm j hj, List.Sublist.refl _⟩, by simp, by simp [hlt]⟩
      rw [lastD_append_singleton]
      simp [memFilterDim, rdData, rdRef, hpb.1, hpb.2, hi, hlt]
    · have hLs : ∀ j < d, (L j).Nodup ∧ 0 ∉ L j ∧ p ∈ L j := by
        intro j hj
        refine ⟨(hperm j hj).nodup_iff.2 hnd, ?_, (hperm j hj).mem_iff.2 (by simp)⟩
        rw [(hperm j hj).mem_iff]
        intro h0
        have := hb 0 h0
        omega
      obtain ⟨M1, h1, h2, h3⟩ := memFilterDelete_lists hML hpb.2 hLs
      have hpr : p ∉ r := by
        intro hp
        exact (List.nodup_append.1 hnd).2.2 p hp p (by simp) rfl
      have her : (r ++ [p]).erase p = r := by rw [List.erase_append_right _ hpr]; simp
      obtain ⟨r', s, M', L', e, g1, g2, g3, g4, g5⟩ := ih M1 (fun j => (L j).erase p) h2 (by simp only [hLi, her])
        (fun j hj => by have := (hperm j hj).erase p; rwa [her] at this) (List.nodup_append.1 hnd).1 (fun q hq => hb q (by simp [hq]))
      refine ⟨r', s ++ [p], M', L', by simp [e], ?_, g2, fun j hj => ⟨(g3 j hj).1, (g3 j hj).2.trans List.erase_sublist⟩, ?_, g5⟩
      · rw [lastD_append_singleton]
        simp [memFilterDim, rdData, rdRef, hpb.1, hpb.2, hi, hlt, h1, h3 i hi r [] hLi, g1]
      · intro q hq
        rcases List.mem_append.1 hq with h | h
        · exact g4 q h
        · simp at h; subst h; exact hlt

/-- `filter_ref`: the remaining nodes `A` are the same in all lists; no node that is below the reference point in every objective is taken out, and if in
one objective no node is below it, then nothing remains. -/
theorem memFilterRef_ok (x : ℕ → ℕ → K) (ref : ℕ → K) (n d : ℕ) (N : List ℕ) (M : HvMem K) (L : ℕ → List ℕ) (hML : MemLists n d M L)
    (hperm : ∀ j < d, (L j).Perm N) (hnd : N.Nodup) (hb : ∀ p ∈ N, 1 ≤ p ∧ p ≤ n) :
    ∀ m ≤ d, ∃ A M' L', memFilterRef x ref n d m N.length M = some (A.length, M') ∧ MemLists n d M' L' ∧
      (∀ j < d, (L' j).Perm A ∧ (L' j).Sublist (L j)) ∧ A.Nodup ∧ A ⊆ N ∧ (∀ p ∈ N, (∀ k < m, x p k < ref k) → p ∈ A) ∧
      (∀ k < m, (∀ p ∈ N, ¬ x p k < ref k) → A = []) := by
  intro m
  induction m with
  | zero =>
    intro _
    exact ⟨N, M, L, rfl, hML, fun j hj => ⟨hperm j hj, List.Sublist.refl _⟩, hnd, List.Subset.refl _, fun p hp _ => hp, by simp⟩
  | succ m ih =>
    intro hm
    have hm' : m < d := by omega
    obtain ⟨A, M1, L1, h1, h2, h3, h4, h5, h6, h7⟩ := ih (by omega)
    have hA := (h3 m hm').1
    obtain ⟨r', s, M2, L2, e, g1, g2, g3, g4, g5⟩ := memFilterDim_ok x ref n d m hm' (L1 m) M1 L1 h2 rfl
      (fun j hj => (h3 j hj).1.trans hA.symm) (hA.nodup_iff.2 h4) (fun p hp => hb p (h5 (hA.mem_iff.1 hp)))
    have hprev : M1.prev m 0 = some (lastD 0 (L1 m)) := by
      obtain ⟨nx, pv, k1, k2⟩ := h2
      rw [(k1 m hm' 0 (by omega)).2.1, LinkedFrom.last (k2 m hm')]
    have hsub : ∀ p ∈ r', p ∈ A := fun p hp => hA.mem_iff.1 (by rw [e]; simp [hp])
    refine ⟨r', M2, L2, ?_, g2, fun j hj => ⟨(g3 j hj).1, (g3 j hj).2.trans (h3 j hj).2⟩, ?_, fun p hp => h5 (hsub p hp), ?_, ?_⟩
    · rw [hA.length_eq] at g1
      simp [memFilterRef, h1, hprev, g1]
    · have := hA.nodup_iff.2 h4
      rw [e] at this
      exact (List.nodup_append.1 this).1
    · intro p hp hlt
      have hpA := hA.mem_iff.2 (h6 p hp (fun k hk => hlt k (by omega)))
      rw [e] at hpA
      rcases List.mem_append.1 hpA with h | h
      · exact h
      · exact absurd (hlt m (by omega)) (g4 p h)
    · intro k hk hall
      by_cases hkm : k = m
      · subst hkm
        rcases List.eq_nil_or_concat r' with h | ⟨l, b, h⟩
        · exact h
        · exfalso
          subst h
          have hb' : b ∈ (l.concat b).getLast? := by simp
          exact hall b (h5 (hsub b (by simp))) (g5 b hb')
      · have := h7 k (by omega) hall
        rcases List.eq_nil_or_concat r' with h | ⟨l, b, h⟩
        · exact h
        · exfalso
          have hbA := hsub b (by simp [h])
          rw [this] at hbA
          simp at hbA

theorem memBox_ok (x : ℕ → ℕ → K) (ref : ℕ → K) (n d p : ℕ) (hp : 1 ≤ p ∧ p ≤ n) : ∀ m ≤ d,
    memBox x ref n d p m = some ((List.range m).foldl (fun a k => a * (ref k - x p k)) 1) := by
  intro m
  induction m with
  | zero => intro _; rfl
  | succ m ih =>
    intro hm
    have hm' : m < d := by omega
    simp [memBox, ih (by omega), rdRef, rdData, hm', hp.1, hp.2, List.range_succ]

/-- `fpli_hv` up to the recursion. -/
theorem fpliHvMem_filter (x : ℕ → ℕ → K) (d n : ℕ) (hd : 0 < d) (ref : ℕ → K) (ords : ℕ → List ℕ) (b0 : K)
    (hords : ∀ i < d, (ords i).Perm (List.range' 1 n)) :
    ∃ A : List ℕ, A.Nodup ∧ A ⊆ List.range' 1 n ∧ (∀ p, 1 ≤ p → p ≤ n → (∀ k < d, x p k < ref k) → p ∈ A) ∧
      (∀ k < d, (∀ p, 1 ≤ p → p ≤ n → ¬ x p k < ref k) → A = []) ∧
      (A = [] → fpliHvMem x d n ref ords b0 = some 0) ∧
      ∀ p, A = [p] → fpliHvMem x d n ref ords b0 = some ((List.range d).foldl (fun a k => a * (ref k - x p k)) 1) := by
  obtain ⟨M, h1, h2⟩ := memSetup_lists n d ords b0 hords
  have hr : ∀ p, p ∈ List.range' 1 n ↔ 1 ≤ p ∧ p ≤ n := by intro p; rw [List.mem_range'_1]; omega
  obtain ⟨A, M', L', g1, g2, g3, g4, g5, g6, g7⟩ := memFilterRef_ok x ref n d (List.range' 1 n) M ords h2 hords (List.nodup_range' ..)
    (fun p hp => (hr p).1 hp) d le_rfl
  rw [List.length_range'] at g1
  refine ⟨A, g4, g5, fun p h h' => g6 p ((hr p).2 ⟨h, h'⟩), fun k hk hall => g7 k hk (fun p hp => hall p ((hr p).1 hp).1 ((hr p).1 hp).2), ?_, ?_⟩
  · rintro rfl
    simp [fpliHvMem, h1, g1]
  · rintro p rfl
    obtain ⟨nx, pv, k1, k2⟩ := g2
    have hn0 : M'.next 0 0 = some p := by
      have hl := k2 0 hd
      rw [List.perm_singleton.1 (g3 0 hd).1] at hl
      rw [(k1 0 hd 0 (by omega)).1, hl.1]
    simp [fpliHvMem, h1, g1, hn0, memBox_ok x ref n d p ((hr p).1 (g5 (by simp))) d le_rfl]

end Moo
