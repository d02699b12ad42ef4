import Verif.Model.HvMem
import Verif.Lemmas.HvTreeRec

/-!
# Memory with undefined cells against memory without: single writes, `delete`, `reinsert`, setup and filter
-/

set_option autoImplicit false
set_option linter.unusedSectionVars false

namespace Moo

variable {x : ℕ → ℕ → ℝ} {ref : ℕ → ℝ} {pos : ℕ → ℕ → ℕ} {n d : ℕ}

/-- The cells that are defined hold the values of `S`; pointers, marks and bounds are all defined, and pointers point to nodes. -/
structure HvAgree (n d : ℕ) (M : HvMem ℝ) (S : HvState ℝ) : Prop where
  next : ∀ i < d, ∀ p ≤ n, M.next i p = some (S.next i p)
  prev : ∀ i < d, ∀ p ≤ n, M.prev i p = some (S.prev i p)
  nextLe : ∀ i < d, ∀ p ≤ n, S.next i p ≤ n
  prevLe : ∀ i < d, ∀ p ≤ n, S.prev i p ≤ n
  ignore : ∀ p ≤ n, M.ignore p = some (S.ignore p)
  bound : ∀ i < d, M.bound i = some (S.bound i)
  area : ∀ i p v, M.area i p = some v → S.area i p = v
  vol : ∀ i p v, M.vol i p = some v → S.vol i p = v
  head : ∀ i < d, (M.area i 0).isSome

theorem upd2_at {β : Type*} (a : ℕ → ℕ → β) (i p : ℕ) (v : β) (i' p' : ℕ) :
    upd2 a i p v i' p' = if i' = i ∧ p' = p then v else a i' p' := by
  by_cases hi : i' = i
  · subst hi
    rw [upd2_same]
    by_cases hp : p' = p
    · subst hp; rw [upd_same, if_pos ⟨rfl, rfl⟩]
    · rw [upd_ne _ _ hp, if_neg (fun h => hp h.2)]
  · rw [upd2_ne _ _ _ hi, if_neg (fun h => hi h.1)]

theorem upd_at {β : Type*} (a : ℕ → β) (p : ℕ) (v : β) (p' : ℕ) : upd a p v p' = if p' = p then v else a p' := by
  by_cases hp : p' = p
  · subst hp; rw [upd_same, if_pos rfl]
  · rw [upd_ne _ _ hp, if_neg hp]

theorem HvAgree.setNext {M : HvMem ℝ} {S : HvState ℝ} (h : HvAgree n d M S) {i p q : ℕ} (hi : i < d) (hp : p ≤ n) (hq : q ≤ n) :
    ∃ M', M.setNext n d i p q = some M' ∧ HvAgree n d M' { S with next := upd2 S.next i p q } ∧ M'.area = M.area ∧ M'.vol = M.vol := by
  refine ⟨_, if_pos ⟨hi, hp⟩, { h with next := ?_, nextLe := ?_ }, rfl, rfl⟩
  · intro i' hi' p' hp'
    dsimp only
    rw [upd2_at, upd2_at]
    split
    · rfl
    · exact h.next i' hi' p' hp'
  · intro i' hi' p' hp'
    dsimp only
    rw [upd2_at]
    split
    · exact hq
    · exact h.nextLe i' hi' p' hp'

theorem HvAgree.setPrev {M : HvMem ℝ} {S : HvState ℝ} (h : HvAgree n d M S) {i p q : ℕ} (hi : i < d) (hp : p ≤ n) (hq : q ≤ n) :
    ∃ M', M.setPrev n d i p q = some M' ∧ HvAgree n d M' { S with prev := upd2 S.prev i p q } ∧ M'.area = M.area ∧ M'.vol = M.vol := by
  refine ⟨_, if_pos ⟨hi, hp⟩, { h with prev := ?_, prevLe := ?_ }, rfl, rfl⟩
  · intro i' hi' p' hp'
    dsimp only
    rw [upd2_at, upd2_at]
    split
    · rfl
    · exact h.prev i' hi' p' hp'
  · intro i' hi' p' hp'
    dsimp only
    rw [upd2_at]
    split
    · exact hq
    · exact h.prevLe i' hi' p' hp'

theorem HvAgree.setIgnore {M : HvMem ℝ} {S : HvState ℝ} (h : HvAgree n d M S) {p : ℕ} (hp : p ≤ n) (v : ℕ) :
    ∃ M', M.setIgnore n p v = some M' ∧ HvAgree n d M' { S with ignore := upd S.ignore p v } ∧ M'.area = M.area ∧ M'.vol = M.vol := by
  refine ⟨_, if_pos hp, { h with ignore := ?_ }, rfl, rfl⟩
  intro p' hp'
  dsimp only
  rw [upd_at, upd_at]
  split
  · rfl
  · exact h.ignore p' hp'

theorem HvAgree.setBound {M : HvMem ℝ} {S : HvState ℝ} (h : HvAgree n d M S) {i : ℕ} (hi : i < d) (v : ℝ) :
    ∃ M', M.setBound d i v = some M' ∧ HvAgree n d M' { S with bound := upd S.bound i v } ∧ M'.area = M.area ∧ M'.vol = M.vol := by
  refine ⟨_, if_pos hi, { h with bound := ?_ }, rfl, rfl⟩
  intro p' hp'
  dsimp only
  rw [upd_at, upd_at]
  split
  · rfl
  · exact h.bound p' hp'

theorem HvAgree.setArea {M : HvMem ℝ} {S : HvState ℝ} (h : HvAgree n d M S) {i p : ℕ} (hi : i < d) (hp : p ≤ n) (v : ℝ) :
    ∃ M', M.setArea n d i p v = some M' ∧ HvAgree n d M' { S with area := upd2 S.area i p v } ∧
      M'.area = upd2 M.area i p (some v) ∧ M'.vol = M.vol := by
  refine ⟨_, if_pos ⟨hi, hp⟩, { h with area := ?_, head := ?_ }, rfl, rfl⟩
  · intro i' p' v' hv
    dsimp only at hv ⊢
    rw [upd2_at] at hv ⊢
    split at hv
    · rw [if_pos ‹_›]; exact Option.some.inj hv
    · rw [if_neg ‹_›]; exact h.area i' p' v' hv
  · intro i' hi'
    dsimp only
    rw [upd2_at]
    split
    · rfl
    · exact h.head i' hi'

theorem HvAgree.setVol {M : HvMem ℝ} {S : HvState ℝ} (h : HvAgree n d M S) {i p : ℕ} (hi : i < d) (hp : p ≤ n) (v : ℝ) :
    ∃ M', M.setVol n d i p v = some M' ∧ HvAgree n d M' { S with vol := upd2 S.vol i p v } ∧
      M'.area = M.area ∧ M'.vol = upd2 M.vol i p (some v) := by
  refine ⟨_, if_pos ⟨hi, hp⟩, { h with vol := ?_ }, rfl, rfl⟩
  intro i' p' v' hv
  dsimp only at hv ⊢
  rw [upd2_at] at hv ⊢
  split at hv
  · rw [if_pos ‹_›]; exact Option.some.inj hv
  · rw [if_neg ‹_›]; exact h.vol i' p' v' hv

theorem HvAgree.areaSome {M : HvMem ℝ} {S : HvState ℝ} (h : HvAgree n d M S) {i p : ℕ} (hs : (M.area i p).isSome) :
    M.area i p = some (S.area i p) := by
  obtain ⟨v, hv⟩ := Option.isSome_iff_exists.1 hs
  rw [hv, h.area i p v hv]

theorem HvAgree.volSome {M : HvMem ℝ} {S : HvState ℝ} (h : HvAgree n d M S) {i p : ℕ} (hs : (M.vol i p).isSome) :
    M.vol i p = some (S.vol i p) := by
  obtain ⟨v, hv⟩ := Option.isSome_iff_exists.1 hs
  rw [hv, h.vol i p v hv]

theorem rdData_some {p k : ℕ} (h1 : 1 ≤ p) (h2 : p ≤ n) (hk : k < d) : rdData x n d p k = some (x p k) := if_pos ⟨⟨h1, h2⟩, hk⟩

theorem rdRef_some {k : ℕ} (hk : k < d) : rdRef ref d k = some (ref k) := if_pos hk

/-! ### `delete` and `reinsert` -/

theorem memDeleteStep_agree {M : HvMem ℝ} {S : HvState ℝ} (h : HvAgree n d M S) {p i : ℕ} (hp1 : 1 ≤ p) (hp : p ≤ n) (hi : i < d) :
    ∃ M', memDeleteStep x n d p i M = some M' ∧ HvAgree n d M' (hvDeleteStep x p i S) ∧ M'.area = M.area ∧ M'.vol = M.vol := by
  obtain ⟨M1, e1, h1, a1, v1⟩ := h.setNext hi (h.prevLe i hi p hp) (h.nextLe i hi p hp)
  obtain ⟨M2, e2, h2, a2, v2⟩ := h1.setPrev hi (h1.nextLe i hi p hp) (h1.prevLe i hi p hp)
  unfold memDeleteStep hvDeleteStep
  simp only [h.prev i hi p hp, h.next i hi p hp, Option.bind_eq_bind, Option.bind_some, e1, h1.next i hi p hp, h1.prev i hi p hp, e2,
    h2.bound i hi, rdData_some hp1 hp hi]
  by_cases hb : S.bound i > x p i
  · obtain ⟨M3, e3, h3, a3, v3⟩ := h2.setBound hi (x p i)
    refine ⟨M3, ?_, ?_, a3.trans (a2.trans a1), v3.trans (v2.trans v1)⟩
    · rw [if_pos hb]; exact e3
    · rw [if_pos hb]; exact h3
  · refine ⟨M2, ?_, ?_, a2.trans a1, v2.trans v1⟩
    · rw [if_neg hb]
    · rw [if_neg hb]; exact h2

theorem memDeleteLoop_agree {M : HvMem ℝ} {S : HvState ℝ} (h : HvAgree n d M S) {p : ℕ} (hp1 : 1 ≤ p) (hp : p ≤ n) : ∀ m, 2 + m ≤ d →
    ∃ M', memDeleteLoop x n d p m M = some M' ∧ HvAgree n d M' (hvDeleteLoop x p m S) ∧ M'.area = M.area ∧ M'.vol = M.vol
  | 0, _ => ⟨M, rfl, h, rfl, rfl⟩
  | m + 1, hm => by
    obtain ⟨M1, e1, h1, a1, v1⟩ := memDeleteLoop_agree h hp1 hp m (by omega)
    obtain ⟨M2, e2, h2, a2, v2⟩ := memDeleteStep_agree (x := x) h1 hp1 hp (i := 2 + m) (by omega)
    refine ⟨M2, ?_, h2, a2.trans a1, v2.trans v1⟩
    unfold memDeleteLoop
    rw [e1]; exact e2

theorem memReinsertStep_agree {M : HvMem ℝ} {S : HvState ℝ} (h : HvAgree n d M S) {p i : ℕ} (hp1 : 1 ≤ p) (hp : p ≤ n) (hi : i < d) :
    ∃ M', memReinsertStep x n d p i M = some M' ∧ HvAgree n d M' (hvReinsertStep x p i S) ∧ M'.area = M.area ∧ M'.vol = M.vol := by
  obtain ⟨M1, e1, h1, a1, v1⟩ := h.setNext hi (h.prevLe i hi p hp) hp
  obtain ⟨M2, e2, h2, a2, v2⟩ := h1.setPrev hi (h1.nextLe i hi p hp) hp
  unfold memReinsertStep hvReinsertStep
  simp only [h.prev i hi p hp, Option.bind_eq_bind, Option.bind_some, e1, h1.next i hi p hp, e2, h2.bound i hi, rdData_some hp1 hp hi]
  by_cases hb : S.bound i > x p i
  · obtain ⟨M3, e3, h3, a3, v3⟩ := h2.setBound hi (x p i)
    refine ⟨M3, ?_, ?_, a3.trans (a2.trans a1), v3.trans (v2.trans v1)⟩
    · rw [if_pos hb]; exact e3
    · rw [if_pos hb]; exact h3
  · refine ⟨M2, ?_, ?_, a2.trans a1, v2.trans v1⟩
    · rw [if_neg hb]
    · rw [if_neg hb]; exact h2

theorem memReinsertLoop_agree {M : HvMem ℝ} {S : HvState ℝ} (h : HvAgree n d M S) {p : ℕ} (hp1 : 1 ≤ p) (hp : p ≤ n) : ∀ m, 2 + m ≤ d →
    ∃ M', memReinsertLoop x n d p m M = some M' ∧ HvAgree n d M' (hvReinsertLoop x p m S) ∧ M'.area = M.area ∧ M'.vol = M.vol
  | 0, _ => ⟨M, rfl, h, rfl, rfl⟩
  | m + 1, hm => by
    obtain ⟨M1, e1, h1, a1, v1⟩ := memReinsertLoop_agree h hp1 hp m (by omega)
    obtain ⟨M2, e2, h2, a2, v2⟩ := memReinsertStep_agree (x := x) h1 hp1 hp (i := 2 + m) (by omega)
    refine ⟨M2, ?_, h2, a2.trans a1, v2.trans v1⟩
    unfold memReinsertLoop
    rw [e1]; exact e2

/-! ### The filter -/

theorem memFilterDeleteStep_agree {M : HvMem ℝ} {S : HvState ℝ} (h : HvAgree n d M S) {p i : ℕ} (hp : p ≤ n) (hi : i < d) :
    ∃ M', memFilterDeleteStep n d p i M = some M' ∧ HvAgree n d M' (filterDeleteStep p i S) ∧ M'.area = M.area ∧ M'.vol = M.vol := by
  obtain ⟨M1, e1, h1, a1, v1⟩ := h.setPrev hi (h.nextLe i hi p hp) (h.prevLe i hi p hp)
  obtain ⟨M2, e2, h2, a2, v2⟩ := h1.setNext hi (h1.prevLe i hi p hp) (h1.nextLe i hi p hp)
  refine ⟨M2, ?_, h2, a2.trans a1, v2.trans v1⟩
  unfold memFilterDeleteStep
  simp only [h.prev i hi p hp, h.next i hi p hp, Option.bind_eq_bind, Option.bind_some, e1, h1.next i hi p hp, h1.prev i hi p hp, e2]

theorem memFilterDeleteNode_agree {M : HvMem ℝ} {S : HvState ℝ} (h : HvAgree n d M S) {p : ℕ} (hp : p ≤ n) : ∀ m, m ≤ d →
    ∃ M', memFilterDeleteNode n d p m M = some M' ∧ HvAgree n d M' (filterDeleteNode p m S) ∧ M'.area = M.area ∧ M'.vol = M.vol
  | 0, _ => ⟨M, rfl, h, rfl, rfl⟩
  | m + 1, hm => by
    obtain ⟨M1, e1, h1, a1, v1⟩ := memFilterDeleteNode_agree h hp m (by omega)
    obtain ⟨M2, e2, h2, a2, v2⟩ := memFilterDeleteStep_agree h1 hp (i := m) (by omega)
    refine ⟨M2, ?_, h2, a2.trans a1, v2.trans v1⟩
    unfold memFilterDeleteNode
    rw [e1]; exact e2

theorem memFilterDim_agree (i : ℕ) (hi : i < d) :
    ∀ (r : List ℕ) (S : HvState ℝ) (M : HvMem ℝ) (c : ℕ), (∀ p ∈ r, 1 ≤ p ∧ p ≤ n) → r.Nodup →
      Linked (S.next i) (S.prev i) r → HvAgree n d M S →
      ∃ M', memFilterDim x ref n d i r.length (lastD 0 r) c M = some ((filterDim x ref d i r.length (lastD 0 r) c S).1, M') ∧
        HvAgree n d M' (filterDim x ref d i r.length (lastD 0 r) c S).2 ∧ M'.area = M.area ∧ M'.vol = M.vol := by
  intro r
  induction r using List.reverseRecOn with
  | nil => intro S M c _ _ _ h; exact ⟨M, rfl, h, rfl, rfl⟩
  | append_singleton r p ih =>
    intro S M c hr hnd hl h
    have hz : 0 ∉ r ++ [p] := fun h => absurd (hr 0 h).1 (by omega)
    have hp := hr p (by simp)
    have hlen : (r ++ [p]).length = r.length + 1 := by simp
    rw [hlen, lastD_append_singleton]
    unfold filterDim memFilterDim
    simp only [rdData_some hp.1 hp.2 hi, rdRef_some hi, Option.bind_eq_bind, Option.bind_some]
    by_cases hlt : x p i < ref i
    · rw [if_pos hlt, if_pos hlt]
      exact ⟨M, rfl, h, rfl, rfl⟩
    · rw [if_neg hlt, if_neg hlt]
      obtain ⟨M1, e1, h1, a1, v1⟩ := memFilterDeleteNode_agree h hp.2 d (le_refl _)
      obtain ⟨g1, g2, -⟩ := filterDeleteNode_spec p d S
      set S1 := filterDeleteNode p d S with hS1
      have hl1 : Linked (S1.next i) (S1.prev i) r := by
        rw [g1, g2, if_pos hi, if_pos hi]
        have := Linked.unlink (l1 := r) (p := p) (l2 := []) hl hnd hz
        rw [List.append_nil] at this; exact this
      have hprev : S1.prev i p = lastD 0 r := by
        have hat := LinkedFrom.at (l1 := r) (p := p) (l2 := []) hl
        have hnb := Linked.nbr (l1 := r) (p := p) (l2 := []) hl hnd hz
        rw [g2, if_pos hi, upd_ne _ _ (Ne.symm hnb.2.2.2)]; exact hat.1
      simp only [e1, h1.prev i hi p hp.2, Option.bind_some, hprev]
      obtain ⟨M2, e2, h2, a2, v2⟩ := ih S1 M1 (c - 1) (fun q hq => hr q (List.mem_append_left _ hq)) (List.nodup_append.1 hnd).1 hl1 h1
      exact ⟨M2, e2, h2, a2.trans a1, v2.trans v1⟩

theorem memFilterRef_agree {N : List ℕ} (hsort : ∀ i < d, ∀ p ∈ N, ∀ q ∈ N, pos i p < pos i q → x p i ≤ x q i)
    (hNb : ∀ p ∈ N, 1 ≤ p ∧ p ≤ n) (hN : N.Nodup) {S : HvState ℝ} {M : HvMem ℝ}
    (hls : ∀ k < d, LinkedSet (S.next k) (S.prev k) (pos k) N) (h : HvAgree n d M S) : ∀ m, m ≤ d →
    ∃ M', memFilterRef x ref n d m N.length M = some ((filterRef x ref d m N.length S).1, M') ∧
      HvAgree n d M' (filterRef x ref d m N.length S).2 ∧ M'.area = M.area ∧ M'.vol = M.vol
  | 0, _ => ⟨M, rfl, h, rfl, rfl⟩
  | m + 1, hm => by
    obtain ⟨M1, e1, h1, a1, v1⟩ := memFilterRef_agree hsort hNb hN hls h m (by omega)
    have h0 : 0 ∉ N := fun hz => absurd (hNb 0 hz).1 (by omega)
    obtain ⟨A, S', g1, g2, g3, g4, -⟩ := filterRef_spec (ref := ref) hsort h0 hN S hls m (by omega)
    rw [g1] at e1 h1
    dsimp only at e1 h1
    obtain ⟨l, hl1, hl2, hl3⟩ := g4 m (by omega)
    have hlen : l.length = A.length := length_eq_of_mem_iff (pairwise_pos_nodup hl2) g2 hl1
    have hlast : S'.prev m 0 = lastD 0 l := LinkedFrom.last hl3
    obtain ⟨M2, e2, h2, a2, v2⟩ := memFilterDim_agree (x := x) (ref := ref) m (by omega) l S' M1 l.length
      (fun p hp => hNb p ((g3 p).1 ((hl1 p).1 hp)).1) (pairwise_pos_nodup hl2) hl3 h1
    refine ⟨M2, ?_, ?_, a2.trans a1, v2.trans v1⟩
    · unfold memFilterRef filterRef
      rw [e1, g1]
      simp only [Option.bind_eq_bind, Option.bind_some, h1.prev m (by omega) 0 (by omega), hlast, ← hlen]
      exact e2
    · unfold filterRef
      rw [g1]
      dsimp only
      rw [hlast, ← hlen]
      exact h2

/-! ### Setup -/

/-- Defined pointers agree and point to nodes. -/
structure LinkAgree (n : ℕ) (M : HvMem ℝ) (S : HvState ℝ) : Prop where
  next : ∀ i p q, M.next i p = some q → S.next i p = q ∧ q ≤ n
  prev : ∀ i p q, M.prev i p = some q → S.prev i p = q ∧ q ≤ n

theorem LinkAgree.step {M : HvMem ℝ} {S : HvState ℝ} (h : LinkAgree n M S) {j a q : ℕ} (ha : a ≤ n) (hq : q ≤ n) :
    LinkAgree n { M with next := upd2 M.next j a (some q), prev := upd2 M.prev j q (some a) }
      { S with next := upd2 S.next j a q, prev := upd2 S.prev j q a } := by
  constructor
  · intro i p v hv
    dsimp only at hv ⊢
    rw [upd2_at] at hv ⊢
    split at hv
    · rw [if_pos ‹_›, ← Option.some.inj hv]; exact ⟨rfl, hq⟩
    · rw [if_neg ‹_›]; exact h.next i p v hv
  · intro i p v hv
    dsimp only at hv ⊢
    rw [upd2_at] at hv ⊢
    split at hv
    · rw [if_pos ‹_›, ← Option.some.inj hv]; exact ⟨rfl, ha⟩
    · rw [if_neg ‹_›]; exact h.prev i p v hv

theorem memLinkFrom_agree (j : ℕ) (hj : j < d) : ∀ (l : List ℕ) (a : ℕ) (M : HvMem ℝ) (S : HvState ℝ), a ≤ n → (∀ q ∈ l, q ≤ n) →
    LinkAgree n M S → ∃ M', memLinkFrom n d j a l M = some M' ∧ LinkAgree n M' (linkFrom j a l S) ∧
      (∀ i p, (M.next i p).isSome ∨ (i = j ∧ p ∈ a :: l) → (M'.next i p).isSome) ∧
      (∀ i p, (M.prev i p).isSome ∨ (i = j ∧ p ∈ 0 :: l) → (M'.prev i p).isSome) ∧
      M'.ignore = M.ignore ∧ M'.area = M.area ∧ M'.vol = M.vol ∧ M'.bound = M.bound
  | [], a, M, S, ha, _, h => by
    refine ⟨{ M with next := upd2 M.next j a (some 0), prev := upd2 M.prev j 0 (some a) }, ?_, h.step ha (Nat.zero_le _), ?_, ?_,
      rfl, rfl, rfl, rfl⟩
    · unfold memLinkFrom HvMem.setNext HvMem.setPrev
      rw [if_pos ⟨hj, ha⟩]
      exact if_pos ⟨hj, Nat.zero_le _⟩
    · intro i p hp
      dsimp only
      rw [upd2_at]
      split_ifs with hc
      · rfl
      · rcases hp with hp | ⟨h1, h2⟩
        · exact hp
        · exact absurd ⟨h1, by simpa using h2⟩ hc
    · intro i p hp
      dsimp only
      rw [upd2_at]
      split_ifs with hc
      · rfl
      · rcases hp with hp | ⟨h1, h2⟩
        · exact hp
        · exact absurd ⟨h1, by simpa using h2⟩ hc
  | q :: qs, a, M, S, ha, hl, h => by
    have hq : q ≤ n := hl q (by simp)
    obtain ⟨M', e, g1, g2, g3, g4, g5, g6, g7⟩ := memLinkFrom_agree j hj qs q _ _ hq (fun r hr => hl r (List.mem_cons_of_mem _ hr))
      (h.step (j := j) ha hq)
    refine ⟨M', ?_, g1, ?_, ?_, g4, g5, g6, g7⟩
    · unfold memLinkFrom HvMem.setNext HvMem.setPrev
      rw [if_pos ⟨hj, ha⟩]
      simp only [Option.bind_eq_bind, Option.bind_some]
      rw [if_pos ⟨hj, hq⟩]
      exact e
    · intro i p hp
      apply g2
      dsimp only
      rw [upd2_at]
      by_cases hc : i = j ∧ p = a
      · rw [if_pos hc]; exact Or.inl rfl
      · rw [if_neg hc]
        rcases hp with hp | ⟨h1, h2⟩
        · exact Or.inl hp
        · rcases List.mem_cons.1 h2 with h2 | h2
          · exact absurd ⟨h1, h2⟩ hc
          · exact Or.inr ⟨h1, h2⟩
    · intro i p hp
      apply g3
      dsimp only
      rw [upd2_at]
      by_cases hc : i = j ∧ p = q
      · rw [if_pos hc]; exact Or.inl rfl
      · rw [if_neg hc]
        rcases hp with hp | ⟨h1, h2⟩
        · exact Or.inl hp
        · rcases List.mem_cons.1 h2 with h2 | h2
          · exact Or.inr ⟨h1, by rw [h2]; simp⟩
          · rcases List.mem_cons.1 h2 with h2 | h2
            · exact absurd ⟨h1, h2⟩ hc
            · exact Or.inr ⟨h1, List.mem_cons_of_mem _ h2⟩

theorem memLinkAll_agree (ords : ℕ → List ℕ) : ∀ (m : ℕ), m ≤ d → ∀ (M : HvMem ℝ) (S : HvState ℝ), (∀ i < m, ∀ q ∈ ords i, q ≤ n) →
    LinkAgree n M S → ∃ M', memLinkAll n d ords m M = some M' ∧ LinkAgree n M' (linkAll ords m S) ∧
      (∀ i p, (M.next i p).isSome ∨ (i < m ∧ p ∈ 0 :: ords i) → (M'.next i p).isSome) ∧
      (∀ i p, (M.prev i p).isSome ∨ (i < m ∧ p ∈ 0 :: ords i) → (M'.prev i p).isSome) ∧
      M'.ignore = M.ignore ∧ M'.area = M.area ∧ M'.vol = M.vol ∧ M'.bound = M.bound
  | 0, _, M, S, _, h => by
    refine ⟨M, rfl, h, ?_, ?_, rfl, rfl, rfl, rfl⟩
    · rintro i p (h | ⟨h, -⟩)
      · exact h
      · omega
    · rintro i p (h | ⟨h, -⟩)
      · exact h
      · omega
  | m + 1, hm, M, S, hl, h => by
    obtain ⟨M1, e1, h1, n1, p1, i1, a1, v1, b1⟩ := memLinkFrom_agree (d := d) m (by omega) (ords m) 0 M S (Nat.zero_le _) (hl m (by omega)) h
    obtain ⟨M2, e2, h2, n2, p2, i2, a2, v2, b2⟩ := memLinkAll_agree ords m (by omega) M1 _ (fun i hi => hl i (Nat.lt_succ_of_lt hi)) h1
    refine ⟨M2, ?_, h2, ?_, ?_, i2.trans i1, a2.trans a1, v2.trans v1, b2.trans b1⟩
    · unfold memLinkAll; rw [e1]; exact e2
    · rintro i p (h | ⟨h, hp⟩)
      · exact n2 i p (Or.inl (n1 i p (Or.inl h)))
      · by_cases him : i = m
        · subst him; exact n2 i p (Or.inl (n1 i p (Or.inr ⟨rfl, hp⟩)))
        · exact n2 i p (Or.inr ⟨by omega, hp⟩)
    · rintro i p (h | ⟨h, hp⟩)
      · exact p2 i p (Or.inl (p1 i p (Or.inl h)))
      · by_cases him : i = m
        · subst him; exact p2 i p (Or.inl (p1 i p (Or.inr ⟨rfl, hp⟩)))
        · exact p2 i p (Or.inr ⟨by omega, hp⟩)

theorem memSetup_agree (ords : ℕ → List ℕ) (hperm : ∀ i < d, (ords i).Perm (List.range' 1 n)) (b0 : ℝ) (mem : HvState ℝ) :
    ∃ M, memSetup n d ords b0 = some M ∧ HvAgree n d M (setupCdllist ords d b0 mem) := by
  have hmem : ∀ i < d, ∀ p, p ∈ ords i ↔ 1 ≤ p ∧ p ≤ n := by
    intro i hi p
    rw [(hperm i hi).mem_iff, List.mem_range'_1]
    omega
  obtain ⟨-, -, s3, s4, s5⟩ := linkAll_spec ords d
    { mem with
      ignore := fun _ => 0
      area := fun i p => if p = 0 ∧ i < d then 0 else mem.area i p
      bound := fun _ => b0 }
    (fun i hi => ⟨(hperm i hi).nodup_iff.2 List.nodup_range', fun h => absurd ((hmem i hi 0).1 h).1 (by omega)⟩)
  obtain ⟨M, e, h1, h2, h3, h4, h5, h6, h7⟩ := memLinkAll_agree (n := n) ords d (le_refl _)
    { next := fun _ _ => none, prev := fun _ _ => none, ignore := fun p => if p ≤ n then some 0 else none
      area := fun i p => if p = 0 ∧ i < d then some 0 else none, vol := fun _ _ => none
      bound := fun i => if i < d then some b0 else none }
    { mem with
      ignore := fun _ => 0
      area := fun i p => if p = 0 ∧ i < d then 0 else mem.area i p
      bound := fun _ => b0 } (fun i hi q hq => ((hmem i hi q).1 hq).2)
    ⟨fun _ _ _ h => absurd h (by simp), fun _ _ _ h => absurd h (by simp)⟩
  have hcell : ∀ i < d, ∀ p ≤ n, p ∈ 0 :: ords i := by
    intro i hi p hp
    rw [List.mem_cons, hmem i hi]; omega
  have hnx : ∀ i < d, ∀ p ≤ n, M.next i p = some ((setupCdllist ords d b0 mem).next i p) ∧ (setupCdllist ords d b0 mem).next i p ≤ n := by
    intro i hi p hp
    obtain ⟨q, hq⟩ := Option.isSome_iff_exists.1 (h2 i p (Or.inr ⟨hi, hcell i hi p hp⟩))
    have := h1.next i p q hq
    unfold setupCdllist
    rw [this.1]; exact ⟨hq, this.2⟩
  have hpv : ∀ i < d, ∀ p ≤ n, M.prev i p = some ((setupCdllist ords d b0 mem).prev i p) ∧ (setupCdllist ords d b0 mem).prev i p ≤ n := by
    intro i hi p hp
    obtain ⟨q, hq⟩ := Option.isSome_iff_exists.1 (h3 i p (Or.inr ⟨hi, hcell i hi p hp⟩))
    have := h1.prev i p q hq
    unfold setupCdllist
    rw [this.1]; exact ⟨hq, this.2⟩
  refine ⟨M, e, ?_⟩
  refine { next := fun i hi p hp => (hnx i hi p hp).1, prev := fun i hi p hp => (hpv i hi p hp).1, nextLe := fun i hi p hp => (hnx i hi p hp).2,
           prevLe := fun i hi p hp => (hpv i hi p hp).2, ignore := ?_, bound := ?_, area := ?_, vol := ?_, head := ?_ }
  · intro p hp
    have : (setupCdllist ords d b0 mem).ignore p = 0 := congrFun s3 p
    rw [h4, this]; exact if_pos hp
  · intro i hi
    have : (setupCdllist ords d b0 mem).bound i = b0 := congrFun s5 i
    rw [h7, this]; exact if_pos hi
  · intro i p v hv
    have : (setupCdllist ords d b0 mem).area i p = if p = 0 ∧ i < d then 0 else mem.area i p := congrFun (congrFun s4 i) p
    rw [h5] at hv
    rw [this]
    by_cases hc : p = 0 ∧ i < d
    · rw [if_pos hc]
      dsimp only at hv
      rw [if_pos hc] at hv
      exact Option.some.inj hv
    · dsimp only at hv
      rw [if_neg hc] at hv
      exact absurd hv (by simp)
  · intro i p v hv
    rw [h6] at hv
    exact absurd hv (by simp)
  · intro i hi
    rw [h5]
    dsimp only
    rw [if_pos ⟨rfl, hi⟩]; rfl

end Moo
