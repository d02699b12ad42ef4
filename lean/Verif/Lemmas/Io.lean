import Verif.Spec.Text
import Mathlib.Data.List.Basic
import Mathlib.Tactic.Push
import Mathlib.Tactic.Ring

/-!
# Reading text: properties that hold for every sequence of characters
-/

set_option autoImplicit false

namespace Moo

variable {V : Type*}

theorem dropWhile_length_le (p : Char → Bool) (s : List Char) : (s.dropWhile p).length ≤ s.length :=
  (List.dropWhile_suffix p).length_le

theorem scanNewline_length (s : List Char) : (scanNewline s).2.length ≤ s.length := by
  unfold scanNewline
  split
  · simp
  · split_ifs <;> simp

/-- The three possible results. -/
theorem scanNewline_cases (s : List Char) : (scanNewline s).1 = -1 ∧ s = [] ∨ (scanNewline s).1 = 1 ∧ s = '\n' :: (scanNewline s).2 ∨
    (scanNewline s).1 = 0 ∧ (scanNewline s).2 = s ∧ s ≠ [] ∧ ∀ t, s ≠ '\n' :: t := by
  unfold scanNewline
  split
  · exact Or.inl ⟨rfl, rfl⟩
  · rename_i c t
    split_ifs with h
    · subst h; exact Or.inr (Or.inl ⟨rfl, rfl⟩)
    · refine Or.inr (Or.inr ⟨rfl, rfl, by simp, ?_⟩)
      intro t' e
      exact h (List.cons.inj e).1

theorem skipCommentLine_length (s : List Char) : (skipCommentLine s).2.length ≤ s.length := by
  unfold skipCommentLine
  split
  · simp [scanNewline]
  · split_ifs
    · refine (scanNewline_length _).trans ((dropWhile_length_le _ _).trans (by simp))
    · exact (scanNewline_length _).trans (dropWhile_length_le _ _)

theorem skipCommentLine_progress (s : List Char) (h : (skipCommentLine s).1 = 1) : (skipCommentLine s).2.length < s.length := by
  have key : ∀ s, (scanNewline s).1 = 1 → (scanNewline s).2.length < s.length := by
    intro s h
    rcases scanNewline_cases s with ⟨h1, _⟩ | ⟨_, h2⟩ | ⟨h1, _⟩
    · omega
    · conv_rhs => rw [h2]
      simp
    · omega
  unfold skipCommentLine at h ⊢
  split at h
  · exact key _ h
  · split_ifs at h ⊢
    · exact lt_of_lt_of_le (key _ h) ((dropWhile_length_le _ _).trans (by simp))
    · exact lt_of_lt_of_le (key _ h) (dropWhile_length_le _ _)

theorem skipCommentLine_vals (s : List Char) : (skipCommentLine s).1 = -1 ∨ (skipCommentLine s).1 = 1 ∨ (skipCommentLine s).1 = 0 := by
  have key : ∀ s, (scanNewline s).1 = -1 ∨ (scanNewline s).1 = 1 ∨ (scanNewline s).1 = 0 := by
    intro s
    rcases scanNewline_cases s with ⟨h1, _⟩ | ⟨h1, _⟩ | ⟨h1, _⟩ <;> simp [h1]
  unfold skipCommentLine
  split
  · exact key _
  · split_ifs <;> exact key _

theorem skipSeps_total (fuel : ℕ) : ∀ s : List Char, s.length < fuel → ∃ r, skipSeps fuel s = some r ∧ r.2.length ≤ s.length ∧ (r.1 = -1 ∨ r.1 = 0) := by
  induction fuel with
  | zero => intro s h; omega
  | succ fuel ih =>
    intro s h
    rw [skipSeps]
    split_ifs with h1
    · have := skipCommentLine_progress s h1
      obtain ⟨r, h2, h3, h4⟩ := ih _ (by omega : (skipCommentLine s).2.length < fuel)
      exact ⟨r, h2, by omega, h4⟩
    · refine ⟨_, rfl, skipCommentLine_length s, ?_⟩
      rcases skipCommentLine_vals s with h | h | h
      · exact Or.inl h
      · exact absurd h h1
      · exact Or.inr h

/-- The blocks are large enough for what has been written. -/
structure RdInv (st : RdSt V) : Prop where
  data : st.data.length ≤ st.datasize
  cum : st.cum.length ≤ st.sizessize

theorem push_ok {st : RdSt V} (h : RdInv st) (v : V) : ∃ d, st.push v = some { st with data := st.data ++ [v], datasize := d } ∧
    RdInv { st with data := st.data ++ [v], datasize := d } := by
  have h1 := h.data
  unfold RdSt.push dataInc
  by_cases he : st.data.length = st.datasize
  · simp only [if_pos he]
    rw [if_pos (by omega)]
    exact ⟨_, rfl, by simp; omega, h.cum⟩
  · simp only [if_neg he]
    rw [if_pos (by omega)]
    exact ⟨_, rfl, by simp; omega, h.cum⟩

/-- `st'` is `st` with the values `vs` appended to the data. -/
structure Appended (st st' : RdSt V) (vs : List V) : Prop where
  nobjs : st'.nobjs = st.nobjs
  cum : st'.cum = st.cum
  cur : st'.cur = st.cur
  data : st'.data = st.data ++ vs
  size : st'.sizessize = st.sizessize

theorem readRow_total {scan : NumScan V} (hs : ScanOk scan) (fuel : ℕ) : ∀ (column : ℕ) (st : RdSt V) (s : List Char), s.length < fuel → RdInv st →
    (∃ st' vs, readRow scan fuel column st s = some (.conv st') ∧ Appended st st' vs) ∨
    (∃ st' vs rest, readRow scan fuel column st s = some (.row st' (column + vs.length) rest) ∧ Appended st st' vs ∧ RdInv st' ∧ vs ≠ [] ∧
      rest.length < s.length) := by
  induction fuel with
  | zero => intro c st s h; omega
  | succ fuel ih =>
    intro column st s h hi
    rw [readRow]
    dsimp only
    cases hsc : scan (s.dropWhile isSpaceC) with
    | none => exact Or.inl ⟨st, [], rfl, rfl, rfl, rfl, by simp, rfl⟩
    | some p =>
      obtain ⟨v, r⟩ := p
      dsimp only
      obtain ⟨d, h1, h2⟩ := push_ok hi v
      rw [h1]
      dsimp only
      have hl := (hs.suffix _ _ _ hsc).2
      have hl2 := dropWhile_length_le isSpaceC s
      have hl3 : (skipWs r).length ≤ r.length := dropWhile_length_le isWs r
      have hl4 := scanNewline_length (skipWs r)
      split_ifs with h0
      · rcases ih (column + 1) _ (scanNewline (skipWs r)).2 (by omega) h2 with ⟨st', vs, g1, g2⟩ | ⟨st', vs, rest, g1, g2, g3, g4, g5⟩
        · exact Or.inl ⟨st', v :: vs, g1, g2.nobjs, g2.cum, g2.cur, by rw [g2.data]; simp, g2.size⟩
        · refine Or.inr ⟨st', v :: vs, rest, ?_, ⟨g2.nobjs, g2.cum, g2.cur, by rw [g2.data]; simp, g2.size⟩, g3, by simp, by omega⟩
          rw [g1]
          simp only [List.length_cons]
          congr 2; omega
      · exact Or.inr ⟨_, [v], _, rfl, ⟨rfl, rfl, rfl, rfl, rfl⟩, h2, by simp, by omega⟩

/-- The data has `nobjs` columns and as many rows as counted; closed sets are not empty. -/
structure RdShape (st : RdSt V) : Prop where
  inv : RdInv st
  pos : st.cum ≠ [] → 0 < st.nobjs
  chain : st.cum.Pairwise (· < ·)
  cum0 : ∀ c ∈ st.cum, 0 < c
  curge : st.cum.getLastD 0 ≤ st.cur
  len : st.data.length = st.nobjs * st.cur
  nobj0 : st.nobjs = 0 → st.cur = 0

theorem readSet_total {scan : NumScan V} (hs : ScanOk scan) (fuel : ℕ) : ∀ (st : RdSt V) (s : List Char), s.length + 1 < fuel → RdShape st →
    (∃ code st', readSet scan fuel st s = some (.err code st') ∧ (code = -4 ∨ code = -2 ∨ code = -5)) ∨
    (∃ st' rest, readSet scan fuel st s = some (.fin st' rest) ∧ RdShape st' ∧ st'.cum = st.cum ∧ st.cur < st'.cur ∧ 0 < st'.nobjs ∧
      rest.length < s.length ∧ st'.sizessize = st.sizessize) := by
  induction fuel with
  | zero => intro st s h; omega
  | succ fuel ih =>
    intro st s h hi
    rw [readSet]
    rcases readRow_total hs fuel 0 st s (by omega) hi.inv with ⟨st1, vs, g1, g2⟩ | ⟨st1, vs, rest, g1, g2, g3, g4, g5⟩
    · rw [g1]
      exact Or.inl ⟨-4, st1, rfl, Or.inl rfl⟩
    · rw [g1]
      dsimp only
      by_cases h1 : st1.nobjs = 0 ∨ 0 + vs.length = st1.nobjs
      swap
      · rw [if_pos h1]
        split_ifs
        · exact Or.inl ⟨_, _, rfl, Or.inr (Or.inl rfl)⟩
        · exact Or.inl ⟨_, _, rfl, Or.inr (Or.inr rfl)⟩
      rw [if_neg (not_not.2 h1)]
      rw [Nat.zero_add] at h1
      have hvs : 0 < vs.length := List.length_pos_iff.2 g4
      have hnew : RdShape ({ st1 with nobjs := if st1.nobjs = 0 then 0 + vs.length else st1.nobjs, cur := st1.cur + 1 } : RdSt V) := by
        refine ⟨⟨g3.data, g3.cum⟩, ?_, ?_, ?_, ?_, ?_, ?_⟩
        · intro _; dsimp only; split_ifs <;> omega
        · rw [g2.cum]; exact hi.chain
        · rw [g2.cum]; exact hi.cum0
        · dsimp only; rw [g2.cum, g2.cur]; have := hi.curge; omega
        · dsimp only
          rw [g2.data, List.length_append, hi.len, g2.cur, Nat.zero_add]
          by_cases h0 : st1.nobjs = 0
          · rw [if_pos h0]
            have h0' : st.nobjs = 0 := by rw [← g2.nobjs]; exact h0
            rw [hi.nobj0 h0', h0']
            simp
          · rw [if_neg h0]
            have : vs.length = st1.nobjs := by omega
            rw [this, g2.nobjs]; ring
        · intro h0
          exfalso
          revert h0
          dsimp only
          split_ifs <;> omega
      have hl := skipCommentLine_length rest
      by_cases h2 : (skipCommentLine rest).1 = 0
      · rw [if_pos h2]
        rcases ih _ (skipCommentLine rest).2 (by omega) hnew with ⟨code, st', e1, e2⟩ | ⟨st', r', e1, e2, e3, e4, e5, e6, e7⟩
        · exact Or.inl ⟨code, st', e1, e2⟩
        · refine Or.inr ⟨st', r', e1, e2, by rw [e3]; exact g2.cum, ?_, e5, by omega, by rw [e7]; exact g2.size⟩
          have := g2.cur
          dsimp only at e4
          omega
      · rw [if_neg h2]
        refine Or.inr ⟨_, _, rfl, hnew, g2.cum, ?_, ?_, by omega, g2.size⟩
        · have := g2.cur
          dsimp only
          omega
        · dsimp only; split_ifs <;> omega

theorem le_getLastD {l : List ℕ} (h : l.Pairwise (· < ·)) {a : ℕ} (ha : a ∈ l) : a ≤ l.getLastD 0 := by
  induction l generalizing a with
  | nil => simp at ha
  | cons x l ih =>
    cases l with
    | nil => simp at ha; simp [ha]
    | cons y l =>
      rw [List.pairwise_cons] at h
      have hlast : (x :: y :: l).getLastD 0 = (y :: l).getLastD 0 := by simp
      rw [hlast]
      rcases List.mem_cons.1 ha with rfl | ha
      · exact (h.1 y (by simp)).le.trans (ih h.2 (by simp))
      · exact ih h.2 ha

theorem beginSet_ok {st : RdSt V} (h : st.cum.length ≤ st.sizessize) : ∃ z, st.beginSet = some { st with sizessize := z, cur := st.cum.getLastD 0 } ∧
    st.cum.length < z := by
  unfold RdSt.beginSet dataInc
  by_cases he : st.cum.length = st.sizessize
  · simp only [if_pos he]
    rw [if_pos (by omega)]
    exact ⟨_, rfl, by omega⟩
  · simp only [if_neg he]
    rw [if_pos (by omega)]
    exact ⟨_, rfl, by omega⟩

/-- What is true of every accepted input. -/
structure RdGood (nobjs : ℕ) (cum : List ℕ) (data : List V) : Prop where
  pos : 0 < nobjs
  ne : cum ≠ []
  chain : cum.Pairwise (· < ·)
  cum0 : ∀ c ∈ cum, 0 < c
  len : data.length = nobjs * cum.getLastD 0

theorem readSets_total {scan : NumScan V} (hs : ScanOk scan) (fuel : ℕ) : ∀ (st : RdSt V) (s : List Char), s.length + 2 < fuel → RdShape st →
    st.cur = st.cum.getLastD 0 →
    ∃ out, readSets scan fuel st s = some out ∧ (out.code = 0 ∧ RdGood out.nobjs out.cum out.data ∨ out.code = -4 ∨ out.code = -2 ∨ out.code = -5) := by
  induction fuel with
  | zero => intro st s h; omega
  | succ fuel ih =>
    intro st s h hi hcur
    rw [readSets]
    obtain ⟨z, hz1, hz2⟩ := beginSet_ok hi.inv.cum
    rw [hz1]
    dsimp only
    have hst : RdShape ({ st with sizessize := z, cur := st.cum.getLastD 0 } : RdSt V) :=
      ⟨⟨hi.inv.data, hz2.le⟩, hi.pos, hi.chain, hi.cum0, le_rfl, by rw [← hcur]; exact hi.len, by rw [← hcur]; exact hi.nobj0⟩
    rcases readSet_total hs fuel _ s (by omega) hst with ⟨code, st', e1, e2⟩ | ⟨st', r, e1, e2, e3, e4, e5, e6, e7⟩
    · rw [e1]
      exact ⟨_, rfl, Or.inr e2⟩
    · rw [e1]
      dsimp only
      obtain ⟨⟨rv, r2⟩, k1, k2, k3⟩ := skipSeps_total fuel r (by omega)
      rw [k1]
      dsimp only at k2 k3 ⊢
      dsimp only at e3 e4
      have hlast : (st'.cum ++ [st'.cur]).getLastD 0 = st'.cur := by simp
      have hge := e2.curge
      have hsz : st'.cum.length + 1 ≤ st'.sizessize := by rw [e3, e7]; exact hz2
      have hnew : RdShape ({ st' with cum := st'.cum ++ [st'.cur] } : RdSt V) := by
        refine ⟨⟨e2.inv.data, by simpa using hsz⟩, fun _ => e5, ?_, ?_, ?_, e2.len, e2.nobj0⟩
        · rw [List.pairwise_append]
          refine ⟨e2.chain, by simp, ?_⟩
          intro a ha b hb
          rw [List.mem_singleton] at hb
          subst hb
          rw [e3] at ha
          exact lt_of_le_of_lt (le_getLastD hi.chain ha) e4
        · intro c hc
          simp only [List.mem_append, List.mem_singleton] at hc
          rcases hc with hc | rfl
          · exact e2.cum0 c hc
          · omega
        · dsimp only; rw [hlast]
      split_ifs with h1
      · exact ih _ r2 (by omega) hnew hlast.symm
      · exact ⟨_, rfl, Or.inl ⟨rfl, e5, by simp [RdSt.finish], hnew.chain, hnew.cum0, by
          simp only [RdSt.finish]; rw [hlast]; exact e2.len⟩⟩

end Moo
