import Verif.Model.Eaf3d
import Mathlib.Data.List.Basic
import Mathlib.Data.List.Sort
import Mathlib.Tactic.Push

/-!
# The levels of `eaf3d`: searches, and `add2level`
-/

set_option autoImplicit false
set_option linter.unusedSectionVars false

namespace Moo

section generic
variable {β : Type*} {R : β → β → Prop}

theorem takeWhile_eq_filter (p : β → Bool) : ∀ {L : List β}, L.Pairwise R → (∀ a b, R a b → p b = true → p a = true) →
    L.takeWhile p = L.filter p
  | [], _, _ => rfl
  | a :: L, hs, hp => by
    rw [List.pairwise_cons] at hs
    rcases Bool.eq_false_or_eq_true (p a) with h | h
    · rw [List.takeWhile_cons_of_pos h, List.filter_cons_of_pos h, takeWhile_eq_filter p hs.2 hp]
    · rw [List.takeWhile_cons_of_neg (by simp [h]), List.filter_cons_of_neg (by simp [h])]
      symm
      rw [List.filter_eq_nil_iff]
      intro b hb hpb
      rw [hp a b (hs.1 b hb) hpb] at h
      exact absurd h (by simp)

theorem dropWhile_eq_filter (p : β → Bool) : ∀ {L : List β}, L.Pairwise R → (∀ a b, R a b → p b = true → p a = true) →
    L.dropWhile p = L.filter (fun a => !p a)
  | [], _, _ => rfl
  | a :: L, hs, hp => by
    have hs' := hs
    rw [List.pairwise_cons] at hs
    rcases Bool.eq_false_or_eq_true (p a) with h | h
    · rw [List.dropWhile_cons_of_pos h, List.filter_cons_of_neg (by simp [h]), dropWhile_eq_filter p hs.2 hp]
    · rw [List.dropWhile_cons_of_neg (by simp [h])]
      symm
      rw [List.filter_eq_self]
      intro b hb
      rcases List.mem_cons.mp hb with rfl | hb
      · simp [h]
      · rcases Bool.eq_false_or_eq_true (p b) with h' | h'
        · rw [hp a b (hs.1 b hb) h'] at h
          exact absurd h (by simp)
        · simp [h']

end generic

variable {α : Type*} [LinearOrder α]

/-- The order of the nodes of a level. -/
def LLt (a b : LNode α) : Prop := a.x < b.x ∧ b.y < a.y

/-- A level: the two sentinels around a staircase. -/
structure IsLvl (mn mx junk : α) (L : List (LNode α)) : Prop where
  sorted : L.Pairwise LLt
  head : headNode mn mx junk ∈ L
  tail : tailNode mn mx junk ∈ L
  bnd : ∀ n ∈ L, n = headNode mn mx junk ∨ n = tailNode mn mx junk ∨ (mn < n.x ∧ n.x < mx ∧ mn < n.y ∧ n.y < mx)

/-- `(a, b)` is weakly dominated by a node of the level. -/
def Reg (L : List (LNode α)) (a b : α) : Prop := ∃ n ∈ L, n.x ≤ a ∧ n.y ≤ b

section stair
variable {L : List (LNode α)}

theorem LLt.trans {a b c : LNode α} (h1 : LLt a b) (h2 : LLt b c) : LLt a c := ⟨h1.1.trans h2.1, h2.2.trans h1.2⟩

theorem lvl_cases (h : L.Pairwise LLt) {a b : LNode α} (ha : a ∈ L) (hb : b ∈ L) : a = b ∨ LLt a b ∨ LLt b a := by
  induction h with
  | nil => simp at ha
  | cons h1 _ ih =>
    rcases List.mem_cons.mp ha with ea | ha'
    · rcases List.mem_cons.mp hb with eb | hb'
      · exact Or.inl (ea.trans eb.symm)
      · exact Or.inr (Or.inl (ea ▸ h1 _ hb'))
    · rcases List.mem_cons.mp hb with eb | hb'
      · exact Or.inr (Or.inr (eb ▸ h1 _ ha'))
      · exact ih ha' hb'

theorem lvl_eq_of_le (h : L.Pairwise LLt) {a b : LNode α} (ha : a ∈ L) (hb : b ∈ L) (hx : a.x ≤ b.x) (hy : a.y ≤ b.y) : a = b := by
  rcases lvl_cases h ha hb with h | h | h
  · exact h
  · exact absurd h.2 (not_lt.mpr hy)
  · exact absurd h.1 (not_lt.mpr hx)

theorem lvl_eq_of_y (h : L.Pairwise LLt) {a b : LNode α} (ha : a ∈ L) (hb : b ∈ L) (hy : a.y = b.y) : a = b := by
  rcases le_total a.x b.x with hx | hx
  · exact lvl_eq_of_le h ha hb hx hy.le
  · exact (lvl_eq_of_le h hb ha hx hy.ge).symm

theorem lvl_eq_of_x (h : L.Pairwise LLt) {a b : LNode α} (ha : a ∈ L) (hb : b ∈ L) (hx : a.x = b.x) : a = b := by
  rcases le_total a.y b.y with hy | hy
  · exact lvl_eq_of_le h ha hb hx.le hy
  · exact (lvl_eq_of_le h hb ha hx.ge hy).symm

/-- `a.x < b.x` iff `b.y < a.y`. -/
theorem lvl_xy (h : L.Pairwise LLt) {a b : LNode α} (ha : a ∈ L) (hb : b ∈ L) : a.x < b.x ↔ b.y < a.y := by
  rcases lvl_cases h ha hb with rfl | h | h
  · simp
  · exact ⟨fun _ => h.2, fun _ => h.1⟩
  · exact ⟨fun h' => absurd h' (not_lt.mpr h.1.le), fun h' => absurd h' (not_lt.mpr h.2.le)⟩

theorem lvl_xy_le (h : L.Pairwise LLt) {a b : LNode α} (ha : a ∈ L) (hb : b ∈ L) : a.x ≤ b.x ↔ b.y ≤ a.y := by
  have := lvl_xy h hb ha
  rw [← not_lt, ← not_lt, this]

theorem lvl_nodup (h : L.Pairwise LLt) : L.Nodup := h.imp (fun h' => by rintro rfl; exact lt_irrefl _ h'.1)

end stair

section search
variable {mn mx junk : α} {L : List (LNode α)}

theorem findAtLeft_spec (h : IsLvl mn mx junk L) {x : α} (hx : mn < x) :
    ∃ n ∈ L, findAtLeft L x = some n ∧ n.x ≤ x ∧ ∀ m ∈ L, m.x ≤ x → m.x ≤ n.x := by
  unfold findAtLeft
  rw [takeWhile_eq_filter (R := LLt) _ h.sorted (by intro a b hab; simp only [decide_eq_true_eq]; exact fun hb => (hab.1.le.trans hb))]
  have hmem : headNode mn mx junk ∈ L.filter (fun n => decide (n.x ≤ x)) := by
    rw [List.mem_filter]
    exact ⟨h.head, by simp [headNode, hx.le]⟩
  have hne : L.filter (fun n => decide (n.x ≤ x)) ≠ [] := List.ne_nil_of_mem hmem
  have hl := List.getLast_mem hne
  have hl' := List.mem_filter.mp hl
  refine ⟨_, hl'.1, List.getLast?_eq_getLast_of_ne_nil hne, by simpa using hl'.2, ?_⟩
  intro m hm hmx
  have hm' : m ∈ L.filter (fun n => decide (n.x ≤ x)) := List.mem_filter.mpr ⟨hm, by simpa using hmx⟩
  have hs : (L.filter (fun n => decide (n.x ≤ x))).Pairwise LLt := h.sorted.filter _
  rw [← List.dropLast_append_getLast hne] at hm' hs
  rcases List.mem_append.mp hm' with h' | h'
  · exact ((List.pairwise_append.mp hs).2.2 m h' _ (by simp)).1.le
  · rw [List.mem_singleton] at h'
    rw [← h']

theorem findBelow_spec (h : IsLvl mn mx junk L) {y : α} (hy : mn < y) :
    ∃ n ∈ L, findBelow L y = some n ∧ n.y < y ∧ ∀ m ∈ L, m.y < y → m.y ≤ n.y := by
  unfold findBelow
  cases hf : L.find? (fun n => decide (n.y < y)) with
  | none =>
    rw [List.find?_eq_none] at hf
    have := hf _ h.tail
    exact absurd (decide_eq_true hy) this
  | some n =>
    have h1 := List.mem_of_find?_eq_some hf
    have h2 := List.find?_some hf
    refine ⟨n, h1, rfl, by simpa using h2, ?_⟩
    intro m hm hmy
    rw [List.find?_eq_some_iff_append] at hf
    obtain ⟨-, as, bs, rfl, has⟩ := hf
    rcases List.mem_append.mp hm with h' | h'
    · exact absurd hmy (by simpa using has m h')
    · rcases List.mem_cons.mp h' with rfl | h'
      · exact le_refl _
      · have := h.sorted
        rw [List.pairwise_append, List.pairwise_cons] at this
        exact (this.2.1.1 m h').2.le

theorem nextIn_spec (h : L.Pairwise LLt) {n t : LNode α} (hn : n ∈ L) (ht : t ∈ L) (hty : t.y < n.y) :
    ∃ m ∈ L, nextIn L n = some m ∧ m.y < n.y ∧ ∀ k ∈ L, k.y < n.y → k.y ≤ m.y := by
  obtain ⟨as, bs, rfl⟩ := List.append_of_mem hn
  have hs := h
  rw [List.pairwise_append, List.pairwise_cons] at h
  have hnd := lvl_nodup hs
  have has : ∀ a ∈ as, a ≠ n := by
    intro a ha e
    have := h.2.2 a ha n (by simp)
    rw [e] at this
    exact lt_irrefl _ this.1
  have hd : (as ++ n :: bs).dropWhile (fun m => decide (m ≠ n)) = n :: bs := by
    rw [List.dropWhile_append_of_pos (by simpa using has)]
    simp
  cases bs with
  | nil =>
    rcases List.mem_append.mp ht with h' | h'
    · exact absurd hty (not_lt.mpr (h.2.2 t h' n (by simp)).2.le)
    · rw [List.mem_singleton] at h'
      exact absurd hty (by rw [h']; exact lt_irrefl _)
  | cons m bs =>
    refine ⟨m, by simp, ?_, (h.2.1.1 m (by simp)).2, ?_⟩
    · unfold nextIn
      rw [hd]
    · intro k hk hky
      rcases List.mem_append.mp hk with h' | h'
      · exact absurd hky (not_lt.mpr (h.2.2 k h' n (by simp)).2.le)
      · rcases List.mem_cons.mp h' with rfl | h'
        · exact absurd hky (lt_irrefl _)
        · rcases List.mem_cons.mp h' with rfl | h'
          · exact le_refl _
          · have := h.2.1.2
            rw [List.pairwise_cons] at this
            exact (this.1 k h').2.le

end search

section add
variable {mn mx junk : α} {L : List (LNode α)}

/-- The nodes before the place of `(x, y)`. -/
def Above (x y : α) (n : LNode α) : Bool := decide (y < n.y ∨ (n.y = y ∧ x < n.x))

theorem above_mono {x y : α} (a b : LNode α) (h : LLt a b) (hb : Above x y b = true) : Above x y a = true := by
  unfold Above at *
  rw [decide_eq_true_eq] at *
  rcases hb with hb | hb
  · exact Or.inl (hb.trans h.2)
  · exact Or.inl (hb.1 ▸ h.2)

theorem levelSplit_eq (h : L.Pairwise LLt) (x y : α) : levelSplit L x y = (L.filter (Above x y), L.filter (fun n => !Above x y n)) := by
  rw [← takeWhile_eq_filter (R := LLt) _ h above_mono, ← dropWhile_eq_filter (R := LLt) _ h above_mono]
  unfold levelSplit
  induction h with
  | nil => rfl
  | @cons a L h1 h2 ih =>
    by_cases ha : y < a.y
    · have hA : Above x y a = true := by simp [Above, ha]
      rw [List.takeWhile_cons_of_pos (by simpa using ha), List.dropWhile_cons_of_pos (by simpa using ha), List.takeWhile_cons_of_pos hA,
        List.dropWhile_cons_of_pos hA]
      simp only at ih ⊢
      rw [Prod.mk.injEq] at ih ⊢
      generalize L.dropWhile (fun n => decide (y < n.y)) = D at ih ⊢
      cases D with
      | nil => exact ⟨by rw [← ih.1], ih.2⟩
      | cons b bs =>
        by_cases hc : b.y = y ∧ b.x > x
        · simp only [if_pos hc] at ih ⊢
          exact ⟨by rw [← ih.1]; rfl, ih.2⟩
        · simp only [if_neg hc] at ih ⊢
          exact ⟨by rw [← ih.1], ih.2⟩
    · rw [List.takeWhile_cons_of_neg (by simpa using ha), List.dropWhile_cons_of_neg (by simpa using ha)]
      simp only
      by_cases hc : a.y = y ∧ a.x > x
      · have hA : Above x y a = true := by simp [Above, hc.1, hc.2]
        rw [if_pos hc, List.takeWhile_cons_of_pos hA, List.dropWhile_cons_of_pos hA]
        have hn : ∀ b ∈ L, Above x y b = false := by
          intro b hb
          have := (h1 b hb).2
          unfold Above
          rw [decide_eq_false_iff_not]
          rintro (h | h)
          · exact absurd (h.trans this) (by rw [hc.1]; exact lt_irrefl _)
          · rw [h.1, hc.1] at this
            exact lt_irrefl _ this
        have e1 : L.takeWhile (Above x y) = [] := by
          rw [takeWhile_eq_filter (R := LLt) _ h2 above_mono, List.filter_eq_nil_iff]
          intro b hb
          simp [hn b hb]
        have e2 : L.dropWhile (Above x y) = L := by
          rw [dropWhile_eq_filter (R := LLt) _ h2 above_mono, List.filter_eq_self]
          intro b hb
          simp [hn b hb]
        rw [e1, e2]
        rfl
      · have hA : ¬ Above x y a = true := by
          unfold Above
          rw [decide_eq_true_eq]
          rintro (h | h)
          · exact ha h
          · exact hc h
        rw [if_neg hc, List.takeWhile_cons_of_neg hA, List.dropWhile_cons_of_neg hA]

theorem levelRemove_spec (nn : LNode α) : ∀ (l out : List (LNode α)) (rem : ℕ → Option (LNode α)), (∃ n ∈ l, n.x < nn.x) →
    ∃ rem', levelRemove nn l out rem = some (l.dropWhile (fun n => decide (nn.x ≤ n.x)),
        out ++ (l.takeWhile (fun n => decide (nn.x ≤ n.x))).filter (fun n => decide (n.z < nn.z)), rem') ∧
      ∀ i, rem' i = rem i ∨ (rem' i = some nn ∧ ∃ n ∈ l.takeWhile (fun n => decide (nn.x ≤ n.x)), n.id = i ∧ ¬ n.z < nn.z)
  | [], _, _, h => by simp at h
  | n :: l, out, rem, h => by
    by_cases hx : nn.x ≤ n.x
    · have h' : ∃ m ∈ l, m.x < nn.x := by
        obtain ⟨m, hm, hmx⟩ := h
        rcases List.mem_cons.mp hm with rfl | hm
        · exact absurd hmx (not_lt.mpr hx)
        · exact ⟨m, hm, hmx⟩
      have hd : (fun n : LNode α => decide (nn.x ≤ n.x)) n = true := by simpa using hx
      unfold levelRemove
      rw [if_pos hx, List.dropWhile_cons_of_pos (p := fun n : LNode α => decide (nn.x ≤ n.x)) hd, List.takeWhile_cons_of_pos (p := fun n : LNode α => decide (nn.x ≤ n.x)) hd]
      by_cases hz : n.z < nn.z
      · rw [if_pos hz, List.filter_cons_of_pos (by simpa using hz)]
        obtain ⟨rem', e, hr⟩ := levelRemove_spec nn l (out ++ [n]) rem h'
        refine ⟨rem', by rw [e]; simp, ?_⟩
        intro i
        rcases hr i with h1 | ⟨h1, m, hm, h2⟩
        · exact Or.inl h1
        · exact Or.inr ⟨h1, m, List.mem_cons_of_mem _ hm, h2⟩
      · rw [if_neg hz, List.filter_cons_of_neg (by simpa using hz)]
        obtain ⟨rem', e, hr⟩ := levelRemove_spec nn l out (upd rem n.id (some nn)) h'
        refine ⟨rem', e, ?_⟩
        intro i
        rcases hr i with h1 | ⟨h1, m, hm, h2⟩
        · by_cases hi : i = n.id
          · right
            rw [h1, hi, upd_same]
            exact ⟨rfl, n, by simp, rfl, hz⟩
          · left
            rw [h1, upd_ne _ _ hi]
        · exact Or.inr ⟨h1, m, List.mem_cons_of_mem _ hm, h2⟩
    · have hd : ¬ (fun n : LNode α => decide (nn.x ≤ n.x)) n = true := by simpa using hx
      unfold levelRemove
      rw [if_neg hx, List.dropWhile_cons_of_neg (p := fun n : LNode α => decide (nn.x ≤ n.x)) hd, List.takeWhile_cons_of_neg (p := fun n : LNode α => decide (nn.x ≤ n.x)) hd]
      exact ⟨rem, by simp, fun i => Or.inl rfl⟩

/-- What `add2level` does when the point is already dominated. -/
theorem add2level_dom {nset : ℕ} {st : St3 α} {k : ℕ} (hk : k < nset) (h : IsLvl mn mx junk (st.levels k)) {x y : α}
    (hy' : y < mx) (hreg : Reg (st.levels k) x y) (z : α) (s : ℕ) (pr : Option (LNode α)) :
    add2level nset st k x y z s pr = some (st, none) := by
  unfold add2level
  rw [if_neg (not_not.mpr hk), levelSplit_eq h.sorted]
  have hpre : headNode mn mx junk ∈ (st.levels k).filter (Above x y) := List.mem_filter.mpr ⟨h.head, by simp [Above, headNode, hy']⟩
  obtain ⟨n, hn, hnx, hny⟩ := hreg
  have hnA : n ∈ (st.levels k).filter (fun n => !Above x y n) := by
    refine List.mem_filter.mpr ⟨hn, ?_⟩
    simp only [Above, Bool.not_eq_true', decide_eq_false_iff_not]
    rintro (h | h)
    · exact absurd hny (not_le.mpr h)
    · exact absurd hnx (not_le.mpr h.2)
  have hs := h.sorted.filter (fun n => !Above x y n)
  revert hpre hnA hs
  generalize (st.levels k).filter (Above x y) = pre
  generalize (st.levels k).filter (fun n => !Above x y n) = post
  intro hpre hnA hs
  cases pre with
  | nil => simp at hpre
  | cons a pre =>
    cases post with
    | nil => simp at hnA
    | cons b post =>
      simp only
      rw [if_neg]
      rw [not_lt]
      rcases List.mem_cons.mp hnA with rfl | h'
      · exact hnx
      · exact ((List.pairwise_cons.mp hs).1 n h').1.le.trans hnx

/-- The effect of `add2level` when the point is not dominated. -/
structure Added (mn mx junk : α) (st st' : St3 α) (k : ℕ) (nn : LNode α) (pr : Option (LNode α)) : Prop where
  sets : st'.sets = st.sets
  other : ∀ j, j ≠ k → st'.levels j = st.levels j ∧ st'.outs j = st.outs j
  lvl : IsLvl mn mx junk (st'.levels k)
  mem : ∀ m, m ∈ st'.levels k ↔ m = nn ∨ (m ∈ st.levels k ∧ ¬ (nn.x ≤ m.x ∧ nn.y ≤ m.y))
  outs : ∃ R, st'.outs k = st.outs k ++ R ∧ R.Nodup ∧ ∀ m, m ∈ R ↔ m ∈ st.levels k ∧ nn.x ≤ m.x ∧ nn.y ≤ m.y ∧ m.z < nn.z
  fresh : st'.heap.fresh = st.heap.fresh + 1
  prom : st'.heap.prom = upd st.heap.prom nn.id pr
  eql : st'.heap.eql = upd st.heap.eql nn.id none
  rem : ∀ i, st'.heap.rem i = upd st.heap.rem nn.id none i ∨
    (st'.heap.rem i = some nn ∧ ∃ m ∈ st.levels k, m.id = i ∧ nn.x ≤ m.x ∧ nn.y ≤ m.y ∧ ¬ m.z < nn.z)

/-- What `add2level` does when the point is not dominated. -/
theorem add2level_new {nset : ℕ} {st : St3 α} {k : ℕ} (hk : k < nset) (h : IsLvl mn mx junk (st.levels k)) {x y : α} (hx : mn < x) (hx' : x < mx) (hy : mn < y)
    (hy' : y < mx) (hreg : ¬ Reg (st.levels k) x y) (z : α) (s : ℕ) (pr : Option (LNode α)) :
    ∃ st', add2level nset st k x y z s pr = some (st', some ⟨st.heap.fresh, x, y, z, s⟩) ∧ Added mn mx junk st st' k ⟨st.heap.fresh, x, y, z, s⟩ pr := by
  unfold add2level
  rw [if_neg (not_not.mpr hk), levelSplit_eq h.sorted]
  generalize hL : st.levels k = L at *
  have hpre : headNode mn mx junk ∈ L.filter (Above x y) := List.mem_filter.mpr ⟨h.head, by simp [Above, headNode, hy']⟩
  have hpost : tailNode mn mx junk ∈ L.filter (fun n => !Above x y n) := by
    refine List.mem_filter.mpr ⟨h.tail, ?_⟩
    rw [Bool.not_eq_true']
    apply decide_eq_false
    rintro (h | h)
    · exact absurd hy (not_lt.mpr h.le)
    · exact absurd h.1 hy.ne
  have hsplit : L.filter (Above x y) ++ L.filter (fun n => !Above x y n) = L := by
    rw [← takeWhile_eq_filter (R := LLt) _ h.sorted above_mono, ← dropWhile_eq_filter (R := LLt) _ h.sorted above_mono]
    exact List.takeWhile_append_dropWhile
  have hmpre : ∀ m ∈ L.filter (Above x y), y ≤ m.y := by
    intro m hm
    have := (List.mem_filter.mp hm).2
    simp only [Above, decide_eq_true_eq] at this
    rcases this with h | h
    · exact h.le
    · exact h.1.ge
  have hmpost : ∀ m ∈ L.filter (fun n => !Above x y n), m ∈ L ∧ (m.y < y ∨ (m.y = y ∧ m.x ≤ x)) := by
    intro m hm
    have h1 := (List.mem_filter.mp hm)
    refine ⟨h1.1, ?_⟩
    have := h1.2
    simp only [Above, Bool.not_eq_true', decide_eq_false_iff_not, not_or, not_lt, not_and] at this
    rcases this.1.lt_or_eq with h | h
    · exact Or.inl h
    · exact Or.inr ⟨h, this.2 h⟩
  have hxpost : ∀ m ∈ L.filter (fun n => !Above x y n), x < m.x ∧ m.y < y := by
    intro m hm
    obtain ⟨h1, h2⟩ := hmpost m hm
    have h3 : x < m.x := by
      by_contra hc
      exact hreg ⟨m, h1, not_lt.mp hc, by rcases h2 with h | h; exact h.le; exact h.1.le⟩
    refine ⟨h3, ?_⟩
    rcases h2 with h | h
    · exact h
    · exact absurd h.2 (not_le.mpr h3)
  have hs := h.sorted
  rw [← hsplit] at hs
  have hhead := h.head
  have htail := h.tail
  have hbnd := h.bnd
  rw [← hsplit] at hhead htail hbnd
  have hmemL : ∀ m, m ∈ L ↔ m ∈ L.filter (Above x y) ∨ m ∈ L.filter (fun n => !Above x y n) := by
    intro m
    conv_lhs => rw [← hsplit]
    exact List.mem_append
  revert hpre hpost hsplit hmpre hmpost hxpost hs hhead htail hbnd hmemL
  generalize L.filter (Above x y) = pre
  generalize L.filter (fun n => !Above x y n) = post
  intro hpre hpost hsplit hmpre hmpost hxpost hs hhead htail hbnd hmemL
  have hps := List.pairwise_append.mp hs
  cases hpre' : pre with
  | nil => rw [hpre'] at hpre; simp at hpre
  | cons a0 pre0 =>
    rw [← hpre']
    cases post with
    | nil => simp at hpost
    | cons aux post =>
      simp only [hpre']
      rw [← hpre']
      have haux := hxpost aux (by simp)
      rw [if_pos haux.1]
      obtain ⟨rem', e, hr⟩ := levelRemove_spec (⟨st.heap.fresh, x, y, z, s⟩ : LNode α) pre.reverse (st.outs k) (upd st.heap.rem st.heap.fresh none)
        ⟨_, List.mem_reverse.mpr hpre, hx⟩
      simp only at e hr
      rw [e]
      simp only
      -- the reversed prefix, in terms of filters
      have hrs : pre.reverse.Pairwise (fun a b => LLt b a) := List.pairwise_reverse.mpr hps.1
      have hmono : ∀ a b : LNode α, LLt b a → decide (x ≤ b.x) = true → decide (x ≤ a.x) = true := by
        intro a b hab hb
        rw [decide_eq_true_eq] at *
        exact hb.trans hab.1.le
      rw [takeWhile_eq_filter (R := fun a b => LLt b a) _ hrs hmono] at hr ⊢
      rw [dropWhile_eq_filter (R := fun a b => LLt b a) _ hrs hmono]
      rw [← List.filter_reverse, List.reverse_reverse]
      refine ⟨_, rfl, rfl, ?_, ?_, ?_, ?_, rfl, rfl, rfl, ?_⟩
      · intro j hj
        exact ⟨upd_ne _ _ hj, upd_ne _ _ hj⟩
      · simp only [upd_same]
        refine ⟨?_, ?_, ?_, ?_⟩
        · rw [List.pairwise_append]
          refine ⟨hps.1.filter _, ?_, ?_⟩
          · rw [List.pairwise_cons]
            refine ⟨fun b hb => hxpost b hb, hps.2.1⟩
          · intro a ha b hb
            obtain ⟨ha1, ha2⟩ := List.mem_filter.mp ha
            simp only [Bool.not_eq_true', decide_eq_false_iff_not, not_le] at ha2
            rcases List.mem_cons.mp hb with rfl | hb
            · refine ⟨ha2, lt_of_le_of_ne (hmpre a ha1) ?_⟩
              intro hya
              simp only at hya
              apply hreg
              refine ⟨a, (hmemL a).mpr (Or.inl ha1), ha2.le, hya.ge⟩
            · exact hps.2.2 a ha1 b hb
        · refine List.mem_append_left _ (List.mem_filter.mpr ⟨hpre, ?_⟩)
          rw [Bool.not_eq_true']
          exact decide_eq_false (not_le.mpr hx)
        · exact List.mem_append_right _ (List.mem_cons_of_mem _ hpost)
        · intro n hn
          rcases List.mem_append.mp hn with hn | hn
          · exact hbnd n (List.mem_append_left _ (List.mem_filter.mp hn).1)
          · rcases List.mem_cons.mp hn with rfl | hn
            · exact Or.inr (Or.inr ⟨hx, hx', hy, hy'⟩)
            · exact hbnd n (List.mem_append_right _ hn)
      · intro m
        simp only [upd_same]
        rw [List.mem_append, List.mem_cons, List.mem_filter, hL, hmemL m]
        simp only [Bool.not_eq_true', decide_eq_false_iff_not]
        constructor
        · rintro (⟨h1, h2⟩ | h1 | h1)
          · exact Or.inr ⟨Or.inl h1, fun h => h2 h.1⟩
          · exact Or.inl h1
          · exact Or.inr ⟨Or.inr h1, fun h => absurd h.2 (not_le.mpr (hxpost m h1).2)⟩
        · rintro (h1 | ⟨h1 | h1, h2⟩)
          · exact Or.inr (Or.inl h1)
          · exact Or.inl ⟨h1, fun h => h2 ⟨h, hmpre m h1⟩⟩
          · exact Or.inr (Or.inr h1)
      · simp only [upd_same]
        refine ⟨_, rfl, ?_, ?_⟩
        · apply List.Nodup.filter
          apply List.Nodup.filter
          rw [List.nodup_reverse]
          exact lvl_nodup hps.1
        · intro m
          rw [List.mem_filter, List.mem_filter, List.mem_reverse, hL, hmemL m]
          simp only [decide_eq_true_eq]
          constructor
          · rintro ⟨⟨h1, h2⟩, h3⟩
            exact ⟨Or.inl h1, h2, hmpre m h1, h3⟩
          · rintro ⟨h1 | h1, h2, h3, h4⟩
            · exact ⟨⟨h1, h2⟩, h4⟩
            · exact absurd h3 (not_le.mpr (hxpost m h1).2)
      · intro i
        rcases hr i with h1 | ⟨h1, m, hm, h2, h3⟩
        · exact Or.inl h1
        · rw [List.mem_filter, List.mem_reverse] at hm
          simp only [decide_eq_true_eq] at hm
          exact Or.inr ⟨h1, m, by rw [hL]; exact (hmemL m).mpr (Or.inl hm.1), h2, hm.2, hmpre m hm.1, h3⟩

end add

end Moo
