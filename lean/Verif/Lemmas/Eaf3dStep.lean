import Verif.Lemmas.Eaf3dLevel
import Mathlib.Logic.Relation
import Mathlib.Data.List.Nodup

/-!
# One iteration of `eaf3df`: which points are offered to which level
-/

set_option autoImplicit false
set_option linter.unusedSectionVars false

namespace Moo

variable {α : Type*} [LinearOrder α]

/-- The sequence of a tree `set[i]`. -/
structure IsSet (mn mx : α) (S : List (α × α)) : Prop where
  sorted : S.Pairwise (fun a b => a.1 < b.1 ∧ b.2 < a.2)
  head : (mn, mx) ∈ S
  tail : (mx, mn) ∈ S
  bnd : ∀ q ∈ S, q = (mn, mx) ∨ q = (mx, mn) ∨ (mn < q.1 ∧ q.1 < mx ∧ mn < q.2 ∧ q.2 < mx)

/-- `(a, b)` is weakly dominated by a point of the set. -/
def SReg (S : List (α × α)) (a b : α) : Prop := ∃ q ∈ S, q.1 ≤ a ∧ q.2 ≤ b

/-- What does not change during an iteration: the bounds, the number of sets, the state before, the new point, and a property of the first
coordinates that occur. -/
structure Ctx3 (α : Type*) where
  mn : α
  mx : α
  junk : α
  nset : ℕ
  st : St3 α
  p : Pt3 α
  xs : α → Prop

/-- The levels before the iteration. -/
def Ctx3.L (C : Ctx3 α) (k : ℕ) : List (LNode α) := C.st.levels k
/-- The set of the new point before the iteration. -/
def Ctx3.S (C : Ctx3 α) : List (α × α) := C.st.sets C.p.set

/-- The facts about the context that are used. -/
structure Ctx3.Ok (C : Ctx3 α) : Prop where
  lvl : ∀ k, IsLvl C.mn C.mx C.junk (C.L k)
  set : IsSet C.mn C.mx C.S
  px : C.mn < C.p.x ∧ C.p.x < C.mx
  py : C.mn < C.p.y ∧ C.p.y < C.mx
  xp : C.xs C.p.x
  xn : ∀ k, ∀ n ∈ C.L k, C.mn < n.x → n.x < C.mx → C.xs n.x
  zs : ∀ k, ∀ n ∈ C.L k, C.mn < n.x → n.x < C.mx → n.z ≤ C.p.z

/-- One call of `add2level`, with the assignment of `equal` that follows it. -/
def Promo (C : Ctx3 α) (st st' : St3 α) : Prop :=
  ∃ (j : ℕ) (x y : α) (pr tn : Option (LNode α)) (st1 : St3 α),
    j < C.nset ∧ x < C.mx ∧ y < C.mx ∧ C.p.x ≤ x ∧ C.p.y ≤ y ∧ ¬ SReg C.S x y ∧ C.xs x ∧
    ((pr = none ∧ j = 0) ∨ ∃ k m, pr = some m ∧ j = k + 1 ∧ m ∈ C.L k ∧ m.x ≤ x ∧ m.y ≤ y) ∧
    add2level C.nset st j x y C.p.z C.p.set pr = some (st1, tn) ∧
    ((∃ m t, pr = some m ∧ tn = some t ∧ (m.z = C.p.z ∧ m.x = x ∧ m.y = y) ∧ st' = setEqual st1 m t) ∨
      (st' = st1 ∧ ∀ m t, pr = some m → tn = some t → ¬ (m.z = C.p.z ∧ m.x = x ∧ m.y = y)))

/-- A node added to level `k` during the iteration. -/
structure NewNode (C : Ctx3 α) (k : ℕ) (n : LNode α) : Prop where
  id : C.st.heap.fresh ≤ n.id
  z : n.z = C.p.z
  set : n.set = C.p.set
  px : C.p.x ≤ n.x
  py : C.p.y ≤ n.y
  nreg : ¬ Reg (C.L k) n.x n.y
  nset : ¬ SReg C.S n.x n.y
  lt : k < C.nset
  prev : k = 0 ∨ Reg (C.L (k - 1)) n.x n.y
  xs : C.xs n.x
  bx : n.x < C.mx
  by' : n.y < C.mx

/-- The levels and the output during the iteration. -/
structure Mid (C : Ctx3 α) (st : St3 α) : Prop where
  lvl : ∀ k, IsLvl C.mn C.mx C.junk (st.levels k)
  mem : ∀ k, ∀ n ∈ st.levels k, n ∈ C.L k ∨ NewNode C k n
  mono : ∀ k a b, Reg (C.L k) a b → Reg (st.levels k) a b
  outs : ∀ k, ∃ R, st.outs k = C.st.outs k ++ R ∧ R.Nodup ∧ ∀ n, n ∈ R ↔ n ∈ C.L k ∧ n ∉ st.levels k ∧ n.z < C.p.z
  fresh : C.st.heap.fresh ≤ st.heap.fresh

section
variable {C : Ctx3 α} {st st' : St3 α}

theorem Mid.start (ok : C.Ok) : Mid C C.st where
  lvl := ok.lvl
  mem := fun k n hn => Or.inl hn
  mono := fun k a b h => h
  outs := fun k => ⟨[], by simp, by simp, fun n => by simp only [List.not_mem_nil, false_iff]; exact fun h => h.2.1 h.1⟩
  fresh := le_refl _

/-- The two cases of a call of `add2level`. -/
theorem Promo.cases (ok : C.Ok) (m : Mid C st) (h : Promo C st st') :
    (∃ j x y, st' = st ∧ Reg (st.levels j) x y ∧ x < C.mx ∧ y < C.mx ∧ C.p.x ≤ x ∧ C.p.y ≤ y) ∨
    ∃ (j : ℕ) (x y : α) (pr : Option (LNode α)) (st1 : St3 α),
      j < C.nset ∧ x < C.mx ∧ y < C.mx ∧ C.p.x ≤ x ∧ C.p.y ≤ y ∧ ¬ SReg C.S x y ∧ C.xs x ∧
      ((pr = none ∧ j = 0) ∨ ∃ k m, pr = some m ∧ j = k + 1 ∧ m ∈ C.L k ∧ m.x ≤ x ∧ m.y ≤ y) ∧
      ¬ Reg (st.levels j) x y ∧ Added C.mn C.mx C.junk st st1 j ⟨st.heap.fresh, x, y, C.p.z, C.p.set⟩ pr ∧
      ((∃ m, pr = some m ∧ (m.z = C.p.z ∧ m.x = x ∧ m.y = y) ∧ st' = setEqual st1 m ⟨st.heap.fresh, x, y, C.p.z, C.p.set⟩) ∨
      (st' = st1 ∧ ∀ m, pr = some m → ¬ (m.z = C.p.z ∧ m.x = x ∧ m.y = y))) := by
  obtain ⟨j, x, y, pr, tn, st1, hj, hx, hy, hpx, hpy, hS, hxs, hpr, hadd, he⟩ := h
  have hx0 := ok.px.1.trans_le hpx
  have hy0 := ok.py.1.trans_le hpy
  by_cases hreg : Reg (st.levels j) x y
  · left
    rw [add2level_dom hj (m.lvl j) hy hreg, Option.some.injEq, Prod.mk.injEq] at hadd
    obtain ⟨rfl, rfl⟩ := hadd
    rcases he with ⟨_, _, _, h, _⟩ | ⟨h, _⟩
    · simp at h
    · exact ⟨j, x, y, h, hreg, hx, hy, hpx, hpy⟩
  · right
    obtain ⟨st2, e, hA⟩ := add2level_new hj (m.lvl j) hx0 hx hy0 hy hreg C.p.z C.p.set pr
    rw [e, Option.some.injEq, Prod.mk.injEq] at hadd
    obtain ⟨rfl, rfl⟩ := hadd
    refine ⟨j, x, y, pr, st2, hj, hx, hy, hpx, hpy, hS, hxs, hpr, hreg, hA, ?_⟩
    rcases he with ⟨m, t, h1, h2, h3⟩ | ⟨h1, h2⟩
    · rw [Option.some.injEq] at h2
      subst h2
      exact Or.inl ⟨m, h1, h3⟩
    · exact Or.inr ⟨h1, fun m hm => h2 m _ hm rfl⟩

theorem setEqual_levels (st : St3 α) (m t : LNode α) : (setEqual st m t).levels = st.levels := rfl
theorem setEqual_outs (st : St3 α) (m t : LNode α) : (setEqual st m t).outs = st.outs := rfl
theorem setEqual_sets (st : St3 α) (m t : LNode α) : (setEqual st m t).sets = st.sets := rfl
theorem setEqual_fresh (st : St3 α) (m t : LNode α) : (setEqual st m t).heap.fresh = st.heap.fresh := rfl

/-- The region only grows. -/
theorem Added.mono {mn mx junk : α} {k : ℕ} {nn : LNode α} {pr : Option (LNode α)} (h : Added mn mx junk st st' k nn pr) (j : ℕ) {a b : α}
    (hr : Reg (st.levels j) a b) : Reg (st'.levels j) a b := by
  by_cases hj : j = k
  · subst hj
    obtain ⟨n, hn, h1, h2⟩ := hr
    by_cases hd : nn.x ≤ n.x ∧ nn.y ≤ n.y
    · exact ⟨nn, (h.mem nn).mpr (Or.inl rfl), hd.1.trans h1, hd.2.trans h2⟩
    · exact ⟨n, (h.mem n).mpr (Or.inr ⟨hn, hd⟩), h1, h2⟩
  · rw [(h.other j hj).1]
    exact hr

theorem Mid.of_eq {st1 : St3 α} (m : Mid C st) (hl : st1.levels = st.levels) (ho : st1.outs = st.outs) (hf : st1.heap.fresh = st.heap.fresh) : Mid C st1 where
  lvl := by rw [hl]; exact m.lvl
  mem := by rw [hl]; exact m.mem
  mono := by rw [hl]; exact m.mono
  outs := by rw [hl, ho]; exact m.outs
  fresh := by rw [hf]; exact m.fresh

theorem Mid.added (m : Mid C st) {j : ℕ} {x y : α} {pr : Option (LNode α)} (hj : j < C.nset) (hx : x < C.mx) (hy : y < C.mx)
    (hpx : C.p.x ≤ x) (hpy : C.p.y ≤ y) (hS : ¬ SReg C.S x y) (hxs : C.xs x)
    (hpr : (pr = none ∧ j = 0) ∨ ∃ k m, pr = some m ∧ j = k + 1 ∧ m ∈ C.L k ∧ m.x ≤ x ∧ m.y ≤ y)
    (hreg : ¬ Reg (st.levels j) x y) (hA : Added C.mn C.mx C.junk st st' j ⟨st.heap.fresh, x, y, C.p.z, C.p.set⟩ pr) : Mid C st' where
  lvl := by
    intro k
    by_cases hk : k = j
    · subst hk
      exact hA.lvl
    · rw [(hA.other k hk).1]
      exact m.lvl k
  mem := by
    intro k n hn
    by_cases hk : k = j
    · subst hk
      rcases (hA.mem n).mp hn with rfl | ⟨h1, -⟩
      · right
        refine ⟨m.fresh, rfl, rfl, hpx, hpy, fun h => hreg (m.mono _ _ _ h), hS, hj, ?_, hxs, hx, hy⟩
        rcases hpr with ⟨-, h⟩ | ⟨k', mm, -, h1, h2, h3, h4⟩
        · exact Or.inl h
        · right
          rw [h1, Nat.add_sub_cancel]
          exact ⟨mm, h2, h3, h4⟩
      · exact m.mem k n h1
    · rw [(hA.other k hk).1] at hn
      exact m.mem k n hn
  mono := fun k a b h => hA.mono k (m.mono k a b h)
  outs := by
    intro k
    by_cases hk : k = j
    · subst hk
      obtain ⟨R, hR, hnd, hmem⟩ := m.outs k
      obtain ⟨R', hR', hnd', hmem'⟩ := hA.outs
      simp only at hmem'
      have hold : ∀ n ∈ R', n ∈ C.L k := by
        intro n hn
        obtain ⟨h1, -, -, h2⟩ := (hmem' n).mp hn
        rcases m.mem k n h1 with h | h
        · exact h
        · exact absurd h.z h2.ne
      refine ⟨R ++ R', by rw [hR', hR, List.append_assoc], ?_, ?_⟩
      · rw [List.nodup_append]
        refine ⟨hnd, hnd', ?_⟩
        intro a ha b hb e
        subst e
        exact ((hmem a).mp ha).2.1 ((hmem' a).mp hb).1
      · intro n
        rw [List.mem_append, hmem, hmem', hA.mem]
        constructor
        · rintro (⟨h1, h2, h3⟩ | h)
          · refine ⟨h1, ?_, h3⟩
            rintro (rfl | h)
            · exact absurd h3 (lt_irrefl _)
            · exact h2 h.1
          · refine ⟨hold n ((hmem' n).mpr h), ?_, h.2.2.2⟩
            rintro (rfl | h')
            · exact absurd h.2.2.2 (lt_irrefl _)
            · exact h'.2 ⟨h.2.1, h.2.2.1⟩
        · rintro ⟨h1, h2, h3⟩
          by_cases hs : n ∈ st.levels k
          · right
            by_contra hc
            exact h2 (Or.inr ⟨hs, fun hd => hc ⟨hs, hd.1, hd.2, h3⟩⟩)
          · exact Or.inl ⟨h1, hs, h3⟩
    · rw [(hA.other k hk).1, (hA.other k hk).2]
      exact m.outs k
  fresh := by rw [hA.fresh]; exact m.fresh.trans (Nat.le_succ _)

theorem Mid.promo (ok : C.Ok) (m : Mid C st) (h : Promo C st st') : Mid C st' := by
  rcases h.cases ok m with ⟨_, _, _, rfl, -⟩ | ⟨j, x, y, pr, st1, hj, hx, hy, hpx, hpy, hS, hxs, hpr, hreg, hA, he⟩
  · exact m
  · have h1 := m.added hj hx hy hpx hpy hS hxs hpr hreg hA
    rcases he with ⟨mm, -, -, rfl⟩ | ⟨rfl, -⟩
    · exact h1.of_eq rfl rfl rfl
    · exact h1

/-- The states reached by calls of `add2level`. -/
def Steps (C : Ctx3 α) : St3 α → St3 α → Prop := Relation.ReflTransGen (Promo C)

theorem Steps.mid (ok : C.Ok) (m : Mid C st) (h : Steps C st st') : Mid C st' := by
  induction h with
  | refl => exact m
  | tail _ h ih => exact ih.promo ok h

/-- Every call of `add2level` that the code makes has a result. -/
theorem promo_exists (ok : C.Ok) (m : Mid C st) {j : ℕ} {x y : α} {pr : Option (LNode α)} (hj : j < C.nset) (hx : x < C.mx) (hy : y < C.mx)
    (hpx : C.p.x ≤ x) (hpy : C.p.y ≤ y) :
    ∃ st1 tn, add2level C.nset st j x y C.p.z C.p.set pr = some (st1, tn) ∧ st1.sets = st.sets ∧
      (∀ i, i ≠ j → st1.levels i = st.levels i) ∧ (∀ a b, Reg (st.levels j) a b → Reg (st1.levels j) a b) ∧ Reg (st1.levels j) x y ∧
      (∀ n, n.y < y → (n ∈ st1.levels j ↔ n ∈ st.levels j)) := by
  have hx0 := ok.px.1.trans_le hpx
  have hy0 := ok.py.1.trans_le hpy
  by_cases hreg : Reg (st.levels j) x y
  · exact ⟨st, none, add2level_dom hj (m.lvl j) hy hreg _ _ _, rfl, fun _ _ => rfl, fun _ _ h => h, hreg, fun _ _ => Iff.rfl⟩
  · obtain ⟨st2, e, hA⟩ := add2level_new hj (m.lvl j) hx0 hx hy0 hy hreg C.p.z C.p.set pr
    refine ⟨st2, _, e, hA.sets, fun i hi => (hA.other i hi).1, fun a b h => hA.mono j h, ⟨_, (hA.mem _).mpr (Or.inl rfl), le_refl _, le_refl _⟩, ?_⟩
    intro n hn
    rw [hA.mem]
    constructor
    · rintro (rfl | h)
      · exact absurd hn (lt_irrefl _)
      · exact h.1
    · exact fun h => Or.inr ⟨h, fun hd => absurd hn (not_lt.mpr hd.2)⟩

end

/-! ### The cursors -/

/-- What is known about `aux[k]`. -/
def CurOk (L0 : List (LNode α)) (p : Pt3 α) : Cur α → Prop
  | .inter x y nx pr => x = p.x ∧ y = pr.y ∧ pr ∈ L0 ∧ pr.x ≤ p.x ∧ p.y < pr.y ∧ nx ∈ L0 ∧ nx.y < pr.y ∧
      (∀ n ∈ L0, n.y < pr.y → n.y ≤ nx.y) ∧ (∀ n ∈ L0, n.y < pr.y → p.x < n.x)
  | .node n => n ∈ L0 ∧ p.x ≤ n.x

section
variable {L0 : List (LNode α)} {p : Pt3 α} {c : Cur α}

theorem CurOk.prom_mem (h : CurOk L0 p c) : c.promoter ∈ L0 := by
  cases c with
  | inter x y nx pr => exact h.2.2.1
  | node n => exact h.1

theorem CurOk.prom_y (h : CurOk L0 p c) : c.promoter.y = c.y := by
  cases c with
  | inter x y nx pr => exact h.2.1.symm
  | node n => rfl

theorem CurOk.prom_x (h : CurOk L0 p c) : c.promoter.x ≤ c.x := by
  cases c with
  | inter x y nx pr => exact h.2.2.2.1.trans h.1.ge
  | node n => exact le_refl _

theorem CurOk.px (h : CurOk L0 p c) : p.x ≤ c.x := by
  cases c with
  | inter x y nx pr => exact h.1.ge
  | node n => exact h.2

/-- The nodes below the cursor are to the right of the new point. -/
theorem CurOk.right (hs : L0.Pairwise LLt) (h : CurOk L0 p c) {n : LNode α} (hn : n ∈ L0) (hy : n.y < c.y) : p.x ≤ n.x := by
  cases c with
  | inter x y nx pr => exact (h.2.2.2.2.2.2.2.2 n hn (h.2.1 ▸ hy)).le
  | node m => exact h.2.trans ((lvl_xy hs h.1 hn).mpr hy).le

/-- A vector to the right of the new point, dominated by a node at or below the cursor, is to the right of the cursor. -/
theorem CurOk.le_of (hs : L0.Pairwise LLt) (h : CurOk L0 p c) {n : LNode α} (hn : n ∈ L0) (hy : n.y ≤ c.y) {a : α} (ha : p.x ≤ a) (hna : n.x ≤ a) : c.x ≤ a := by
  cases c with
  | inter x y nx pr => exact h.1.le.trans ha
  | node m => exact ((lvl_xy_le hs h.1 hn).mpr hy).trans hna

/-- The number of nodes below the cursor. -/
def curMeasure (L0 : List (LNode α)) (c : Cur α) : ℕ := (L0.filter (fun n => decide (n.y < c.y))).length

theorem curMeasure_lt {m : LNode α} (hm : m ∈ L0) (hy : m.y < c.y) : curMeasure L0 (.node m) < curMeasure L0 c := by
  unfold curMeasure
  have h1 : (L0.filter (fun n => decide (n.y < (Cur.node m).y))) = (L0.filter (fun n => decide (n.y < c.y))).filter (fun n => decide (n.y < m.y)) := by
    rw [List.filter_filter]
    apply List.filter_congr
    intro n _
    show decide (n.y < m.y) = (decide (n.y < m.y) && decide (n.y < c.y))
    rw [Bool.eq_iff_iff, Bool.and_eq_true, decide_eq_true_eq, decide_eq_true_eq]
    exact ⟨fun h => ⟨h, h.trans hy⟩, fun h => h.1⟩
  rw [h1]
  apply List.length_filter_lt_length_iff_exists.mpr
  exact ⟨m, List.mem_filter.mpr ⟨hm, by simpa using hy⟩, by simp⟩

end

/-- The condition of the `while` loop for the second coordinate `y` of the cursor. -/
def Active (p : Pt3 α) (q : α × α) (y : α) : Prop := y ≥ max q.2 p.y ∧ (y > max q.2 p.y ∨ max q.2 p.y > p.y)

theorem Active.up {p : Pt3 α} {q : α × α} {y y' : α} (h : Active p q y) (hy : y ≤ y') : Active p q y' :=
  ⟨h.1.trans hy, h.2.imp (fun h => lt_of_lt_of_le h hy) id⟩

/-- The current level agrees with the level before the iteration at and below the cursor. -/
def Agree (C : Ctx3 α) (k : ℕ) (c : Cur α) (st : St3 α) : Prop := ∀ n, n.y ≤ c.y → (n ∈ st.levels k ↔ n ∈ C.L k)

/-- What has to be in level `k + 1` is there, or comes from a node that is not yet passed. -/
def Comp (C : Ctx3 α) (k : ℕ) (c : Cur α) (st : St3 α) : Prop :=
  ∀ a b, C.p.x ≤ a → C.p.y ≤ b → a < C.mx → b < C.mx → ¬ SReg C.S a b → Reg (C.L k) a b →
    Reg (st.levels (k + 1)) a b ∨ ∃ n ∈ C.L k, n.x ≤ a ∧ n.y ≤ b ∧ n.y ≤ c.y

/-- Everything about one cursor; `B` is a bound for its second coordinate. -/
structure CurInv (C : Ctx3 α) (B : α) (k : ℕ) (c : Cur α) (st : St3 α) : Prop where
  ok : CurOk (C.L k) C.p c
  lt : c.y < B
  agree : Agree C k c st
  comp : Comp C k c st

section loops
variable {C : Ctx3 α}

/-- The cursor, as a point, lies strictly between the sentinels, when it is above the new point. -/
theorem CurInv.bounds (ok : C.Ok) {B : α} {k : ℕ} {c : Cur α} {st : St3 α} (h : CurInv C B k c st) (hB : B ≤ C.mx) (hy : C.mn < c.y) :
    c.x < C.mx ∧ c.y < C.mx ∧ C.xs c.x := by
  have h2 : c.y < C.mx := h.lt.trans_le hB
  have hok := h.ok
  cases c with
  | inter x y nx pr =>
    have := hok.1
    refine ⟨?_, h2, ?_⟩
    · show x < _
      rw [this]
      exact ok.px.2
    · show C.xs x
      rw [this]
      exact ok.xp
  | node n =>
    have hp := hok.2
    have hx : C.mn < n.x := ok.px.1.trans_le hp
    have : n.x < C.mx := by
      rcases (ok.lvl k).bnd n hok.1 with rfl | rfl | hb
      · exact absurd hx (lt_irrefl _)
      · exact absurd hy (lt_irrefl _)
      · exact hb.2.1
    exact ⟨this, h2, ok.xn k n hok.1 hx this⟩

theorem promWhile_spec (ok : C.Ok) {k : ℕ} {q : α × α} (hq : q ∈ C.S) {B : α} (hB : B ≤ C.mx) (hqB : ∀ q' ∈ C.S, B ≤ q'.2 ∨ q.1 ≤ q'.1)
    (hk : ∀ a b, a < C.mx → b < C.mx → Reg (C.L k) a b → ¬ SReg C.S a b → k + 1 < C.nset) :
    ∀ (fuel : ℕ) (c : Cur α) (st : St3 α), Mid C st → CurInv C B k c st → curMeasure (C.L k) c < fuel →
    ∃ c' st', promWhile C.nset C.p q k fuel c st = some (c', st') ∧ Steps C st st' ∧ CurInv C B k c' st' ∧ ¬ Active C.p q c'.y ∧ st'.sets = st.sets ∧
      (∀ j, j ≠ k + 1 → st'.levels j = st.levels j) ∧ (∀ n, ¬ Active C.p q n.y → (n ∈ st'.levels (k + 1) ↔ n ∈ st.levels (k + 1))) := by
  intro fuel
  induction fuel with
  | zero => intro c st _ _ h; exact absurd h (Nat.not_lt_zero _)
  | succ fuel ih =>
    intro c st hm hc hf
    have hs := (ok.lvl k).sorted
    have hvalid : c.valid (st.levels k) := (hc.agree _ hc.ok.prom_y.le).mpr hc.ok.prom_mem
    unfold promWhile
    rw [if_neg (not_not.mpr hvalid)]
    simp only
    by_cases hact : c.y ≥ max q.2 C.p.y ∧ (c.y > max q.2 C.p.y ∨ max q.2 C.p.y > C.p.y)
    · rw [if_pos hact]
      have hcy : C.p.y ≤ c.y := (le_max_right _ _).trans hact.1
      have hqy : q.2 ≤ c.y := (le_max_left _ _).trans hact.1
      have hmny : C.mn < c.y := ok.py.1.trans_le hcy
      obtain ⟨hcx, hcy', hxs⟩ := hc.bounds ok hB hmny
      by_cases hqx : q.1 ≤ c.x
      · rw [if_pos hqx]
        have hq2 : C.mn < q.2 := by
          rcases ok.set.bnd q hq with rfl | rfl | hb
          · exact ok.py.1.trans ok.py.2
          · exact absurd hcx (not_lt.mpr hqx)
          · exact hb.2.2.1
        obtain ⟨n, hn, e, hny, hnb⟩ := findBelow_spec (hm.lvl k) hq2
        rw [e]
        simp only
        have hnc : n.y < c.y := hny.trans_le hqy
        have hn0 : n ∈ C.L k := (hc.agree n hnc.le).mp hn
        have hinv : CurInv C B k (.node n) st := by
          refine ⟨⟨hn0, hc.ok.right hs hn0 hnc⟩, hnc.trans hc.lt, fun m hmy => hc.agree m (hmy.trans hnc.le), ?_⟩
          intro a b ha hb ha' hb' hS hR
          rcases hc.comp a b ha hb ha' hb' hS hR with h | ⟨m, hm0, h1, h2, h3⟩
          · exact Or.inl h
          · right
            have hca := hc.ok.le_of hs hm0 h3 ha h1
            have hbq : b < q.2 := by
              by_contra hcon
              exact hS ⟨q, hq, hqx.trans hca, not_lt.mp hcon⟩
            exact ⟨m, hm0, h1, h2, hnb m ((hc.agree m h3).mpr hm0) (h2.trans_lt hbq)⟩
        exact ih (.node n) st hm hinv (lt_of_lt_of_le (curMeasure_lt hn0 hnc) (Nat.lt_succ_iff.mp hf))
      · rw [if_neg hqx]
        have hSc : ¬ SReg C.S c.x c.y := by
          rintro ⟨q', hq', h1, h2⟩
          rcases hqB q' hq' with h | h
          · exact absurd hc.lt (not_lt.mpr (h.trans h2))
          · exact hqx (h.trans h1)
        have hRc : Reg (C.L k) c.x c.y := ⟨c.promoter, hc.ok.prom_mem, hc.ok.prom_x, hc.ok.prom_y.le⟩
        have hkn := hk c.x c.y hcx hcy' hRc hSc
        obtain ⟨st1, tn, e, hsets, hoth, hmono, hval, hlow⟩ := promo_exists ok hm (pr := some c.promoter) hkn hcx hcy' hc.ok.px hcy
        rw [e]
        simp only
        -- the state after the assignment of `equal`
        generalize hst2 : linkEqual st1 c.promoter tn (C.p.z = c.promoter.z ∧ c.x = c.promoter.x) = st2
        have hpromo : Promo C st st2 := by
          refine ⟨k + 1, c.x, c.y, some c.promoter, tn, st1, hkn, hcx, hcy', hc.ok.px, hcy, hSc, hxs,
            Or.inr ⟨k, c.promoter, rfl, rfl, hc.ok.prom_mem, hc.ok.prom_x, hc.ok.prom_y.le⟩, e, ?_⟩
          cases tn with
          | none => exact Or.inr ⟨hst2.symm, fun m t _ h => by simp at h⟩
          | some t =>
            unfold linkEqual at hst2
            simp only at hst2
            by_cases hcond : C.p.z = c.promoter.z ∧ c.x = c.promoter.x
            · rw [if_pos hcond] at hst2
              exact Or.inl ⟨c.promoter, t, rfl, rfl, ⟨hcond.1.symm, hcond.2.symm, hc.ok.prom_y⟩, hst2.symm⟩
            · rw [if_neg hcond] at hst2
              refine Or.inr ⟨hst2.symm, fun m t' h _ => ?_⟩
              rw [Option.some.injEq] at h
              subst h
              exact fun h => hcond ⟨h.1.symm, h.2.1.symm⟩
        have hl2 : st2.levels = st1.levels := by
          rw [← hst2]
          unfold linkEqual
          cases tn with
          | none => rfl
          | some t =>
            simp only
            split <;> rfl
        have hs2 : st2.sets = st1.sets := by
          rw [← hst2]
          unfold linkEqual
          cases tn with
          | none => rfl
          | some t =>
            simp only
            split <;> rfl
        have hm2 := hm.promo ok hpromo
        have hlk : st2.levels k = st.levels k := by rw [hl2]; exact hoth k (by omega)
        -- the next node
        have hnext : ∃ n, c.next (st2.levels k) = some n ∧ n ∈ C.L k ∧ n.y < c.y ∧ ∀ m ∈ C.L k, m.y < c.y → m.y ≤ n.y := by
          have hok := hc.ok
          have hag := hc.agree
          cases c with
          | inter x y nx pr =>
            obtain ⟨-, h2, -, -, -, h6, h7, h8, -⟩ := hok
            refine ⟨nx, rfl, h6, ?_, ?_⟩
            · show nx.y < y
              rw [h2]
              exact h7
            · show ∀ m ∈ C.L k, m.y < y → m.y ≤ nx.y
              rw [h2]
              exact h8
          | node n =>
            obtain ⟨m, hmm, e, h1, h2⟩ := nextIn_spec (hm.lvl k).sorted hvalid (hm.lvl k).tail (show (tailNode C.mn C.mx C.junk).y < n.y from hmny)
            refine ⟨m, by rw [hlk]; exact e, (hag m h1.le).mp hmm, h1, ?_⟩
            intro m' hm' hy'
            exact h2 m' ((hag m' hy'.le).mpr hm') hy'
        obtain ⟨n, en, hn0, hny, hnb⟩ := hnext
        rw [en]
        simp only
        have hinv : CurInv C B k (.node n) st2 := by
          refine ⟨⟨hn0, hc.ok.right hs hn0 hny⟩, hny.trans hc.lt, ?_, ?_⟩
          · intro m hmy
            rw [hlk]
            exact hc.agree m (hmy.trans hny.le)
          · intro a b ha hb ha' hb' hS hR
            rcases hc.comp a b ha hb ha' hb' hS hR with h | ⟨m, hm0, h1, h2, h3⟩
            · left
              rw [hl2]
              exact hmono a b h
            · rcases h3.lt_or_eq with h3' | h3'
              · exact Or.inr ⟨m, hm0, h1, h2, hnb m hm0 h3'⟩
              · left
                rw [hl2]
                obtain ⟨v, hv, hv1, hv2⟩ := hval
                exact ⟨v, hv, hv1.trans (hc.ok.le_of hs hm0 h3 ha h1), hv2.trans (h3' ▸ h2)⟩
        obtain ⟨c', st', e', hst', hinv', hna, hsets', hoth', hlow'⟩ :=
          ih (.node n) st2 hm2 hinv (lt_of_lt_of_le (curMeasure_lt hn0 hny) (Nat.lt_succ_iff.mp hf))
        refine ⟨c', st', e', Relation.ReflTransGen.head hpromo hst', hinv', hna, by rw [hsets', hs2, hsets], ?_, ?_⟩
        · intro j hj
          rw [hoth' j hj, hl2, hoth j hj]
        · intro m hmact
          rw [hlow' m hmact, hl2]
          apply hlow
          by_contra hcon
          exact hmact (Active.up hact (not_lt.mp hcon))
    · rw [if_neg hact]
      exact ⟨c, st, rfl, Relation.ReflTransGen.refl, hc, hact, rfl, fun _ _ => rfl, fun _ _ => Iff.rfl⟩

/-- The loop over the levels.  `all` are all levels that are looked at, `ks` those that are still to come. -/
theorem promLevels_spec (ok : C.Ok) {q : α × α} (hq : q ∈ C.S) {B : α} (hB : B ≤ C.mx) (hqB : ∀ q' ∈ C.S, B ≤ q'.2 ∨ q.1 ≤ q'.1) (all : List ℕ)
    (hk : ∀ k ∈ all, ∀ a b, a < C.mx → b < C.mx → Reg (C.L k) a b → ¬ SReg C.S a b → k + 1 < C.nset) {fuel : ℕ}
    (hfuel : ∀ k ∈ all, (C.L k).length < fuel) :
    ∀ (ks : List ℕ) (a : ℕ → Option (Cur α)) (st : St3 α), ks.Pairwise (fun i j => j < i) → (∀ k ∈ ks, k ∈ all) → Mid C st →
      (∀ k ∈ all, ∃ c, a k = some c ∧ CurInv C B k c st ∧ (k ∉ ks → ¬ Active C.p q c.y ∧ ∀ j ∈ ks, j < k)) →
    ∃ a' st', promLevels C.nset C.p q fuel ks a st = some (a', st') ∧ Steps C st st' ∧ st'.sets = st.sets ∧
      ∀ k ∈ all, ∃ c, a' k = some c ∧ CurInv C B k c st' ∧ ¬ Active C.p q c.y := by
  intro ks
  induction ks with
  | nil =>
    intro a st _ _ hm hinv
    refine ⟨a, st, rfl, Relation.ReflTransGen.refl, rfl, fun k hk' => ?_⟩
    obtain ⟨c, h1, h2, h3⟩ := hinv k hk'
    exact ⟨c, h1, h2, (h3 (by simp)).1⟩
  | cons k ks ih =>
    intro a st hp hsub hm hinv
    rw [List.pairwise_cons] at hp
    have hkall := hsub k (by simp)
    obtain ⟨c, hac, hc, -⟩ := hinv k hkall
    obtain ⟨c', st', e, hst, hc', hna, hsets, hoth, hlow⟩ := promWhile_spec ok hq hB hqB (hk k hkall) fuel c st hm hc
      (lt_of_le_of_lt (List.length_filter_le _ _) (hfuel k hkall))
    unfold promLevels
    rw [hac]
    simp only
    rw [e]
    simp only
    obtain ⟨a2, st2, e2, hst2, hsets2, hinv2⟩ := ih (upd a k (some c')) st' hp.2 (fun i hi => hsub i (List.mem_cons_of_mem _ hi)) (hst.mid ok hm) (by
      intro i hi
      by_cases hik : i = k
      · subst hik
        exact ⟨c', upd_same _ _ _, hc', fun _ => ⟨hna, hp.1⟩⟩
      · obtain ⟨d, h1, h2, h3⟩ := hinv i hi
        refine ⟨d, by rw [upd_ne _ _ hik]; exact h1, ⟨h2.ok, h2.lt, ?_, ?_⟩, ?_⟩
        · intro n hn
          by_cases hi1 : i = k + 1
          · subst hi1
            have hdone := h3 (by
              intro hmem
              rcases List.mem_cons.mp hmem with h | h
              · omega
              · have := hp.1 _ h
                omega)
            rw [hlow n (fun hact => hdone.1 (hact.up hn))]
            exact h2.agree n hn
          · rw [hoth i hi1]
            exact h2.agree n hn
        · intro x y h1 h2' h3 h4 h5 h6
          rw [hoth (i + 1) (by omega)]
          exact h2.comp x y h1 h2' h3 h4 h5 h6
        · intro hni
          have := h3 (by
            intro hmem
            rcases List.mem_cons.mp hmem with h | h
            · exact hik h
            · exact hni h)
          exact ⟨this.1, fun j hj => this.2 j (List.mem_cons_of_mem _ hj)⟩)
    exact ⟨a2, st2, e2, hst.trans hst2, by rw [hsets2, hsets], hinv2⟩

/-- The second part. -/
theorem secondPart_spec (ok : C.Ok) {ks : List ℕ} (hks : ks.Pairwise (fun i j => j < i))
    (hk : ∀ k ∈ ks, ∀ a b, a < C.mx → b < C.mx → Reg (C.L k) a b → ¬ SReg C.S a b → k + 1 < C.nset) {fuel : ℕ}
    (hfuel : ∀ k ∈ ks, (C.L k).length < fuel) :
    ∀ (qs pre : List (α × α)) (B : α) (a : ℕ → Option (Cur α)) (st : St3 α), C.S = pre ++ qs → (∀ q ∈ pre, B ≤ q.2) → B ≤ C.mx → C.p.y < B → Mid C st →
      (∀ k ∈ ks, ∃ c, a k = some c ∧ CurInv C B k c st) →
    ∃ q a' st' B', secondPart C.nset C.p fuel ks qs a st = some (q, a', st') ∧ Steps C st st' ∧ st'.sets = st.sets ∧ q ∈ C.S ∧ q.2 ≤ C.p.y ∧ C.p.y < B' ∧
      (∀ q' ∈ C.S, B' ≤ q'.2 ∨ q.1 ≤ q'.1) ∧ ∀ k ∈ ks, ∃ c, a' k = some c ∧ CurInv C B' k c st' ∧ c.y ≤ C.p.y := by
  intro qs
  induction qs with
  | nil =>
    intro pre B a st hS hpre hB hBp hm hinv
    rw [List.append_nil] at hS
    have := hpre (C.mx, C.mn) (hS ▸ ok.set.tail)
    exact absurd (ok.py.1.trans hBp) (not_lt.mpr this)
  | cons q qs ih =>
    intro pre B a st hS hpre hB hBp hm hinv
    have hsrt := ok.set.sorted
    rw [hS, List.pairwise_append, List.pairwise_cons] at hsrt
    have hqmem : q ∈ C.S := by rw [hS]; simp
    have hqB : ∀ q' ∈ C.S, B ≤ q'.2 ∨ q.1 ≤ q'.1 := by
      intro q' hq'
      rw [hS] at hq'
      rcases List.mem_append.mp hq' with h | h
      · exact Or.inl (hpre q' h)
      · rcases List.mem_cons.mp h with rfl | h
        · exact Or.inr (le_refl _)
        · exact Or.inr (hsrt.2.1.1 q' h).1.le
    obtain ⟨a2, st2, e, hst, hsets, hinv2⟩ := promLevels_spec ok hqmem hB hqB ks hk hfuel ks a st hks (fun k h => h) hm (by
      intro k hk'
      obtain ⟨c, h1, h2⟩ := hinv k hk'
      exact ⟨c, h1, h2, fun h => absurd hk' h⟩)
    unfold secondPart
    rw [e]
    simp only
    by_cases hgt : q.2 > C.p.y
    · rw [if_pos hgt]
      have hmax : max q.2 C.p.y = q.2 := max_eq_left hgt.le
      have hqmx : q.2 ≤ C.mx := by
        rcases ok.set.bnd q hqmem with rfl | rfl | hb
        · exact le_refl _
        · exact (ok.py.1.trans ok.py.2).le
        · exact hb.2.2.2.le
      obtain ⟨q', a', st', B', e', hst', hsets', h1, h2, h3, h4, h5⟩ := ih (pre ++ [q]) q.2 a2 st2 (by rw [hS]; simp) (by
          intro q' hq'
          rcases List.mem_append.mp hq' with h | h
          · exact (hsrt.2.2 q' h q (by simp)).2.le
          · rw [List.mem_singleton] at h
            rw [h]) hqmx hgt (hst.mid ok hm) (by
          intro k hk'
          obtain ⟨c, h1, h2, h3⟩ := hinv2 k hk'
          refine ⟨c, h1, h2.ok, ?_, h2.agree, h2.comp⟩
          by_contra hcon
          apply h3
          unfold Active
          rw [hmax]
          exact ⟨not_lt.mp hcon, Or.inr hgt⟩)
      exact ⟨q', a', st', B', e', hst.trans hst', by rw [hsets', hsets], h1, h2, h3, h4, h5⟩
    · rw [if_neg hgt]
      refine ⟨q, a2, st2, B, rfl, hst, hsets, hqmem, not_lt.mp hgt, hBp, hqB, ?_⟩
      intro k hk'
      obtain ⟨c, h1, h2, h3⟩ := hinv2 k hk'
      refine ⟨c, h1, h2, ?_⟩
      by_contra hcon
      apply h3
      unfold Active
      rw [max_eq_right (not_lt.mp hgt)]
      exact ⟨(not_le.mp hcon).le, Or.inl (not_le.mp hcon)⟩

/-- What has to be in level `k + 1` after the second and third part is there. -/
def Full (C : Ctx3 α) (k : ℕ) (st : St3 α) : Prop :=
  ∀ a b, C.p.x ≤ a → C.p.y ≤ b → a < C.mx → b < C.mx → ¬ SReg C.S a b → Reg (C.L k) a b → Reg (st.levels (k + 1)) a b

/-- The third part. -/
theorem thirdPart_spec (ok : C.Ok) {q : α × α} (hq : q ∈ C.S) (hqy : q.2 ≤ C.p.y) {B : α} (hBp : C.p.y < B) (hqB : ∀ q' ∈ C.S, B ≤ q'.2 ∨ q.1 ≤ q'.1) (all : List ℕ)
    (hk : ∀ k ∈ all, ∀ a b, a < C.mx → b < C.mx → Reg (C.L k) a b → ¬ SReg C.S a b → k + 1 < C.nset) (a : ℕ → Option (Cur α)) :
    ∀ (ks : List ℕ) (st : St3 α), ks.Pairwise (fun i j => j < i) → (∀ k ∈ ks, k ∈ all) → Mid C st →
      (∀ k ∈ ks, ∃ c, a k = some c ∧ CurInv C B k c st ∧ c.y ≤ C.p.y) → (∀ k ∈ all, k ∉ ks → Full C k st ∧ ∀ j ∈ ks, j < k) →
    ∃ st', thirdPart C.nset C.p q ks a st = some st' ∧ Steps C st st' ∧ st'.sets = st.sets ∧ ∀ k ∈ all, Full C k st' := by
  intro ks
  induction ks with
  | nil =>
    intro st _ _ hm _ hfull
    exact ⟨st, rfl, Relation.ReflTransGen.refl, rfl, fun k hk' => (hfull k hk' (by simp)).1⟩
  | cons k ks ih =>
    intro st hp hsub hm hinv hfull
    rw [List.pairwise_cons] at hp
    have hkall := hsub k (by simp)
    obtain ⟨c, hac, hc, hcy⟩ := hinv k (by simp)
    have hs := (ok.lvl k).sorted
    have hvalid : c.valid (st.levels k) := (hc.agree _ hc.ok.prom_y.le).mpr hc.ok.prom_mem
    unfold thirdPart
    rw [hac]
    simp only
    rw [if_neg (not_not.mpr hvalid)]
    -- the remaining levels, after a change of level `k + 1` only
    have hrest : ∀ st2 : St3 α, Promo C st st2 ∨ st2 = st → (∀ i, i ≠ k + 1 → st2.levels i = st.levels i) → st2.sets = st.sets → Full C k st2 →
        ∃ st', thirdPart C.nset C.p q ks a st2 = some st' ∧ Steps C st st' ∧ st'.sets = st.sets ∧ ∀ k ∈ all, Full C k st' := by
      intro st2 hpr hoth hsets hF
      have hst : Steps C st st2 := by
        rcases hpr with h | rfl
        · exact Relation.ReflTransGen.single h
        · exact Relation.ReflTransGen.refl
      obtain ⟨st', e', hst', hsets', hfull'⟩ := ih st2 hp.2 (fun i hi => hsub i (List.mem_cons_of_mem _ hi)) (hst.mid ok hm) (by
        intro i hi
        obtain ⟨d, h1, h2, h3⟩ := hinv i (List.mem_cons_of_mem _ hi)
        have hlt := hp.1 i hi
        refine ⟨d, h1, ⟨h2.ok, h2.lt, ?_, ?_⟩, h3⟩
        · intro n hn
          rw [hoth i (by omega)]
          exact h2.agree n hn
        · intro x y g1 g2 g3 g4 g5 g6
          rw [hoth (i + 1) (by omega)]
          exact h2.comp x y g1 g2 g3 g4 g5 g6) (by
        intro i hi hni
        by_cases hik : i = k
        · subst hik
          exact ⟨hF, hp.1⟩
        · have := hfull i hi (by
            intro hmem
            rcases List.mem_cons.mp hmem with h | h
            · exact hik h
            · exact hni h)
          refine ⟨?_, fun j hj => this.2 j (List.mem_cons_of_mem _ hj)⟩
          intro x y g1 g2 g3 g4 g5 g6
          have hki := this.2 k (by simp)
          rw [hoth (i + 1) (by omega)]
          exact this.1 x y g1 g2 g3 g4 g5 g6)
      exact ⟨st', e', hst.trans hst', by rw [hsets', hsets], hfull'⟩
    by_cases hcx : c.x < q.1
    · rw [if_pos hcx]
      have hqmx : q.1 ≤ C.mx := by
        rcases ok.set.bnd q hq with rfl | rfl | hb
        · exact (ok.py.1.trans ok.py.2).le
        · exact le_refl _
        · exact hb.2.1.le
      have hcx' := hcx.trans_le hqmx
      obtain ⟨n, rfl⟩ : ∃ n, c = .node n := by
        have hok := hc.ok
        cases c with
        | inter x y nx pr =>
          have h1 : y = pr.y := hok.2.1
          have h2 : C.p.y < pr.y := hok.2.2.2.2.1
          exact absurd hcy (not_le.mpr (by show C.p.y < y; rw [h1]; exact h2))
        | node n => exact ⟨n, rfl⟩
      have hS : ¬ SReg C.S n.x C.p.y := by
        rintro ⟨q', hq', h1, h2⟩
        rcases hqB q' hq' with h | h
        · exact absurd hBp (not_lt.mpr (h.trans h2))
        · exact absurd (h.trans h1) (not_le.mpr hcx)
      have hR : Reg (C.L k) n.x C.p.y := ⟨n, hc.ok.1, le_refl _, hcy⟩
      have hkn := hk k hkall n.x C.p.y hcx' ok.py.2 hR hS
      have hxs : C.xs n.x := ok.xn k n hc.ok.1 (ok.px.1.trans_le hc.ok.2) hcx'
      obtain ⟨st1, tn, e, hsets, hoth, hmono, hval, -⟩ := promo_exists ok hm (pr := some n) hkn hcx' ok.py.2 hc.ok.2 (le_refl _)
      have e' : add2level C.nset st (k + 1) (Cur.node n).x C.p.y C.p.z C.p.set (some (Cur.node n).promoter) = some (st1, tn) := e
      rw [e']
      have hF : ∀ st2 : St3 α, st2.levels = st1.levels → Full C k st2 := by
        intro st2 hl x y g1 g2 g3 g4 g5 g6
        rw [hl]
        rcases hc.comp x y g1 g2 g3 g4 g5 g6 with h | ⟨m, hm0, h1, h2, h3⟩
        · exact hmono x y h
        · obtain ⟨v, hv, hv1, hv2⟩ := hval
          exact ⟨v, hv, hv1.trans (hc.ok.le_of hs hm0 h3 g1 h1), hv2.trans g2⟩
      have hpromo : ∀ st2, ((∃ m t, (some n : Option (LNode α)) = some m ∧ tn = some t ∧ (m.z = C.p.z ∧ m.x = n.x ∧ m.y = C.p.y) ∧ st2 = setEqual st1 m t) ∨
          (st2 = st1 ∧ ∀ m t, some n = some m → tn = some t → ¬ (m.z = C.p.z ∧ m.x = n.x ∧ m.y = C.p.y))) → Promo C st st2 := by
        intro st2 h
        exact ⟨k + 1, n.x, C.p.y, some n, tn, st1, hkn, hcx', ok.py.2, hc.ok.2, le_refl _, hS, hxs,
          Or.inr ⟨k, n, rfl, rfl, hc.ok.1, le_refl _, hcy⟩, e, h⟩
      cases tn with
      | none =>
        simp only
        exact hrest st1 (Or.inl (hpromo st1 (Or.inr ⟨rfl, fun m t _ h => by simp at h⟩))) hoth hsets (hF st1 rfl)
      | some t =>
        simp only [Cur.z?]
        by_cases hcond : C.p.z = n.z ∧ C.p.y = (Cur.node n).y
        · rw [if_pos hcond]
          exact hrest _ (Or.inl (hpromo _ (Or.inl ⟨n, t, rfl, rfl, ⟨hcond.1.symm, rfl, hcond.2.symm⟩, rfl⟩))) hoth hsets (hF _ rfl)
        · rw [if_neg hcond]
          refine hrest _ (Or.inl (hpromo _ (Or.inr ⟨rfl, fun m t' h _ => ?_⟩))) hoth hsets (hF _ rfl)
          rw [Option.some.injEq] at h
          subst h
          exact fun h => hcond ⟨h.1.symm, h.2.2.symm⟩
    · rw [if_neg hcx]
      refine hrest st (Or.inr rfl) (fun _ _ => rfl) rfl ?_
      intro x y g1 g2 g3 g4 g5 g6
      rcases hc.comp x y g1 g2 g3 g4 g5 g6 with h | ⟨m, hm0, h1, h2, h3⟩
      · exact h
      · exact absurd ⟨q, hq, (not_lt.mp hcx).trans (hc.ok.le_of hs hm0 h3 g1 h1), hqy.trans g2⟩ g5

/-- The first part. -/
theorem firstPart_spec (ok : C.Ok) {prev : α × α} (hprev : prev ∈ C.S) (hp1 : prev.1 ≤ C.p.x) (hp2 : C.p.y < prev.2) :
    ∀ (k : ℕ) (a : ℕ → Option (Cur α)), ∃ dom stop a', firstPart C.st C.p prev.2 k a = some (dom, stop, a') ∧ stop ≤ k ∧
      ((dom = none ∧ stop = 0) ∨ ∃ j d, dom = some d ∧ stop = j + 1 ∧ d ∈ C.L j ∧ d.x ≤ C.p.x ∧ d.y ≤ C.p.y) ∧
      (∀ i, k ≤ i → a' i = a i) ∧ ∀ i, stop ≤ i → i < k → ∃ c, a' i = some c ∧ CurInv C prev.2 i c C.st := by
  intro k
  have hprevmn : C.mn < prev.2 := ok.py.1.trans hp2
  induction k with
  | zero => exact fun a => ⟨none, 0, a, rfl, le_refl _, Or.inl ⟨rfl, rfl⟩, fun _ _ => rfl, fun i _ h => absurd h (Nat.not_lt_zero _)⟩
  | succ k ih =>
    intro a
    have hs := (ok.lvl k).sorted
    obtain ⟨left, hl, e, hlx, hlast⟩ := findAtLeft_spec (ok.lvl k) ok.px.1
    unfold firstPart
    have e' : findAtLeft (C.st.levels k) C.p.x = some left := e
    rw [e']
    simp only
    by_cases hdom : left.y ≤ C.p.y
    · rw [if_pos hdom]
      exact ⟨some left, k + 1, a, rfl, le_refl _, Or.inr ⟨k, left, rfl, rfl, hl, hlx, hdom⟩, fun _ _ => rfl, fun i h1 h2 => absurd h1 (by omega)⟩
    · rw [if_neg hdom]
      have hright : ∀ n ∈ C.L k, n.y < left.y → C.p.x < n.x := by
        intro n hn hny
        by_contra hcon
        have := hlast n hn (not_lt.mp hcon)
        exact absurd hny (not_lt.mpr ((lvl_xy_le hs hn hl).mp this))
      -- one more cursor
      have hstep : ∀ c, CurInv C prev.2 k c C.st → ∃ dom stop a', firstPart C.st C.p prev.2 k (upd a k (some c)) = some (dom, stop, a') ∧ stop ≤ k + 1 ∧
          ((dom = none ∧ stop = 0) ∨ ∃ j d, dom = some d ∧ stop = j + 1 ∧ d ∈ C.L j ∧ d.x ≤ C.p.x ∧ d.y ≤ C.p.y) ∧
          (∀ i, k + 1 ≤ i → a' i = a i) ∧ ∀ i, stop ≤ i → i < k + 1 → ∃ c, a' i = some c ∧ CurInv C prev.2 i c C.st := by
        intro c hc
        obtain ⟨dom, stop, a', h1, h2, h3, h4, h5⟩ := ih (upd a k (some c))
        refine ⟨dom, stop, a', h1, h2.trans (Nat.le_succ _), h3, ?_, ?_⟩
        · intro i hi
          rw [h4 i (by omega), upd_ne _ _ (by omega)]
        · intro i hi1 hi2
          by_cases hik : i = k
          · subst hik
            exact ⟨c, by rw [h4 i (le_refl _), upd_same], hc⟩
          · exact h5 i hi1 (by omega)
      by_cases hlp : left.y < prev.2
      · rw [if_pos hlp]
        obtain ⟨nx, hnx, en, hny, hnb⟩ := nextIn_spec hs hl (ok.lvl k).tail (show (tailNode C.mn C.mx C.junk).y < left.y from ok.py.1.trans (not_le.mp hdom))
        have en' : nextIn (C.st.levels k) left = some nx := en
        rw [en']
        simp only
        apply hstep
        refine ⟨⟨rfl, rfl, hl, hlx, not_le.mp hdom, hnx, hny, hnb, hright⟩, hlp, fun _ _ => Iff.rfl, ?_⟩
        intro x y g1 g2 g3 g4 g5 g6
        obtain ⟨n, hn, h1, h2⟩ := g6
        right
        rcases le_or_gt n.y left.y with h | h
        · exact ⟨n, hn, h1, h2, h⟩
        · exact ⟨left, hl, hlx.trans g1, h.le.trans h2, le_refl _⟩
      · rw [if_neg hlp]
        obtain ⟨n, hn, en, hny, hnb⟩ := findBelow_spec (ok.lvl k) hprevmn
        have en' : findBelow (C.st.levels k) prev.2 = some n := en
        rw [en']
        simp only
        apply hstep
        refine ⟨⟨hn, (hright n hn (hny.trans_le (not_lt.mp hlp))).le⟩, hny, fun _ _ => Iff.rfl, ?_⟩
        intro x y g1 g2 g3 g4 g5 g6
        obtain ⟨m, hm, h1, h2⟩ := g6
        right
        refine ⟨m, hm, h1, h2, hnb m hm ?_⟩
        by_contra hcon
        exact g5 ⟨prev, hprev, hp1.trans g1, (not_lt.mp hcon).trans h2⟩

end loops

end Moo
