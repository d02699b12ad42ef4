import Verif.Model.RGc
import Mathlib.Tactic.Linarith

/-!
# Lemmas about programs on R objects
-/

set_option autoImplicit false
set_option linter.unusedSectionVars false

namespace Moo

/-- All executions of the program end well: with a value and a state that satisfy `Q`, or with an error of R in a state that satisfies `J`; with `fl`, R may fail to allocate memory. -/
def RProg.wp {α : Type} (fl : Bool) (Q : α → RSt → Prop) (J : RSt → Prop) : RProg α → RSt → Prop
  | .pure a, s => Q a s
  | .jump, s => J s
  | .abort, _ => False
  | .alloc o k, s => ∀ s', RGcStep s [] s' → (fl = true → J s') ∧
      (k s.next).wp fl Q J { s' with obj := fun x => if x = s.next then some o else s'.obj x, next := s.next + 1 }
  | .protect x k, s => (s.obj x).isSome ∧ k.wp fl Q J { s with pst := x :: s.pst }
  | .unprotect n k, s => n ≤ s.pst.length ∧ k.wp fl Q J { s with pst := s.pst.drop n }
  | .inspect x k, s => ∃ o, s.obj x = some o ∧ (k o).wp fl Q J s
  | .write x i k, s => ∃ o, s.obj x = some o ∧ i < o.len ∧ k.wp fl Q J s
  | .setElt x i y k, s => ∃ o, s.obj x = some o ∧ i < o.len ∧ (s.obj y).isSome ∧
      k.wp fl Q J { s with obj := fun z => if z = x then some { o with elts := y :: o.elts } else s.obj z }
  | .setAttr x a y k, s => ∃ o, s.obj x = some o ∧ (s.obj y).isSome ∧ ∀ s', RGcStep s [x, y] s' → (fl = true → J s') ∧
      k.wp fl Q J { s' with obj := fun z => if z = x then some { o with attrs := (a, y) :: o.attrs } else s'.obj z }
  | .getAttr x a k, s => ∃ o, s.obj x = some o ∧ (k (o.attrs.lookup a)).wp fl Q J s
  | .install k, s => ∀ s', RGcStep s [] s' → (fl = true → J s') ∧ k.wp fl Q J s'
  | .malloc k, s => (k s.bnext).wp fl Q J { s with blocks := s.bnext :: s.blocks, bnext := s.bnext + 1 }
  | .useB b k, s => b ∈ s.blocks ∧ k.wp fl Q J s
  | .free b k, s => b ∈ s.blocks ∧ k.wp fl Q J { s with blocks := s.blocks.erase b }

/-- What `wp` says about an outcome. -/
def ROut.good {α : Type} (Q : α → RSt → Prop) (J : RSt → Prop) : ROut α → Prop
  | .ret a s => Q a s
  | .err s => J s
  | .ub _ => False

theorem RExec.sound {α : Type} {fl : Bool} {Q : α → RSt → Prop} {J : RSt → Prop} {p : RProg α} {s : RSt} {r : ROut α} (h : RExec fl p s r) :
    p.wp fl Q J s → r.good Q J := by
  induction h with
  | pure => exact id
  | jump => exact id
  | abort => exact id
  | alloc hg _ ih => intro h; exact ih (h _ hg).2
  | allocFail hf hg => intro h; exact (h _ hg).1 hf
  | protect _ _ ih => intro h; exact ih h.2
  | protectUb hx => intro h; have := h.1; rw [hx] at this; simp at this
  | unprotect _ _ ih => intro h; exact ih h.2
  | unprotectUb hn => intro h; exact absurd h.1 hn
  | inspect hx _ ih => rintro ⟨o, ho, h⟩; rw [hx] at ho; obtain rfl := Option.some.inj ho; exact ih h
  | inspectUb hx => rintro ⟨o, ho, h⟩; rw [hx] at ho; simp at ho
  | write hx _ _ ih => rintro ⟨o, ho, _, h⟩; exact ih h
  | writeUb hx => rintro ⟨o, ho, _⟩; rw [hx] at ho; simp at ho
  | writeOob hx hi => rintro ⟨o, ho, h, _⟩; rw [hx] at ho; obtain rfl := Option.some.inj ho; exact absurd h hi
  | setElt hx _ _ _ ih => rintro ⟨o, ho, _, _, h⟩; rw [hx] at ho; obtain rfl := Option.some.inj ho; exact ih h
  | setEltUb hx => rintro ⟨o, ho, _, hy, _⟩; rcases hx with hx | hx
                   · rw [hx] at ho; simp at ho
                   · rw [hx] at hy; simp at hy
  | setEltOob hx hi => rintro ⟨o, ho, h, _⟩; rw [hx] at ho; obtain rfl := Option.some.inj ho; exact absurd h hi
  | setAttr hx _ hg _ ih => rintro ⟨o, ho, _, h⟩; rw [hx] at ho; obtain rfl := Option.some.inj ho; exact ih (h _ hg).2
  | setAttrFail hf hx _ hg => rintro ⟨o, ho, _, h⟩; exact (h _ hg).1 hf
  | setAttrUb hx => rintro ⟨o, ho, hy, _⟩; rcases hx with hx | hx
                    · rw [hx] at ho; simp at ho
                    · rw [hx] at hy; simp at hy
  | getAttr hx _ ih => rintro ⟨o, ho, h⟩; rw [hx] at ho; obtain rfl := Option.some.inj ho; exact ih h
  | getAttrUb hx => rintro ⟨o, ho, h⟩; rw [hx] at ho; simp at ho
  | install hg _ ih => intro h; exact ih (h _ hg).2
  | installFail hf hg => intro h; exact (h _ hg).1 hf
  | malloc _ ih => exact ih
  | useB _ _ ih => intro h; exact ih h.2
  | useBUb hb => intro h; exact absurd h.1 hb
  | free _ _ ih => intro h; exact ih h.2
  | freeUb hb => intro h; exact absurd h.1 hb

theorem RProg.wp_bind' {α β : Type} (fl : Bool) (Q : β → RSt → Prop) (J : RSt → Prop) (p : RProg α) (f : α → RProg β) (s : RSt) :
    (p.bind f).wp fl Q J s ↔ p.wp fl (fun a s => (f a).wp fl Q J s) J s := by
  induction p generalizing s with
  | pure a => exact Iff.rfl
  | jump => exact Iff.rfl
  | abort => exact Iff.rfl
  | alloc o k ih => simp only [RProg.bind, RProg.wp, ih]
  | protect x k ih => simp only [RProg.bind, RProg.wp, ih]
  | unprotect n k ih => simp only [RProg.bind, RProg.wp, ih]
  | inspect x k ih => simp only [RProg.bind, RProg.wp, ih]
  | write x i k ih => simp only [RProg.bind, RProg.wp, ih]
  | setElt x i y k ih => simp only [RProg.bind, RProg.wp, ih]
  | setAttr x a y k ih => simp only [RProg.bind, RProg.wp, ih]
  | getAttr x a k ih => simp only [RProg.bind, RProg.wp, ih]
  | install k ih => simp only [RProg.bind, RProg.wp, ih]
  | malloc k ih => simp only [RProg.bind, RProg.wp, ih]
  | useB b k ih => simp only [RProg.bind, RProg.wp, ih]
  | free b k ih => simp only [RProg.bind, RProg.wp, ih]

theorem RProg.wp_bind {α β : Type} (fl : Bool) (Q : β → RSt → Prop) (J : RSt → Prop) (p : RProg α) (f : α → RProg β) (s : RSt) :
    (p >>= f).wp fl Q J s ↔ p.wp fl (fun a s => (f a).wp fl Q J s) J s := RProg.wp_bind' fl Q J p f s

theorem RProg.wp_pure {α : Type} (fl : Bool) (Q : α → RSt → Prop) (J : RSt → Prop) (a : α) (s : RSt) : (Pure.pure a : RProg α).wp fl Q J s ↔ Q a s := Iff.rfl

theorem RProg.wp_mono {α : Type} {fl : Bool} {Q Q' : α → RSt → Prop} {J J' : RSt → Prop} (p : RProg α) {s : RSt} (hQ : ∀ a s, Q a s → Q' a s) (hJ : ∀ s, J s → J' s)
    (h : p.wp fl Q J s) : p.wp fl Q' J' s := by
  induction p generalizing s with
  | pure a => exact hQ _ _ h
  | jump => exact hJ _ h
  | abort => exact h
  | alloc o k ih => exact fun s' hg => ⟨fun e => hJ _ ((h s' hg).1 e), ih _ (h s' hg).2⟩
  | protect x k ih => exact ⟨h.1, ih h.2⟩
  | unprotect n k ih => exact ⟨h.1, ih h.2⟩
  | inspect x k ih => obtain ⟨o, ho, h⟩ := h; exact ⟨o, ho, ih _ h⟩
  | write x i k ih => obtain ⟨o, ho, hi, h⟩ := h; exact ⟨o, ho, hi, ih h⟩
  | setElt x i y k ih => obtain ⟨o, ho, hi, hy, h⟩ := h; exact ⟨o, ho, hi, hy, ih h⟩
  | setAttr x a y k ih => obtain ⟨o, ho, hy, h⟩ := h; exact ⟨o, ho, hy, fun s' hg => ⟨fun e => hJ _ ((h s' hg).1 e), ih (h s' hg).2⟩⟩
  | getAttr x a k ih => obtain ⟨o, ho, h⟩ := h; exact ⟨o, ho, ih _ h⟩
  | install k ih => exact fun s' hg => ⟨fun e => hJ _ ((h s' hg).1 e), ih (h s' hg).2⟩
  | malloc k ih => exact ih _ h
  | useB b k ih => exact ⟨h.1, ih h.2⟩
  | free b k ih => exact ⟨h.1, ih h.2⟩

/-! ## The invariant -/

/-- What is assumed of the state in which R calls a function: all that R can reach exists. -/
def RStOk (s : RSt) : Prop := ∀ x, RReach s [] x → (s.obj x).isSome ∧ x < s.next

/-- The state `s` during a call that started in `s0`: `L` are the objects that the call protects (the top first) with their lengths and whether they are known to
have no attributes, `B` the blocks it holds; all that R can reach exists; what R could reach at the start has not changed. -/
structure RInv (s0 s : RSt) (L : List (ℕ × ℕ × Bool)) (B : List ℕ) : Prop where
  pst : s.pst = L.map Prod.fst ++ s0.pst
  live : ∀ p ∈ L, ∃ o, s.obj p.1 = some o ∧ o.len = p.2.1 ∧ (p.2.2 = true → o.attrs = [])
  keep : s.keep = s0.keep
  same : ∀ x, RReach s0 [] x → s.obj x = s0.obj x
  start : RStOk s0
  closed : RStOk s
  le : s0.next ≤ s.next
  blocks : s.blocks.Perm (B ++ s0.blocks)

theorem RInv.init {s : RSt} (h : RStOk s) : RInv s s [] [] :=
  ⟨rfl, by simp, rfl, fun _ _ => rfl, h, h, le_rfl, List.Perm.refl _⟩

theorem RReach.mono {s : RSt} {e e' : List ℕ} (h : e ⊆ e') {x : ℕ} (hx : RReach s e x) : RReach s e' x := by
  induction hx with
  | keep h' => exact .keep h'
  | prot h' => exact .prot h'
  | arg h' => exact .arg (h h')
  | elt _ h1 h2 ih => exact .elt ih h1 h2
  | attr _ h1 h2 ih => exact .attr ih h1 h2

section
variable {s0 s : RSt} {L : List (ℕ × ℕ × Bool)} {B : List ℕ}

theorem RInv.reach_old (h : RInv s0 s L B) {x : ℕ} (hx : RReach s0 [] x) : RReach s [] x := by
  induction hx with
  | keep h' => exact .keep (h.keep ▸ h')
  | prot h' => exact .prot (by rw [h.pst]; exact List.mem_append_right _ h')
  | arg h' => exact absurd h' (by simp)
  | elt hx h1 h2 ih => exact .elt ih ((h.same _ hx).trans h1) h2
  | attr hx h1 h2 ih => exact .attr ih ((h.same _ hx).trans h1) h2

theorem RInv.old_ne (h : RInv s0 s L B) {x y : ℕ} (hx : RReach s0 [] x) (hy : s0.next ≤ y) : x ≠ y :=
  fun e => absurd (h.start x hx).2 (by omega)

theorem RInv.gc (h : RInv s0 s L B) {s' : RSt} {e : List ℕ} (hg : RGcStep s e s') :
    RInv s0 s' L B ∧ s'.next = s.next ∧ (∀ x ∈ e, s'.obj x = s.obj x) ∧ (∀ x, RReach s [] x → s'.obj x = s.obj x) := by
  obtain ⟨obj, rfl, hobj⟩ := hg
  have hsame : ∀ x, RReach s e x → obj x = s.obj x := by
    intro x hx
    rcases hobj x with h' | ⟨_, h'⟩
    · exact h'
    · exact absurd hx h'
  have hsame' : ∀ x, RReach s [] x → obj x = s.obj x := fun x hx => hsame x (hx.mono (by simp))
  refine ⟨⟨h.pst, ?_, h.keep, fun x hx => (hsame' x (h.reach_old hx)).trans (h.same x hx), h.start, ?_, h.le, h.blocks⟩, rfl,
    fun x hx => hsame x (.arg hx), hsame'⟩
  · intro p hp
    obtain ⟨o, ho, h2⟩ := h.live p hp
    exact ⟨o, (hsame' p.1 (.prot (by rw [h.pst]; exact List.mem_append_left _ (List.mem_map_of_mem hp)))).trans ho, h2⟩
  · intro x hx
    have : RReach s [] x := by
      induction hx with
      | keep h' => exact .keep h'
      | prot h' => exact .prot h'
      | arg h' => exact absurd h' (by simp)
      | elt _ h1 h2 ih => exact .elt ih ((hsame' _ ih) ▸ h1) h2
      | attr _ h1 h2 ih => exact .attr ih ((hsame' _ ih) ▸ h1) h2
    refine ⟨?_, (h.closed x this).2⟩
    show (obj x).isSome
    rw [hsame' x this]
    exact (h.closed x this).1

/-- A new object. -/
theorem RInv.alloc (h : RInv s0 s L B) {s' : RSt} (hg : RGcStep s [] s') (o : RObj) :
    RInv s0 { s' with obj := fun x => if x = s.next then some o else s'.obj x, next := s.next + 1 } L B := by
  obtain ⟨h', hn, -, -⟩ := h.gc hg
  have hreach : ∀ x, RReach { s' with obj := fun x => if x = s.next then some o else s'.obj x, next := s.next + 1 } [] x → RReach s' [] x := by
    intro x hx
    induction hx with
    | keep h' => exact .keep h'
    | prot h' => exact .prot h'
    | arg h' => exact absurd h' (by simp)
    | @elt x y o' _ h1 h2 ih =>
      have hne : x ≠ s.next := fun e => absurd (h'.closed _ ih).2 (by omega)
      simp only [if_neg hne] at h1
      exact .elt ih h1 h2
    | @attr x y o' a _ h1 h2 ih =>
      have hne : x ≠ s.next := fun e => absurd (h'.closed _ ih).2 (by omega)
      simp only [if_neg hne] at h1
      exact .attr ih h1 h2
  have hne : ∀ x, RReach s' [] x → x ≠ s.next := fun x hx e => absurd (h'.closed _ hx).2 (by omega)
  refine ⟨h'.pst, ?_, h'.keep, ?_, h.start, ?_, by have := h.le; simp only; omega, h'.blocks⟩
  · intro p hp
    obtain ⟨o', ho, h2⟩ := h'.live p hp
    refine ⟨o', ?_, h2⟩
    simp only [if_neg (hne p.1 (.prot (by rw [h'.pst]; exact List.mem_append_left _ (List.mem_map_of_mem hp))))]
    exact ho
  · intro x hx
    simp only [if_neg (hne x (h'.reach_old hx))]
    exact h'.same x hx
  · intro x hx
    have := hreach x hx
    simp only [if_neg (hne x this)]
    exact ⟨(h'.closed x this).1, by have := (h'.closed x this).2; omega⟩

/-- `PROTECT` of an object without elements and attributes, or of one that R can reach. -/
theorem RInv.protect (h : RInv s0 s L B) {x : ℕ} {o : RObj} (ho : s.obj x = some o) (hx : x < s.next) (hr : (o.elts = [] ∧ o.attrs = []) ∨ RReach s [] x) (b : Bool)
    (hb : b = true → o.attrs = []) : RInv s0 { s with pst := x :: s.pst } ((x, o.len, b) :: L) B := by
  have hreach : ∀ y, RReach { s with pst := x :: s.pst } [] y → RReach s [] y ∨ y = x := by
    intro y hy
    induction hy with
    | keep h' => exact .inl (.keep h')
    | prot h' =>
      rcases List.mem_cons.1 h' with rfl | h'
      · exact .inr rfl
      · exact .inl (.prot h')
    | arg h' => exact absurd h' (by simp)
    | elt _ h1 h2 ih =>
      rcases ih with ih | rfl
      · exact .inl (.elt ih h1 h2)
      · rcases hr with hr | hr
        · have h1' : s.obj _ = some _ := h1
          rw [ho] at h1'
          obtain rfl := Option.some.inj h1'
          rw [hr.1] at h2
          exact absurd h2 (by simp)
        · exact .inl (.elt hr h1 h2)
    | attr _ h1 h2 ih =>
      rcases ih with ih | rfl
      · exact .inl (.attr ih h1 h2)
      · rcases hr with hr | hr
        · have h1' : s.obj _ = some _ := h1
          rw [ho] at h1'
          obtain rfl := Option.some.inj h1'
          rw [hr.2] at h2
          exact absurd h2 (by simp)
        · exact .inl (.attr hr h1 h2)
  refine ⟨by simp [h.pst], ?_, h.keep, h.same, h.start, ?_, h.le, h.blocks⟩
  · intro p hp
    rcases List.mem_cons.1 hp with rfl | hp
    · exact ⟨o, ho, rfl, hb⟩
    · exact h.live p hp
  · intro y hy
    rcases hreach y hy with h' | rfl
    · exact h.closed y h'
    · exact ⟨by rw [ho]; rfl, hx⟩

/-- What can be reached when an object gets a reference to another one. -/
theorem reach_set {x y : ℕ} {o o' : RObj} (hox : s.obj x = some o) (he : ∀ z ∈ o'.elts, z ∈ o.elts ∨ z = y)
    (ha : ∀ a z, (a, z) ∈ o'.attrs → (a, z) ∈ o.attrs ∨ z = y)
    (hy : RReach s [] y ∨ (y ≠ x ∧ ∃ oy, s.obj y = some oy ∧ oy.elts = [] ∧ oy.attrs = [])) {z : ℕ}
    (hz : RReach { s with obj := fun z => if z = x then some o' else s.obj z } [] z) : RReach s [] z ∨ z = y := by
  induction hz with
  | keep h' => exact .inl (.keep h')
  | prot h' => exact .inl (.prot h')
  | arg h' => exact absurd h' (by simp)
  | @elt w z oz _ h1 h2 ih =>
    have key : RReach s [] w → RReach s [] z ∨ z = y := by
      intro hw
      by_cases e : w = x
      · subst e
        simp only [if_true] at h1
        obtain rfl := Option.some.inj h1
        rcases he z h2 with h' | h'
        · exact .inl (.elt hw hox h')
        · exact .inr h'
      · simp only [if_neg e] at h1
        exact .inl (.elt hw h1 h2)
    rcases ih with ih | rfl
    · exact key ih
    · rcases hy with hy | ⟨hne, oy, h3, h4, h5⟩
      · exact key hy
      · simp only [if_neg hne] at h1
        rw [h3] at h1
        obtain rfl := Option.some.inj h1
        rw [h4] at h2
        exact absurd h2 (by simp)
  | @attr w z oz a _ h1 h2 ih =>
    have key : RReach s [] w → RReach s [] z ∨ z = y := by
      intro hw
      by_cases e : w = x
      · subst e
        simp only [if_true] at h1
        obtain rfl := Option.some.inj h1
        rcases ha a z h2 with h' | h'
        · exact .inl (.attr hw hox h')
        · exact .inr h'
      · simp only [if_neg e] at h1
        exact .inl (.attr hw h1 h2)
    rcases ih with ih | rfl
    · exact key ih
    · rcases hy with hy | ⟨hne, oy, h3, h4, h5⟩
      · exact key hy
      · simp only [if_neg hne] at h1
        rw [h3] at h1
        obtain rfl := Option.some.inj h1
        rw [h5] at h2
        exact absurd h2 (by simp)

/-- A reference is stored in a new object. -/
theorem RInv.set (h : RInv s0 s L B) {x y : ℕ} {o o' : RObj} (hx : s0.next ≤ x) (hox : s.obj x = some o) (hlen : o'.len = o.len)
    (he : ∀ z ∈ o'.elts, z ∈ o.elts ∨ z = y) (ha : ∀ a z, (a, z) ∈ o'.attrs → (a, z) ∈ o.attrs ∨ z = y)
    (hy : RReach s [] y ∨ (y ≠ x ∧ y < s.next ∧ ∃ oy, s.obj y = some oy ∧ oy.elts = [] ∧ oy.attrs = []))
    (L' : List (ℕ × ℕ × Bool)) (hL : ∀ p ∈ L', ∃ b, (p.1, p.2.1, b) ∈ L ∧ (p.2.2 = true → b = true ∧ (p.1 = x → o'.attrs = o.attrs)))
    (hL' : L'.map Prod.fst = L.map Prod.fst) :
    RInv s0 { s with obj := fun z => if z = x then some o' else s.obj z } L' B := by
  refine ⟨by rw [hL']; exact h.pst, ?_, h.keep, ?_, h.start, ?_, h.le, h.blocks⟩
  · intro p hp
    obtain ⟨b, hb, hb2⟩ := hL p hp
    obtain ⟨q, hq, hq1, hq2⟩ := h.live _ hb
    by_cases e : p.1 = x
    · have hq' : s.obj p.1 = some q := hq
      rw [e, hox] at hq'
      obtain rfl := Option.some.inj hq'
      refine ⟨o', by simp [e], by rw [hlen]; exact hq1, fun hp2 => ?_⟩
      rw [(hb2 hp2).2 e]
      exact hq2 (hb2 hp2).1
    · refine ⟨q, by simp only [if_neg e]; exact hq, hq1, fun hp2 => hq2 (hb2 hp2).1⟩
  · intro z hz
    simp only [if_neg (h.old_ne hz hx)]
    exact h.same z hz
  · intro z hz
    have hy' : RReach s [] y ∨ (y ≠ x ∧ ∃ oy, s.obj y = some oy ∧ oy.elts = [] ∧ oy.attrs = []) := by
      rcases hy with hy | ⟨h1, _, h2⟩
      · exact .inl hy
      · exact .inr ⟨h1, h2⟩
    have hyl : (s.obj y).isSome ∧ y < s.next := by
      rcases hy with hy | ⟨_, h1, oy, h2, _⟩
      · exact h.closed y hy
      · exact ⟨by rw [h2]; rfl, h1⟩
    have hzl : (s.obj z).isSome ∧ z < s.next := by
      rcases reach_set hox he ha hy' hz with h' | rfl
      · exact h.closed z h'
      · exact hyl
    refine ⟨?_, hzl.2⟩
    by_cases e : z = x
    · simp [e]
    · simp only [if_neg e]; exact hzl.1

theorem RInv.reachL (h : RInv s0 s L B) {p : ℕ × ℕ × Bool} (hp : p ∈ L) : RReach s [] p.1 :=
  .prot (by rw [h.pst]; exact List.mem_append_left _ (List.mem_map_of_mem hp))

/-! ## Rules -/

/-- What holds when R returns to its top level with an error: what R could reach has not changed. -/
def RErrOk (s0 s : RSt) : Prop := ∀ x, RReach s0 [] x → s.obj x = s0.obj x

/-- What holds when the call returns `x`: the stack of protected objects is as before, all blocks have been released (and no others), what R could reach has not changed, and the result and
all that can be reached from it exist. -/
def RRetOk (s0 : RSt) (x : ℕ) (s : RSt) : Prop :=
  s.pst = s0.pst ∧ s.blocks.Perm s0.blocks ∧ (∀ y, RReach s0 [] y → s.obj y = s0.obj y) ∧ ∀ y, RReach s [x] y → (s.obj y).isSome

theorem RReach.cons {e : List ℕ} {x y : ℕ} (h : RReach { s with pst := x :: s.pst } e y) : RReach s (x :: e) y := by
  induction h with
  | keep h' => exact .keep h'
  | prot h' =>
    rcases List.mem_cons.1 h' with rfl | h'
    · exact .arg (by simp)
    · exact .prot h'
  | arg h' => exact .arg (by simp [h'])
  | elt _ h1 h2 ih => exact .elt ih h1 h2
  | attr _ h1 h2 ih => exact .attr ih h1 h2

/-- The end of a call that has protected the result. -/
theorem RInv.ret (h : RInv s0 s L []) {p : ℕ × ℕ × Bool} (hp : p ∈ L) (n : ℕ) (hn : n = L.length) :
    n ≤ s.pst.length ∧ RRetOk s0 p.1 { s with pst := s.pst.drop n } := by
  have e : s.pst.drop n = s0.pst := by rw [h.pst, hn]; simp
  refine ⟨by rw [h.pst, hn]; simp, e, by simpa using h.blocks, h.same, ?_⟩
  intro y hy
  refine (h.closed y ?_).1
  induction hy with
  | keep h' => exact .keep h'
  | prot h' => exact .prot (List.mem_of_mem_drop h')
  | arg h' => rw [List.mem_singleton] at h'; rw [h']; exact h.reachL hp
  | elt _ h1 h2 ih => exact .elt ih h1 h2
  | attr _ h1 h2 ih => exact .attr ih h1 h2

theorem RInv.err (h : RInv s0 s L B) : RErrOk s0 s := h.same

variable {α β : Type} {Q : α → RSt → Prop} {J : RSt → Prop} {fl : Bool}

theorem w_alloc (hJ : fl = true → ∀ s L, RInv s0 s L B → J s) (h : RInv s0 s L B) (o : RObj) (ho : o.elts = [] ∧ o.attrs = []) (f : ℕ → RProg α)
    (hf : ∀ s' x, s0.next ≤ x → RInv s0 s' ((x, o.len, true) :: L) B → (f x).wp fl Q J s') :
    ((RProg.alloc o .pure : RProg ℕ) >>= fun x => RP.protect x >>= fun _ => f x).wp fl Q J s := by
  intro s' hg
  refine ⟨fun e => hJ e _ _ (h.gc hg).1, ?_⟩
  refine ⟨by simp, ?_⟩
  exact hf _ _ h.le ((h.alloc hg o).protect (o := o) (by simp) (by simp) (.inl ho) true (fun _ => ho.2))

theorem w_allocMatrix (hJ : fl = true → ∀ s L, RInv s0 s L B → J s) (h : RInv s0 s L B) (n m : ℕ) (f : ℕ → RProg α)
    (hf : ∀ s' x, s0.next ≤ x → RInv s0 s' ((x, n * m, true) :: L) B → (f x).wp fl Q J s') :
    (RP.allocMatrix n m >>= fun x => RP.protect x >>= fun _ => f x).wp fl Q J s :=
  w_alloc hJ h _ ⟨rfl, rfl⟩ f hf

theorem w_allocVector (hJ : fl = true → ∀ s L, RInv s0 s L B → J s) (h : RInv s0 s L B) (k : RKind) (n : ℕ) (f : ℕ → RProg α)
    (hf : ∀ s' x, s0.next ≤ x → RInv s0 s' ((x, n, true) :: L) B → (f x).wp fl Q J s') :
    (RP.allocVector k n >>= fun x => RP.protect x >>= fun _ => f x).wp fl Q J s :=
  w_alloc hJ h _ ⟨rfl, rfl⟩ f hf

theorem w_inspect (h : RInv s0 s L B) {x : ℕ} {o : RObj} (hr : RReach s0 [] x) (ho : s0.obj x = some o) (f : RObj → RProg α) (hf : (f o).wp fl Q J s) :
    (RP.inspect x >>= f).wp fl Q J s := ⟨o, (h.same x hr).trans ho, hf⟩

theorem w_errorIf (hJ : fl = true → ∀ s L, RInv s0 s L B → J s) (h : RInv s0 s L B) (c : Bool) (hc : fl = true ∨ c = false) (f : Unit → RProg α) (hf : c = false → (f ()).wp fl Q J s) :
    (RP.errorIf c >>= f).wp fl Q J s := by
  rw [RProg.wp_bind]
  unfold RP.errorIf
  cases c
  · exact hf rfl
  · rcases hc with hc | hc
    · exact hJ hc _ _ h
    · exact absurd hc (by simp)

theorem w_assert (c : Bool) (hc : c = true) (f : Unit → RProg α) (hf : (f ()).wp fl Q J s) : (RP.assert c >>= f).wp fl Q J s := by
  subst hc
  exact hf

theorem w_forL {ι : Type} (f : ι → RProg Unit) (l : List ι) (hf : ∀ i ∈ l, ∀ Q' : Unit → RSt → Prop, Q' () s → (f i).wp fl Q' J s) (Q' : Unit → RSt → Prop)
    (h : Q' () s) : (RP.forL f l).wp fl Q' J s := by
  induction l with
  | nil => exact h
  | cons i l ih =>
    unfold RP.forL
    rw [RProg.wp_bind']
    exact hf i (by simp) _ (ih (fun j hj => hf j (by simp [hj])))

theorem w_for {ι : Type} (f : ι → RProg Unit) (l : List ι) (hf : ∀ i ∈ l, ∀ Q' : Unit → RSt → Prop, Q' () s → (f i).wp fl Q' J s) (g : Unit → RProg α)
    (h : (g ()).wp fl Q J s) : (RP.forL f l >>= g).wp fl Q J s := by
  rw [RProg.wp_bind]
  exact w_forL f l hf _ h

theorem w_write (h : RInv s0 s L B) {x n : ℕ} {b : Bool} (hx : (x, n, b) ∈ L) {i : ℕ} (hi : i < n) (Q' : Unit → RSt → Prop) (hQ : Q' () s) :
    (RP.write x i).wp fl Q' J s := by
  obtain ⟨o, h1, h2, _⟩ := h.live _ hx
  exact ⟨o, h1, by rw [h2]; exact hi, hQ⟩

theorem RInv.malloc (h : RInv s0 s L B) : RInv s0 { s with blocks := s.bnext :: s.blocks, bnext := s.bnext + 1 } L (s.bnext :: B) := by
  have hreach : ∀ x, RReach { s with blocks := s.bnext :: s.blocks, bnext := s.bnext + 1 } [] x → RReach s [] x := by
    intro x hx
    induction hx with
    | keep h' => exact .keep h'
    | prot h' => exact .prot h'
    | arg h' => exact .arg h'
    | elt _ h1 h2 ih => exact .elt ih h1 h2
    | attr _ h1 h2 ih => exact .attr ih h1 h2
  exact ⟨h.pst, h.live, h.keep, h.same, h.start, fun x hx => h.closed x (hreach x hx), h.le, h.blocks.cons _⟩

theorem w_malloc (h : RInv s0 s L B) (f : ℕ → RProg α) (hf : ∀ s' b, RInv s0 s' L (b :: B) → (f b).wp fl Q J s') : (RP.malloc >>= f).wp fl Q J s :=
  hf _ _ h.malloc

theorem w_useB (h : RInv s0 s L B) (b : ℕ) (hb : b ∈ B) (f : Unit → RProg α) (hf : (f ()).wp fl Q J s) : (RP.useB b >>= f).wp fl Q J s :=
  ⟨h.blocks.mem_iff.2 (List.mem_append_left _ hb), hf⟩

theorem w_free (h : RInv s0 s L B) (b : ℕ) (B' : List ℕ) (hb : B.Perm (b :: B')) (f : Unit → RProg α) (hf : ∀ s', RInv s0 s' L B' → (f ()).wp fl Q J s') :
    (RP.free b >>= f).wp fl Q J s := by
  have hp : s.blocks.Perm (b :: (B' ++ s0.blocks)) := h.blocks.trans (hb.append_right _)
  refine ⟨hp.mem_iff.2 (by simp), hf _ ?_⟩
  have hreach : ∀ x, RReach { s with blocks := s.blocks.erase b } [] x → RReach s [] x := by
    intro x hx
    induction hx with
    | keep h' => exact .keep h'
    | prot h' => exact .prot h'
    | arg h' => exact .arg h'
    | elt _ h1 h2 ih => exact .elt ih h1 h2
    | attr _ h1 h2 ih => exact .attr ih h1 h2
  refine ⟨h.pst, h.live, h.keep, h.same, h.start, fun x hx => h.closed x (hreach x hx), h.le, ?_⟩
  have := hp.erase b
  simpa using this

theorem w_install (hJ : fl = true → ∀ s L, RInv s0 s L B → J s) (h : RInv s0 s L B) (f : Unit → RProg α) (hf : ∀ s', RInv s0 s' L B → (f ()).wp fl Q J s') : (RP.install >>= f).wp fl Q J s :=
  fun _ hg => ⟨fun e => hJ e _ _ (h.gc hg).1, hf _ (h.gc hg).1⟩

theorem w_setElt (h : RInv s0 s L B) {x y i n m : ℕ} {b c : Bool} (hx : (x, n, b) ∈ L) (hfr : s0.next ≤ x) (hi : i < n) (hy : (y, m, c) ∈ L) (f : Unit → RProg α)
    (hf : ∀ s', RInv s0 s' L B → (f ()).wp fl Q J s') : (RP.setElt x i y >>= f).wp fl Q J s := by
  obtain ⟨o, h1, h2, _⟩ := h.live _ hx
  obtain ⟨o', h1', _⟩ := h.live _ hy
  refine ⟨o, h1, by rw [h2]; exact hi, by rw [h1']; rfl, hf _ ?_⟩
  exact h.set (o' := { o with elts := y :: o.elts }) hfr h1 rfl (fun z hz => (List.mem_cons.1 hz).symm) (fun a z hz => .inl hz) (.inl (h.reachL hy)) L
    (fun p hp => ⟨p.2.2, hp, fun hb => ⟨hb, fun _ => rfl⟩⟩) rfl

theorem w_pushString' (hJ : fl = true → ∀ s L, RInv s0 s L B → J s) (h : RInv s0 s L B) {x i n : ℕ} {b : Bool} (hx : (x, n, b) ∈ L) (hfr : s0.next ≤ x) (hi : i < n) (Q' : Unit → RSt → Prop)
    (hf : ∀ s', RInv s0 s' L B → Q' () s') : (RP.pushString x i).wp fl Q' J s := by
  intro s' hg
  refine ⟨fun e => hJ e _ _ (h.gc hg).1, ?_⟩
  have h' := h.alloc hg { kind := .chr, len := 0 }
  obtain ⟨o, h1, h2, _⟩ := h'.live _ hx
  refine ⟨o, h1, by rw [h2]; exact hi, by simp, hf _ ?_⟩
  have hne : x ≠ s.next := fun e => absurd (h.closed x (h.reachL hx)).2 (by omega)
  exact h'.set (o' := { o with elts := s.next :: o.elts }) hfr h1 rfl (fun z hz => (List.mem_cons.1 hz).symm) (fun a z hz => .inl hz)
    (.inr ⟨hne.symm, by simp, { kind := .chr, len := 0 }, by simp, rfl, rfl⟩) L (fun p hp => ⟨p.2.2, hp, fun hb => ⟨hb, fun _ => rfl⟩⟩) rfl

theorem w_pushString (hJ : fl = true → ∀ s L, RInv s0 s L B → J s) (h : RInv s0 s L B) {x i n : ℕ} {b : Bool} (hx : (x, n, b) ∈ L) (hfr : s0.next ≤ x) (hi : i < n) (f : Unit → RProg α)
    (hf : ∀ s', RInv s0 s' L B → (f ()).wp fl Q J s') : (RP.pushString x i >>= f).wp fl Q J s := by
  rw [RProg.wp_bind]
  exact w_pushString' hJ h hx hfr hi _ hf

theorem w_pushStrings (hJ : fl = true → ∀ s L, RInv s0 s L B → J s) (h : RInv s0 s L B) {x n : ℕ} {b : Bool} (hx : (x, n, b) ∈ L) (hfr : s0.next ≤ x) (l : List ℕ) (hl : ∀ i ∈ l, i < n) (Q' : Unit → RSt → Prop)
    (hf : ∀ s', RInv s0 s' L B → Q' () s') : (RP.forL (RP.pushString x) l).wp fl Q' J s := by
  induction l generalizing s with
  | nil => exact hf _ h
  | cons i l ih =>
    unfold RP.forL
    rw [RProg.wp_bind']
    exact w_pushString' hJ h hx hfr (hl i (by simp)) _ (fun s' h' => ih h' (fun j hj => hl j (by simp [hj])))

theorem w_setAttr (hJ : fl = true → ∀ s L, RInv s0 s L B → J s) (h : RInv s0 s L B) {x y n m : ℕ} {b c : Bool} (a : String) (hx : (x, n, b) ∈ L) (hfr : s0.next ≤ x) (hy : (y, m, c) ∈ L) (f : Unit → RProg α)
    (hf : ∀ s', RInv s0 s' (L.map (fun p => (p.1, p.2.1, false))) B → (f ()).wp fl Q J s') : (RP.setAttr x a y >>= f).wp fl Q J s := by
  obtain ⟨o, h1, h2, _⟩ := h.live _ hx
  obtain ⟨o', h1', _⟩ := h.live _ hy
  refine ⟨o, h1, by rw [h1']; rfl, fun s' hg => ⟨fun e => hJ e _ _ (h.gc hg).1, hf _ ?_⟩⟩
  obtain ⟨h', -, he, -⟩ := h.gc hg
  refine h'.set (o := o) (o' := { o with attrs := (a, y) :: o.attrs }) hfr ((he x (by simp)).trans h1) rfl (fun z hz => .inl hz) ?_ (.inl (h'.reachL hy)) _ ?_ ?_
  · intro a' z hz
    rcases List.mem_cons.1 hz with e | hz
    · exact .inr (Prod.mk.inj e).2
    · exact .inl hz
  · intro p hp
    obtain ⟨q, hq, rfl⟩ := List.mem_map.1 hp
    exact ⟨q.2.2, hq, fun hb => by simp at hb⟩
  · rw [List.map_map]; rfl

/-- The end of a call: `UNPROTECT(n)` and the result. -/
theorem w_ret (h : RInv s0 s L []) {x n : ℕ} {b : Bool} (hx : (x, n, b) ∈ L) (k : ℕ) (hk : k = L.length) :
    (RP.unprotect k >>= fun _ => (pure x : RProg ℕ)).wp fl (RRetOk s0) J s := h.ret hx k hk

/-- The end of a call: the result of `Rf_ScalarReal`. -/
theorem w_retScalar (hJ : fl = true → ∀ s L, RInv s0 s L [] → J s) (h : RInv s0 s [] []) (k : RKind) (n : ℕ) : (RP.allocVector k n).wp fl (RRetOk s0) J s := by
  intro s' hg
  refine ⟨fun e => hJ e _ _ (h.gc hg).1, ?_⟩
  have h1 := h.alloc hg { kind := k, len := n }
  have h2 := h1.protect (x := s.next) (o := { kind := k, len := n }) (by simp) (by simp) (.inl ⟨rfl, rfl⟩) false (by simp)
  exact (h2.ret (p := (s.next, n, false)) (by simp) 1 rfl).2

/-- `set_colnames` of a new matrix. -/
theorem w_setColnames (hJ : fl = true → ∀ s L, RInv s0 s L B → J s) (h : RInv s0 s L B) {m n nil : ℕ} (k : ℕ) (hm : (m, n, true) ∈ L) (hfr : s0.next ≤ m) (hnil : s0.keep nil) (f : Unit → RProg α)
    (hf : ∀ s', RInv s0 s' (L.map (fun p => (p.1, p.2.1, false))) B → (f ()).wp fl Q J s') : (RP.setColnames nil m k >>= f).wp fl Q J s := by
  rw [RProg.wp_bind]
  unfold RP.setColnames
  refine w_allocVector hJ h .str k _ (fun s1 names hn h1 => ?_)
  rw [RProg.wp_bind]
  refine w_pushStrings hJ h1 (n := k) (b := true) (by simp) hn _ (by simp) _ (fun s2 h2 => ?_)
  obtain ⟨o, ho, _, ho2⟩ := h2.live (m, n, true) (by simp [hm])
  refine ⟨o, ho, ?_⟩
  rw [ho2 rfl]
  have hrn : RReach s2 [] nil := h2.reach_old (.keep hnil)
  obtain ⟨on, hon⟩ := Option.isSome_iff_exists.1 (h2.closed nil hrn).1
  refine ⟨by rw [hon]; rfl, ?_⟩
  have h3 := h2.protect hon (h2.closed nil hrn).2 (.inr hrn) false (by simp)
  refine w_allocVector hJ h3 .vec 2 _ (fun s4 d hd h4 => ?_)
  refine w_setElt h4 (x := d) (y := names) (n := 2) (m := k) (b := true) (c := true) (by simp) hd (by omega) (by simp) _ (fun s5 h5 => ?_)
  refine w_setAttr hJ h5 (x := m) (y := d) (n := n) (m := 2) (b := true) (c := true) "dimnames" (by simp [hm]) hfr (by simp) _ (fun s6 h6 => ?_)
  have hp := h6.pst
  simp only [List.map_cons, List.cons_append, List.map_map] at hp
  refine ⟨by rw [hp]; simp, ?_⟩
  refine hf _ ?_
  have hreach : ∀ x, RReach { s6 with pst := s6.pst.drop 3 } [] x → RReach s6 [] x := by
    intro x hx
    induction hx with
    | keep h' => exact .keep h'
    | prot h' => exact .prot (List.mem_of_mem_drop h')
    | arg h' => exact .arg h'
    | elt _ h1 h2 ih => exact .elt ih h1 h2
    | attr _ h1 h2 ih => exact .attr ih h1 h2
  refine ⟨?_, fun p hp' => h6.live p (by simp only [List.map_cons]; simp [hp']), h6.keep, h6.same, h6.start, fun x hx => h6.closed x (hreach x hx), h6.le, h6.blocks⟩
  show s6.pst.drop 3 = _
  rw [hp]
  simp [List.map_map]

end

end Moo
