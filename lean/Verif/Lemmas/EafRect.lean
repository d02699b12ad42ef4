import Verif.Model.EafRect
import Mathlib.Tactic.Push
import Mathlib.Data.List.Basic

/-!
# The sweep of `eaf_compute_rectangles` over two staircases
-/

set_option autoImplicit false
set_option linter.unusedSectionVars false

namespace Moo

open Classical

variable {α : Type*} [LinearOrder α]

/-- The point `(x, y)` is in the rectangle, which contains its lower and left sides only. -/
def DRect.Has (r : DRect α) (x y : α) : Prop := r.lx ≤ x ∧ x < r.ux ∧ r.ly ≤ y ∧ y < r.uy

/-- The number of rectangles that contain `(x, y)`. -/
noncomputable def rectCount (rs : List (DRect α)) (x y : α) : ℕ := rs.countP (fun r => decide (r.Has x y))

theorem rectCount_nil (x y : α) : rectCount ([] : List (DRect α)) x y = 0 := rfl

theorem rectCount_append (l m : List (DRect α)) (x y : α) : rectCount (l ++ m) x y = rectCount l x y + rectCount m x y := by
  simp [rectCount]

theorem rectCount_cons (r : DRect α) (m : List (DRect α)) (x y : α) : rectCount (r :: m) x y = (if r.Has x y then 1 else 0) + rectCount m x y := by
  unfold rectCount
  rw [List.countP_cons, Nat.add_comm]
  simp

/-- Some point of the list is at most `(x, y)`. -/
def AttBy (A : List (α × α)) (x y : α) : Prop := ∃ p ∈ A, p.1 ≤ x ∧ p.2 ≤ y

/-- A staircase. -/
def EafStair (A : List (α × α)) : Prop := A.Pairwise (fun a b => a.1 < b.1 ∧ b.2 < a.2)

theorem attBy_cons_of_le {p : α × α} {A : List (α × α)} (h : EafStair (p :: A)) {x y : α} (hy : p.2 ≤ y) : AttBy (p :: A) x y ↔ p.1 ≤ x := by
  have h1 := (List.pairwise_cons.1 h).1
  constructor
  · rintro ⟨q, hq, h2, -⟩
    rcases List.mem_cons.1 hq with rfl | hq
    · exact h2
    · exact (h1 q hq).1.le.trans h2
  · intro hx; exact ⟨p, by simp, hx, hy⟩

theorem attBy_cons_of_lt {p : α × α} {A : List (α × α)} {x y : α} (hy : y < p.2) : AttBy (p :: A) x y ↔ AttBy A x y := by
  constructor
  · rintro ⟨q, hq, h2, h3⟩
    rcases List.mem_cons.1 hq with rfl | hq
    · exact absurd h3 hy.not_ge
    · exact ⟨q, hq, h2, h3⟩
  · rintro ⟨q, hq, h2⟩; exact ⟨q, by simp [hq], h2⟩

/-- What the sweep adds. -/
structure RectsOk (mx : α) (A : List ((α × α) × ℤ)) (B : List (α × α)) (top : α) (rs : List (DRect α)) : Prop where
  count : ∀ x y, rectCount rs x y = if y < top ∧ x < mx ∧ AttBy (A.map Prod.fst) x y ∧ ¬ AttBy B x y then 1 else 0
  proper : ∀ r ∈ rs, r.lx < r.ux ∧ r.ly < r.uy
  color : ∀ r ∈ rs, ∃ a ∈ A, a.1.1 = r.lx ∧ a.1.2 ≤ r.ly ∧ a.2 = r.color

theorem rectClose_spec (mx : α) (pkb : α × α) : ∀ (A : List ((α × α) × ℤ)) (top : α) (out : List (DRect α)), EafStair (A.map Prod.fst) →
    (∀ a ∈ A, a.1.1 < mx ∧ a.1.2 < top) → top ≤ pkb.2 →
    ∃ rs, rectClose mx pkb A top out = some (out ++ rs) ∧ RectsOk mx A [] top rs := by
  intro A
  induction A with
  | nil =>
    intro top out _ _ _
    refine ⟨[], by simp [rectClose], ?_, by simp, by simp⟩
    intro x y
    rw [rectCount_nil, if_neg]
    rintro ⟨_, _, ⟨p, hp, _⟩, _⟩
    simp at hp
  | cons a as ih =>
    intro top out hA hb ht
    have ha := hb a (by simp)
    have hp := List.pairwise_cons.1 hA
    obtain ⟨rs, h1, h2⟩ := ih a.1.2 (out ++ [⟨a.1.1, a.1.2, mx, top, a.2⟩]) hp.2
      (fun b hb' => ⟨(hb b (by simp [hb'])).1, (hp.1 b.1 (List.mem_map.2 ⟨b, hb', rfl⟩)).2⟩) (ha.2.le.trans ht)
    refine ⟨⟨a.1.1, a.1.2, mx, top, a.2⟩ :: rs, ?_, ?_, ?_, ?_⟩
    · rw [rectClose, if_neg (by rw [not_not]; exact ha.2.trans_le ht), rectangleAdd, if_neg (by push Not; exact ha)]
      dsimp only
      rw [h1, List.append_assoc, List.singleton_append]
    · intro x y
      rw [rectCount_cons, h2.count x y]
      have hnil : ¬ AttBy ([] : List (α × α)) x y := by rintro ⟨p, hp, _⟩; simp at hp
      by_cases hy : a.1.2 ≤ y
      · have h3 : AttBy ((a :: as).map Prod.fst) x y ↔ a.1.1 ≤ x := attBy_cons_of_le hA hy
        rw [if_neg (c := y < a.1.2 ∧ _) (by rintro ⟨h, _⟩; exact absurd h hy.not_gt), Nat.add_zero]
        apply if_congr _ rfl rfl
        rw [h3]
        unfold DRect.Has
        dsimp only
        tauto
      · push Not at hy
        have h3 : AttBy ((a :: as).map Prod.fst) x y ↔ AttBy (as.map Prod.fst) x y := attBy_cons_of_lt hy
        rw [if_neg (c := DRect.Has _ x y) (by rintro ⟨_, _, h, _⟩; exact absurd h hy.not_ge), Nat.zero_add]
        apply if_congr _ rfl rfl
        rw [h3]
        have : y < top := hy.trans ha.2
        tauto
    · intro r hr
      rcases List.mem_cons.1 hr with rfl | hr
      · exact ha
      · exact h2.proper r hr
    · intro r hr
      rcases List.mem_cons.1 hr with rfl | hr
      · exact ⟨a, by simp, rfl, le_rfl, rfl⟩
      · obtain ⟨a', h3, h4⟩ := h2.color r hr
        exact ⟨a', by simp [h3], h4⟩

/-- One strip `[t, top)` with at most one rectangle, and then the rest. -/
theorem rectsOk_step {mx : α} {A A' : List ((α × α) × ℤ)} {B B' : List (α × α)} {top t : α} {a : (α × α) × ℤ} {b : α × α} {rs : List (DRect α)}
    (ht : t < top) (hb : b.1 < mx) (ha : a ∈ A) (hat : a.1.2 ≤ t) (hA' : ∀ q ∈ A', q ∈ A)
    (h1 : ∀ x y, t ≤ y → y < top → (AttBy (A.map Prod.fst) x y ↔ a.1.1 ≤ x)) (h2 : ∀ x y, t ≤ y → y < top → (AttBy B x y ↔ b.1 ≤ x))
    (h3 : ∀ x y, y < t → (AttBy (A.map Prod.fst) x y ↔ AttBy (A'.map Prod.fst) x y)) (h4 : ∀ x y, y < t → (AttBy B x y ↔ AttBy B' x y))
    (h : RectsOk mx A' B' t rs) :
    RectsOk mx A B top ((if a.1.1 < b.1 then [⟨a.1.1, t, b.1, top, a.2⟩] else []) ++ rs) := by
  refine ⟨?_, ?_, ?_⟩
  · intro x y
    rw [rectCount_append, h.count x y]
    by_cases hy : t ≤ y
    · rw [if_neg (c := y < t ∧ _) (by rintro ⟨h, _⟩; exact absurd h hy.not_gt), Nat.add_zero]
      by_cases hyt : y < top
      · have e1 := h1 x y hy hyt
        have e2 := h2 x y hy hyt
        by_cases hab : a.1.1 < b.1
        · rw [if_pos hab, rectCount_cons, rectCount_nil, Nat.add_zero]
          apply if_congr _ rfl rfl
          rw [e1, e2]
          unfold DRect.Has
          dsimp only
          constructor
          · rintro ⟨g1, g2, g3, g4⟩; exact ⟨g4, g2.trans hb, g1, g2.not_ge⟩
          · rintro ⟨g1, g2, g3, g4⟩; exact ⟨g3, not_le.1 g4, hy, g1⟩
        · rw [if_neg hab, rectCount_nil, if_neg]
          rw [e1, e2]
          rintro ⟨g1, g2, g3, g4⟩
          exact hab (g3.trans_lt (not_le.1 g4))
      · rw [if_neg (c := y < top ∧ _) (by rintro ⟨h, _⟩; exact hyt h)]
        split_ifs
        · rw [rectCount_cons, rectCount_nil, if_neg]
          rintro ⟨_, _, _, h⟩; exact hyt h
        · rfl
    · push Not at hy
      have hz : rectCount (if a.1.1 < b.1 then [(⟨a.1.1, t, b.1, top, a.2⟩ : DRect α)] else []) x y = 0 := by
        split_ifs
        · rw [rectCount_cons, rectCount_nil, if_neg]
          rintro ⟨_, _, h, _⟩; exact absurd h hy.not_ge
        · rfl
      rw [hz, Nat.zero_add]
      apply if_congr _ rfl rfl
      rw [h3 x y hy, h4 x y hy]
      have : y < top := hy.trans ht
      tauto
  · intro r hr
    rcases List.mem_append.1 hr with hr | hr
    · split_ifs at hr with hab
      · rw [List.mem_singleton] at hr; subst hr; exact ⟨hab, ht⟩
      · simp at hr
    · exact h.proper r hr
  · intro r hr
    rcases List.mem_append.1 hr with hr | hr
    · split_ifs at hr with hab
      · rw [List.mem_singleton] at hr; subst hr; exact ⟨a, ha, rfl, hat, rfl⟩
      · simp at hr
    · obtain ⟨a', g1, g2⟩ := h.color r hr
      exact ⟨a', hA' a' g1, g2⟩

theorem rectSweep_spec (mx : α) : ∀ (fuel : ℕ) (A : List ((α × α) × ℤ)) (B : List (α × α)) (top : α) (out : List (DRect α)),
    A.length + B.length ≤ fuel → A ≠ [] → B ≠ [] → EafStair (A.map Prod.fst) → EafStair B → (∀ a ∈ A, a.1.1 < mx ∧ a.1.2 < top) →
    (∀ b ∈ B, b.1 < mx ∧ b.2 < top) → (∀ b ∈ B, AttBy (A.map Prod.fst) b.1 b.2) →
    ∃ rs, rectSweep mx fuel A B top out = some (out ++ rs) ∧ RectsOk mx A B top rs := by
  intro fuel
  induction fuel with
  | zero =>
    intro A B top out hf hA
    have := List.length_pos_of_ne_nil hA
    omega
  | succ fuel ih =>
    intro A B top out hf hA hB sA sB bA bB hd
    obtain ⟨a, as, rfl⟩ := List.exists_cons_of_ne_nil hA
    obtain ⟨b, bs, rfl⟩ := List.exists_cons_of_ne_nil hB
    have sA' : EafStair (a.1 :: as.map Prod.fst) := sA
    have pA := List.pairwise_cons.1 sA'
    have pB := List.pairwise_cons.1 sB
    have ha := bA a (by simp)
    have hb := bB b (by simp)
    rw [List.length_cons, List.length_cons] at hf
    by_cases hab : a.1.2 < b.2
    · -- `b` is finished
      have hout : (if a.1.1 < b.1 then rectangleAdd out a.1.1 b.2 b.1 top a.2 else some out) =
          some (out ++ (if a.1.1 < b.1 then [⟨a.1.1, b.2, b.1, top, a.2⟩] else [])) := by
        split_ifs with h
        · rw [rectangleAdd, if_neg (by push Not; exact ⟨h, hb.2⟩)]
        · rw [List.append_nil]
      have bA' : ∀ q ∈ a :: as, q.1.1 < mx ∧ q.1.2 < b.2 := by
        intro q hq
        refine ⟨(bA q hq).1, ?_⟩
        rcases List.mem_cons.1 hq with rfl | hq
        · exact hab
        · exact (pA.1 q.1 (List.mem_map.2 ⟨q, hq, rfl⟩)).2.trans hab
      have step : ∀ rs, RectsOk mx (a :: as) bs b.2 rs →
          RectsOk mx (a :: as) (b :: bs) top ((if a.1.1 < b.1 then [⟨a.1.1, b.2, b.1, top, a.2⟩] else []) ++ rs) := by
        intro rs h
        refine rectsOk_step hb.2 hb.1 (by simp) hab.le (fun q hq => hq) ?_ ?_ (fun _ _ _ => Iff.rfl) ?_ h
        · intro x y hy _; exact attBy_cons_of_le sA' (hab.le.trans hy)
        · intro x y hy _; exact attBy_cons_of_le sB hy
        · intro x y hy; exact attBy_cons_of_lt hy
      cases bs with
      | nil =>
        obtain ⟨rs, h1, h2⟩ := rectClose_spec mx b (a :: as) b.2 (out ++ (if a.1.1 < b.1 then [⟨a.1.1, b.2, b.1, top, a.2⟩] else []))
          sA bA' le_rfl
        refine ⟨_, ?_, step rs h2⟩
        rw [rectSweep, if_pos hab, hout]
        dsimp only
        rw [h1, List.append_assoc]
      | cons b' bs' =>
        obtain ⟨rs, h1, h2⟩ := ih (a :: as) (b' :: bs') b.2 (out ++ (if a.1.1 < b.1 then [⟨a.1.1, b.2, b.1, top, a.2⟩] else []))
          (by simp only [List.length_cons] at hf ⊢; omega) (by simp) (by simp) sA pB.2 bA'
          (fun q hq => ⟨(bB q (by simp [List.mem_cons.1 hq])).1, (pB.1 q hq).2⟩) (fun q hq => hd q (by simp [List.mem_cons.1 hq]))
        refine ⟨_, ?_, step rs h2⟩
        rw [rectSweep, if_pos hab, hout]
        dsimp only
        rw [h1, List.append_assoc]
    · -- `a` is finished
      have hba : b.2 ≤ a.1.2 := not_lt.1 hab
      have hout : (if a.1.1 < b.1 then rectangleAdd out a.1.1 a.1.2 b.1 top a.2
          else if a.1.1 = b.1 ∧ a.1.2 = b.2 then some out else none) =
          some (out ++ (if a.1.1 < b.1 then [⟨a.1.1, a.1.2, b.1, top, a.2⟩] else [])) := by
        split_ifs with h h'
        · rw [rectangleAdd, if_neg (by push Not; exact ⟨h, ha.2⟩)]
        · rw [List.append_nil]
        · exfalso
          obtain ⟨q, hq, g1, g2⟩ := hd b (by simp)
          rcases List.mem_cons.1 hq with rfl | hq
          · exact h' ⟨le_antisymm g1 (not_lt.1 h), le_antisymm g2 hba⟩
          · exact absurd ((pA.1 q hq).1.trans_le g1) h
      have bA' : ∀ q ∈ as, q.1.1 < mx ∧ q.1.2 < a.1.2 := fun q hq =>
        ⟨(bA q (by simp [hq])).1, (pA.1 q.1 (List.mem_map.2 ⟨q, hq, rfl⟩)).2⟩
      have hd' : ∀ q ∈ b :: bs, q.2 < a.1.2 → AttBy (as.map Prod.fst) q.1 q.2 := fun q hq hlt => (attBy_cons_of_lt hlt).1 (hd q hq)
      have step : ∀ rs B', (∀ x y, y < a.1.2 → (AttBy (b :: bs) x y ↔ AttBy B' x y)) → RectsOk mx as B' a.1.2 rs →
          RectsOk mx (a :: as) (b :: bs) top ((if a.1.1 < b.1 then [⟨a.1.1, a.1.2, b.1, top, a.2⟩] else []) ++ rs) := by
        intro rs B' hB' h
        refine rectsOk_step ha.2 hb.1 (by simp) le_rfl (fun q hq => by simp [hq]) ?_ ?_ ?_ hB' h
        · intro x y hy _; exact attBy_cons_of_le sA' hy
        · intro x y hy _; exact attBy_cons_of_le sB (hba.trans hy)
        · intro x y hy; exact attBy_cons_of_lt hy
      cases as with
      | nil =>
        refine ⟨_, ?_, step [] (b :: bs) (fun _ _ _ => Iff.rfl) ?_⟩
        · rw [rectSweep, if_neg hab, hout, List.append_nil]
        · refine ⟨?_, by simp, by simp⟩
          intro x y
          rw [rectCount_nil, if_neg]
          rintro ⟨_, _, ⟨p, hp, _⟩, _⟩
          simp at hp
      | cons a' as' =>
        by_cases heq : b.2 = a.1.2
        · have hB' : ∀ x y, y < a.1.2 → (AttBy (b :: bs) x y ↔ AttBy bs x y) := by
            intro x y hy; exact attBy_cons_of_lt (by rw [heq]; exact hy)
          cases bs with
          | nil =>
            obtain ⟨rs, h1, h2⟩ := rectClose_spec mx b (a' :: as') a.1.2 (out ++ (if a.1.1 < b.1 then [⟨a.1.1, a.1.2, b.1, top, a.2⟩] else []))
              pA.2 bA' heq.ge
            refine ⟨_, ?_, step rs [] hB' h2⟩
            rw [rectSweep, if_neg hab, hout]
            dsimp only
            rw [if_pos heq, h1, List.append_assoc]
          | cons b' bs' =>
            obtain ⟨rs, h1, h2⟩ := ih (a' :: as') (b' :: bs') a.1.2 (out ++ (if a.1.1 < b.1 then [⟨a.1.1, a.1.2, b.1, top, a.2⟩] else []))
              (by simp only [List.length_cons] at hf ⊢; omega) (by simp) (by simp) pA.2 pB.2 bA'
              (fun q hq => ⟨(bB q (by simp [List.mem_cons.1 hq])).1, by rw [← heq]; exact (pB.1 q hq).2⟩)
              (fun q hq => hd' q (by simp [List.mem_cons.1 hq]) (by rw [← heq]; exact (pB.1 q hq).2))
            refine ⟨_, ?_, step rs _ hB' h2⟩
            rw [rectSweep, if_neg hab, hout]
            dsimp only
            rw [if_pos heq, h1, List.append_assoc]
        · have hlt : b.2 < a.1.2 := lt_of_le_of_ne hba heq
          have hlt' : ∀ q ∈ b :: bs, q.2 < a.1.2 := by
            intro q hq
            rcases List.mem_cons.1 hq with rfl | hq
            · exact hlt
            · exact (pB.1 q hq).2.trans hlt
          obtain ⟨rs, h1, h2⟩ := ih (a' :: as') (b :: bs) a.1.2 (out ++ (if a.1.1 < b.1 then [⟨a.1.1, a.1.2, b.1, top, a.2⟩] else []))
            (by simp only [List.length_cons] at hf ⊢; omega) (by simp) (by simp) pA.2 sB bA'
            (fun q hq => ⟨(bB q hq).1, hlt' q hq⟩) (fun q hq => hd' q hq (hlt' q hq))
          refine ⟨_, ?_, step rs _ (fun _ _ _ => Iff.rfl) h2⟩
          rw [rectSweep, if_neg hab, hout]
          dsimp only
          rw [if_neg heq, h1, List.append_assoc]

end Moo
