import Verif.Lemmas.EafRect
import Verif.Model.EafPolygon
import Verif.Spec.Polygon

/-!
# The polygons between two staircases
-/

set_option autoImplicit false
set_option linter.unusedSectionVars false

namespace Moo

open Classical

variable {α : Type*} [LinearOrder α]

/-! ## Paths -/

/-- The number of the sides of an open path that the ray from `(x, y)` to the right crosses. -/
def pathCross (x y : α) : List (α × α) → ℕ
  | u :: v :: r => (if Crosses x y (u, v) then 1 else 0) + pathCross x y (v :: r)
  | _ => 0

/-- The two ends are on a horizontal or a vertical line. -/
def RectSide (u v : α × α) : Prop := u.1 = v.1 ∨ u.2 = v.2

theorem zip_countP (x y : α) (w : α × α) : ∀ (P : List (α × α)) (u : α × α),
    ((u :: P).zip (P ++ [w])).countP (Crosses x y) = pathCross x y (u :: (P ++ [w])) := by
  intro P
  induction P with
  | nil => intro u; simp [pathCross, List.countP_cons]
  | cons v P ih =>
    intro u
    rw [List.cons_append, List.zip_cons_cons, List.countP_cons, ih v, pathCross]
    omega

theorem zip_rect (w : α × α) : ∀ (P : List (α × α)) (u : α × α), List.IsChain RectSide (u :: (P ++ [w])) →
    ∀ e ∈ (u :: P).zip (P ++ [w]), e.1.1 = e.2.1 ∨ e.1.2 = e.2.2 := by
  intro P
  induction P with
  | nil =>
    intro u h e he
    simp at he h
    subst he
    exact h
  | cons v P ih =>
    intro u h e he
    rw [List.cons_append, List.zip_cons_cons, List.mem_cons] at he
    rw [List.cons_append, List.isChain_cons_cons] at h
    rcases he with rfl | he
    · exact h.1
    · exact ih v h.2 e he

theorem inPolygon_cons (u : α × α) (P : List (α × α)) (x y : α) : InPolygon (u :: P) x y ↔ Odd (pathCross x y (u :: (P ++ [u]))) := by
  unfold InPolygon polySides
  rw [List.rotate_cons_succ, List.rotate_zero, zip_countP]

theorem rectilinear_cons (u : α × α) (P : List (α × α)) (h : List.IsChain RectSide (u :: (P ++ [u]))) : Rectilinear (u :: P) := by
  unfold Rectilinear polySides
  rw [List.rotate_cons_succ, List.rotate_zero]
  exact zip_rect u P u h

theorem crosses_horizontal {u v : α × α} (h : u.2 = v.2) (x y : α) : Crosses x y (u, v) = false := by
  simp [Crosses, h]

/-- A vertical side that goes down. -/
theorem crosses_down {c p q : α} (h : q ≤ p) (x y : α) : (Crosses x y ((c, p), (c, q)) = true) ↔ q ≤ y ∧ y < p ∧ x < c := by
  unfold Crosses
  simp only [Bool.and_eq_true, bne_iff_ne, ne_eq, decide_eq_decide, decide_eq_true_eq]
  constructor
  · rintro ⟨h1, h2⟩
    by_cases h3 : p ≤ y
    · exact absurd (by simp [h3, h.trans h3]) h1
    · refine ⟨?_, not_le.1 h3, h2⟩
      by_contra h4
      exact h1 (by simp [h3, h4])
  · rintro ⟨h1, h2, h3⟩
    exact ⟨fun h4 => absurd (h4.2 h1) h2.not_ge, h3⟩

theorem crosses_up {c p q : α} (h : p ≤ q) (x y : α) : (Crosses x y ((c, p), (c, q)) = true) ↔ p ≤ y ∧ y < q ∧ x < c := by
  rw [← crosses_down h]
  unfold Crosses
  simp only [Bool.and_eq_true, bne_iff_ne, ne_eq, decide_eq_true_eq]
  tauto

/-- The corners on the way down along the surface `a`. -/
def downPts : α → List (α × α) → List (α × α)
  | _, [] => []
  | p, a :: as => (a.1, p) :: (a.1, a.2) :: downPts a.2 as

/-- Where the way down ends. -/
def downEnd : α → List (α × α) → α
  | p, [] => p
  | _, a :: as => downEnd a.2 as

/-- The corners on the way up along the surface `b`. -/
def upPts (top : α) : α → List (α × α) → List (α × α)
  | px, [] => [(px, top)]
  | px, b :: bs => (px, b.2) :: (b.1, b.2) :: upPts top b.1 bs

theorem downPts_append (p : α) (A B : List (α × α)) : downPts p (A ++ B) = downPts p A ++ downPts (downEnd p A) B := by
  induction A generalizing p with
  | nil => rfl
  | cons a as ih => simp [downPts, downEnd, ih]

theorem downEnd_append (p : α) (A B : List (α × α)) : downEnd p (A ++ B) = downEnd (downEnd p A) B := by
  induction A generalizing p with
  | nil => rfl
  | cons a as ih => simp [downEnd, ih]

theorem downEnd_le (p : α) (A : List (α × α)) (h : EafStair A) (ht : ∀ a ∈ A, a.2 < p) : downEnd p A ≤ p ∧ ∀ a ∈ A, downEnd p A ≤ a.2 := by
  induction A generalizing p with
  | nil => simp [downEnd]
  | cons a as ih =>
    have h1 := List.pairwise_cons.1 h
    have h2 := ih a.2 h1.2 (fun q hq => (h1.1 q hq).2)
    rw [downEnd]
    refine ⟨h2.1.trans (ht a (by simp)).le, ?_⟩
    intro q hq
    rcases List.mem_cons.1 hq with rfl | hq
    · exact h2.1
    · exact h2.2 q hq

theorem downPts_head (p : α) (A : List (α × α)) (c : α) (T : List (α × α)) :
    ∃ v r, downPts p A ++ (c, downEnd p A) :: T = v :: r ∧ v.2 = p := by
  cases A with
  | nil => exact ⟨_, _, rfl, rfl⟩
  | cons a as => exact ⟨_, _, rfl, rfl⟩

theorem cross_down (x y c : α) (T : List (α × α)) : ∀ (A : List (α × α)) (p : α), EafStair A → (∀ a ∈ A, a.2 < p) →
    pathCross x y (downPts p A ++ (c, downEnd p A) :: T) =
      (if downEnd p A ≤ y ∧ y < p ∧ ¬ AttBy A x y then 1 else 0) + pathCross x y ((c, downEnd p A) :: T) := by
  intro A
  induction A with
  | nil =>
    intro p _ _
    rw [if_neg (by rintro ⟨h1, h2, _⟩; exact absurd h2 h1.not_gt), Nat.zero_add]
    rfl
  | cons a as ih =>
    intro p h ht
    have h1 := List.pairwise_cons.1 h
    have hih := ih a.2 h1.2 (fun q hq => (h1.1 q hq).2)
    have hle := (downEnd_le a.2 as h1.2 (fun q hq => (h1.1 q hq).2)).1
    have hap := ht a (by simp)
    obtain ⟨v, r, hv, hv2⟩ := downPts_head a.2 as c T
    rw [downPts, downEnd, List.cons_append, List.cons_append]
    rw [hv] at hih ⊢
    rw [pathCross, pathCross, crosses_horizontal hv2.symm, hih]
    rw [if_neg (c := false = true) (by simp), Nat.zero_add, ← Nat.add_assoc]
    congr 1
    by_cases hy : a.2 ≤ y
    · rw [if_neg (c := _ ∧ y < a.2 ∧ _) (by rintro ⟨_, h3, _⟩; exact absurd h3 hy.not_gt), Nat.add_zero]
      apply if_congr _ rfl rfl
      rw [crosses_down hap.le, attBy_cons_of_le h hy, not_le]
      have := hle.trans hy
      tauto
    · push Not at hy
      rw [if_neg (c := Crosses _ _ _ = true) (by rw [crosses_down hap.le]; rintro ⟨h3, _⟩; exact absurd h3 hy.not_ge), Nat.zero_add]
      apply if_congr _ rfl rfl
      rw [attBy_cons_of_lt hy]
      have := hy.trans hap
      tauto

theorem cross_up (x y top : α) (w : α × α) (hw : w.2 = top) : ∀ (L : List (α × α)) (c h : α), h ≤ top → (∀ b ∈ L, h ≤ b.2 ∧ b.2 < top ∧ b.1 ≤ c) →
    L.Pairwise (fun b b' => b'.1 < b.1 ∧ b.2 < b'.2) →
    pathCross x y ((c, h) :: (upPts top c L ++ [w])) = if h ≤ y ∧ y < top ∧ ¬ AttBy ((c, h) :: L) x y then 1 else 0 := by
  intro L
  induction L with
  | nil =>
    intro c h ht _ _
    rw [upPts, List.singleton_append, pathCross, pathCross, crosses_horizontal (u := (c, top)) (v := w) hw.symm]
    rw [if_neg (c := false = true) (by simp), Nat.zero_add, pathCross, Nat.add_zero]
    swap
    · simp
    apply if_congr _ rfl rfl
    rw [crosses_up ht]
    have : AttBy [(c, h)] x y ↔ c ≤ x ∧ h ≤ y := by
      unfold AttBy; simp
    rw [this]
    constructor
    · rintro ⟨h1, h2, h3⟩; exact ⟨h1, h2, fun h4 => absurd h4.1 h3.not_ge⟩
    · rintro ⟨h1, h2, h3⟩; exact ⟨h1, h2, not_le.1 fun h4 => h3 ⟨h4, h1⟩⟩
  | cons b bs ih =>
    intro c h ht hb hp
    have hp' := List.pairwise_cons.1 hp
    have hbb := hb b (by simp)
    have hih := ih b.1 b.2 hbb.2.1.le (fun q hq => ⟨(hp'.1 q hq).2.le, (hb q (by simp [hq])).2.1, (hp'.1 q hq).1.le⟩) hp'.2
    rw [upPts, List.cons_append, List.cons_append, pathCross, pathCross, crosses_horizontal (u := (c, b.2)) (v := (b.1, b.2)) rfl,
      if_neg (c := false = true) (by simp), Nat.zero_add, hih]
    by_cases hy : b.2 ≤ y
    · rw [if_neg (c := Crosses _ _ _ = true) (by rw [crosses_up hbb.1]; rintro ⟨_, h3, _⟩; exact absurd h3 hy.not_gt), Nat.zero_add]
      apply if_congr _ rfl rfl
      have : AttBy ((c, h) :: b :: bs) x y ↔ AttBy ((b.1, b.2) :: bs) x y := by
        constructor
        · rintro ⟨q, hq, h1, h2⟩
          rcases List.mem_cons.1 hq with rfl | hq
          · exact ⟨b, by simp, hbb.2.2.trans h1, hy⟩
          · exact ⟨q, hq, h1, h2⟩
        · rintro ⟨q, hq, h1⟩; exact ⟨q, List.mem_cons_of_mem _ hq, h1⟩
      rw [this]
      have := hbb.1.trans hy
      tauto
    · push Not at hy
      rw [if_neg (c := b.2 ≤ y ∧ _) (by rintro ⟨h3, _⟩; exact absurd h3 hy.not_ge), Nat.add_zero]
      apply if_congr _ rfl rfl
      rw [crosses_up hbb.1]
      have : AttBy ((c, h) :: b :: bs) x y ↔ c ≤ x ∧ h ≤ y := by
        constructor
        · rintro ⟨q, hq, h1, h2⟩
          rcases List.mem_cons.1 hq with rfl | hq
          · exact ⟨h1, h2⟩
          · rcases List.mem_cons.1 hq with rfl | hq
            · exact absurd h2 hy.not_ge
            · exact absurd h2 (hy.trans (hp'.1 q hq).2).not_ge
        · rintro ⟨h1, h2⟩; exact ⟨(c, h), by simp, h1, h2⟩
      rw [this]
      have := hy.trans hbb.2.1
      constructor
      · rintro ⟨h1, h2, h3⟩; exact ⟨h1, this, fun h4 => absurd h4.1 h3.not_ge⟩
      · rintro ⟨h1, h2, h3⟩; exact ⟨h1, hy, not_le.1 fun h4 => h3 ⟨h4, h1⟩⟩

theorem chain_down (c : α) (T : List (α × α)) : ∀ (A : List (α × α)) (p : α), List.IsChain RectSide ((c, downEnd p A) :: T) →
    List.IsChain RectSide (downPts p A ++ (c, downEnd p A) :: T) := by
  intro A
  induction A with
  | nil => intro p h; exact h
  | cons a as ih =>
    intro p h
    have hih := ih a.2 h
    obtain ⟨v, r, hv, hv2⟩ := downPts_head a.2 as c T
    rw [downPts, downEnd, List.cons_append, List.cons_append]
    rw [hv] at hih ⊢
    rw [List.isChain_cons_cons, List.isChain_cons_cons]
    exact ⟨Or.inl rfl, Or.inr hv2.symm, hih⟩

theorem chain_up (top : α) (w : α × α) (hw : w.2 = top) : ∀ (L : List (α × α)) (c h : α),
    List.IsChain RectSide ((c, h) :: (upPts top c L ++ [w])) := by
  intro L
  induction L with
  | nil =>
    intro c h
    rw [upPts, List.singleton_append, List.isChain_cons_cons, List.isChain_cons_cons]
    exact ⟨Or.inl rfl, Or.inr hw.symm, by simp⟩
  | cons b bs ih =>
    intro c h
    rw [upPts, List.cons_append, List.cons_append, List.isChain_cons_cons, List.isChain_cons_cons]
    exact ⟨Or.inl rfl, Or.inr rfl, ih b.1 b.2⟩

theorem downPts_length (p : α) (A : List (α × α)) : (downPts p A).length = 2 * A.length := by
  induction A generalizing p with
  | nil => rfl
  | cons a as ih => simp [downPts, ih]; omega

theorem upPts_length (top : α) (L : List (α × α)) (c : α) : (upPts top c L).length = 2 * L.length + 1 := by
  induction L generalizing c with
  | nil => rfl
  | cons a as ih => simp [upPts, ih]; omega

theorem downPts_mem (Q : α → Prop) (p : α) (A : List (α × α)) (hp : Q p) (hA : ∀ a ∈ A, Q a.1 ∧ Q a.2) : ∀ v ∈ downPts p A, Q v.1 ∧ Q v.2 := by
  induction A generalizing p with
  | nil => simp [downPts]
  | cons a as ih =>
    have ha := hA a (by simp)
    intro v hv
    simp only [downPts, List.mem_cons] at hv
    rcases hv with rfl | rfl | hv
    · exact ⟨ha.1, hp⟩
    · exact ha
    · exact ih a.2 ha.2 (fun q hq => hA q (by simp [hq])) v hv

theorem downEnd_mem (Q : α → Prop) (p : α) (A : List (α × α)) (hp : Q p) (hA : ∀ a ∈ A, Q a.1 ∧ Q a.2) : Q (downEnd p A) := by
  induction A generalizing p with
  | nil => exact hp
  | cons a as ih => exact ih a.2 (hA a (by simp)).2 (fun q hq => hA q (by simp [hq]))

theorem upPts_mem (Q : α → Prop) (top : α) (L : List (α × α)) (c : α) (hc : Q c) (ht : Q top) (hL : ∀ b ∈ L, Q b.1 ∧ Q b.2) :
    ∀ v ∈ upPts top c L, Q v.1 ∧ Q v.2 := by
  induction L generalizing c with
  | nil =>
    intro v hv
    simp only [upPts, List.mem_singleton] at hv
    subst hv
    exact ⟨hc, ht⟩
  | cons b bs ih =>
    have hb := hL b (by simp)
    intro v hv
    simp only [upPts, List.mem_cons] at hv
    rcases hv with rfl | rfl | hv
    · exact ⟨hc, hb.2⟩
    · exact hb
    · exact ih b.1 hb.1 (fun q hq => hL q (by simp [hq])) v hv

/-- The polygon between a piece of the surface `a` and a piece of the surface `b`. -/
def slabPolygon (top : α) (A : List (α × α)) (c : α) (L : List (α × α)) : List (α × α) :=
  downPts top A ++ (c, downEnd top A) :: upPts top c L

theorem slab_spec {top c : α} {A L : List (α × α)} (hA : A ≠ []) (sA : EafStair A) (tA : ∀ a ∈ A, a.2 < top)
    (hL : ∀ b ∈ L, downEnd top A ≤ b.2 ∧ b.2 < top ∧ b.1 ≤ c) (sL : L.Pairwise (fun b b' => b'.1 < b.1 ∧ b.2 < b'.2))
    (hd : ∀ b ∈ (c, downEnd top A) :: L, AttBy A b.1 b.2) :
    Rectilinear (slabPolygon top A c L) ∧ 4 ≤ (slabPolygon top A c L).length ∧ (slabPolygon top A c L).length % 2 = 0 ∧
    ∀ x y, InPolygon (slabPolygon top A c L) x y ↔ downEnd top A ≤ y ∧ y < top ∧ AttBy A x y ∧ ¬ AttBy ((c, downEnd top A) :: L) x y := by
  have hlen : (slabPolygon top A c L).length = 2 * A.length + 2 * L.length + 2 := by
    unfold slabPolygon
    rw [List.length_append, List.length_cons, downPts_length, upPts_length]; omega
  have hpos := List.length_pos_of_ne_nil hA
  obtain ⟨a, as, rfl⟩ := List.exists_cons_of_ne_nil hA
  have e : ∀ w : α × α, (a.1, top) :: (((a.1, a.2) :: downPts a.2 as ++ (c, downEnd a.2 as) :: upPts top c L) ++ [w]) =
      downPts top (a :: as) ++ (c, downEnd top (a :: as)) :: (upPts top c L ++ [w]) := by
    intro w; simp [downPts, downEnd]
  have e' : slabPolygon top (a :: as) c L = (a.1, top) :: ((a.1, a.2) :: downPts a.2 as ++ (c, downEnd a.2 as) :: upPts top c L) := by
    simp [slabPolygon, downPts, downEnd]
  have hend := (downEnd_le top (a :: as) sA tA).1
  refine ⟨?_, by omega, by omega, ?_⟩
  · rw [e']
    apply rectilinear_cons
    rw [e]
    exact chain_down _ _ _ _ (chain_up top (a.1, top) rfl _ _ _)
  · intro x y
    rw [e', inPolygon_cons, e, cross_down _ _ _ _ _ _ sA tA, cross_up x y top (a.1, top) rfl _ _ _ hend hL sL]
    have himp : AttBy ((c, downEnd top (a :: as)) :: L) x y → AttBy (a :: as) x y := by
      rintro ⟨q, hq, h1, h2⟩
      obtain ⟨q', hq', h3, h4⟩ := hd q hq
      exact ⟨q', hq', h3.trans h1, h4.trans h2⟩
    by_cases h1 : downEnd top (a :: as) ≤ y
    · by_cases h2 : y < top
      · by_cases h3 : AttBy (a :: as) x y
        · by_cases h4 : AttBy ((c, downEnd top (a :: as)) :: L) x y <;> simp [h1, h2, h3, h4]
        · have h4 : ¬ AttBy ((c, downEnd top (a :: as)) :: L) x y := fun h => h3 (himp h)
          simp [h1, h2, h3, h4]
      · simp [h2]
    · simp [h1]

/-! ## The loops -/

/-- What the loops keep: two staircases below `top`, `b` dominated by `a`, all coordinates between the infinities, and two points of `a` of different colours
have a point of `b` below their join. -/
structure PolyInv (mx mn : α) (A : List ((α × α) × ℤ)) (B : List (α × α)) (top : α) : Prop where
  sA : EafStair (A.map Prod.fst)
  sB : EafStair B
  bA : ∀ a ∈ A, a.1.1 < mx ∧ a.1.2 < top
  bB : ∀ b ∈ B, b.1 < mx ∧ b.2 < top
  nA : ∀ a ∈ A, mn < a.1.1 ∧ mn < a.1.2
  nB : ∀ b ∈ B, mn < b.1 ∧ mn < b.2
  dom : ∀ b ∈ B, AttBy (A.map Prod.fst) b.1 b.2
  col : A.Pairwise (fun a a' => a.2 = a'.2 ∨ ∃ b ∈ B, b.1 ≤ a'.1.1 ∧ b.2 ≤ a.1.2)
  top_le : top ≤ mx
  mn_top : mn < top

theorem polyOverlap_spec {mx mn : α} : ∀ (A : List ((α × α) × ℤ)) (B : List (α × α)) (top : α), PolyInv mx mn A B top →
    ∃ A' B' top', polyOverlap A B top = some (A', B', top') ∧ PolyInv mx mn A' B' top' ∧ A'.length ≤ A.length ∧ (∀ a ∈ A', a ∈ A) ∧
      (∀ a as, A' = a :: as → ∀ b ∈ B', a.1.1 < b.1) ∧
      ∀ x y, (y < top ∧ AttBy (A.map Prod.fst) x y ∧ ¬ AttBy B x y ↔ y < top' ∧ AttBy (A'.map Prod.fst) x y ∧ ¬ AttBy B' x y) := by
  intro A
  induction A with
  | nil =>
    intro B top h
    exact ⟨[], B, top, by rw [polyOverlap]; simp, h, le_rfl, fun _ h => h, by simp, fun _ _ => Iff.rfl⟩
  | cons a as ih =>
    intro B top h
    cases B with
    | nil =>
      exact ⟨a :: as, [], top, by rw [polyOverlap]; simp, h, le_rfl, fun _ h => h, by simp, fun _ _ => Iff.rfl⟩
    | cons b bs =>
      have sA : EafStair (a.1 :: as.map Prod.fst) := h.sA
      have pA := List.pairwise_cons.1 sA
      have pB := List.pairwise_cons.1 h.sB
      have hge : ∀ b' ∈ b :: bs, a.1.1 ≤ b'.1 := by
        intro b' hb'
        obtain ⟨q, hq, h1, -⟩ := h.dom b' hb'
        rw [List.map_cons, List.mem_cons] at hq
        rcases hq with rfl | hq
        · exact h1
        · exact (pA.1 q hq).1.le.trans h1
      by_cases hne : b.1 ≠ a.1.1
      · refine ⟨a :: as, b :: bs, top, by rw [polyOverlap, if_pos hne], h, le_rfl, fun _ h => h, ?_, fun _ _ => Iff.rfl⟩
        intro a' as' he b' hb'
        cases he
        have hlt : a.1.1 < b.1 := lt_of_le_of_ne (hge b (by simp)) (Ne.symm hne)
        rcases List.mem_cons.1 hb' with rfl | hb'
        · exact hlt
        · exact hlt.trans (pB.1 b' hb').1
      · push Not at hne
        have hlow : ∀ q ∈ as, q.1.2 < a.1.2 := fun q hq => (pA.1 q.1 (List.mem_map.2 ⟨q, hq, rfl⟩)).2
        by_cases heq : b.2 = a.1.2
        · have hinv : PolyInv mx mn as bs b.2 := by
            refine ⟨pA.2, pB.2, ?_, ?_, fun q hq => h.nA q (by simp [hq]), fun q hq => h.nB q (by simp [hq]), ?_, ?_, ?_, (h.nB b (by simp)).2⟩
            · intro q hq; exact ⟨(h.bA q (by simp [hq])).1, heq ▸ hlow q hq⟩
            · intro q hq; exact ⟨(h.bB q (by simp [hq])).1, (pB.1 q hq).2⟩
            · intro q hq
              exact (attBy_cons_of_lt (p := a.1) (by rw [← heq]; exact (pB.1 q hq).2)).1 (h.dom q (by simp [hq]))
            · refine (List.pairwise_cons.1 h.col).2.imp_of_mem ?_
              intro p q hp hq h1
              refine h1.imp id ?_
              rintro ⟨b', hb', h2, h3⟩
              rcases List.mem_cons.1 hb' with rfl | hb'
              · exact absurd (h3.trans_lt (hlow p hp)) (by rw [heq]; exact lt_irrefl _)
              · exact ⟨b', hb', h2, h3⟩
            · exact (h.bB b (by simp)).2.le.trans h.top_le
          obtain ⟨A', B', top', h1, h2, h3, h4, h5, h6⟩ := ih bs b.2 hinv
          refine ⟨A', B', top', by rw [polyOverlap, if_neg (by simpa using hne), if_pos heq, h1], h2, by simp; omega,
            fun q hq => by simp [h4 q hq], h5, ?_⟩
          intro x y
          rw [← h6 x y]
          by_cases hy : b.2 ≤ y
          · have e1 : AttBy ((a :: as).map Prod.fst) x y ↔ a.1.1 ≤ x := attBy_cons_of_le sA (heq ▸ hy)
            have e2 : AttBy (b :: bs) x y ↔ b.1 ≤ x := attBy_cons_of_le h.sB hy
            rw [e1, e2, hne]
            constructor
            · rintro ⟨_, g1, g2⟩; exact absurd g1 g2
            · rintro ⟨g1, _⟩; exact absurd g1 hy.not_gt
          · push Not at hy
            have e1 : AttBy ((a :: as).map Prod.fst) x y ↔ AttBy (as.map Prod.fst) x y := attBy_cons_of_lt (heq ▸ hy)
            have e2 : AttBy (b :: bs) x y ↔ AttBy bs x y := attBy_cons_of_lt hy
            rw [e1, e2]
            have := hy.trans (h.bB b (by simp)).2
            tauto
        · have hlt : a.1.2 < b.2 := by
            obtain ⟨q, hq, h1, h2⟩ := h.dom b (by simp)
            rw [List.map_cons, List.mem_cons] at hq
            rcases hq with rfl | hq
            · exact lt_of_le_of_ne h2 (Ne.symm heq)
            · exact absurd ((pA.1 q hq).1.trans_le h1) (by rw [hne]; exact lt_irrefl _)
          refine ⟨a :: as, bs, b.2, by rw [polyOverlap, if_neg (by simpa using hne), if_neg heq, if_pos hlt], ?_, le_rfl, fun _ h => h, ?_, ?_⟩
          · refine ⟨h.sA, pB.2, ?_, ?_, h.nA, fun q hq => h.nB q (by simp [hq]), fun q hq => h.dom q (by simp [hq]), ?_, ?_, (h.nB b (by simp)).2⟩
            · intro q hq
              refine ⟨(h.bA q hq).1, ?_⟩
              rcases List.mem_cons.1 hq with rfl | hq
              · exact hlt
              · exact (hlow q hq).trans hlt
            · intro q hq; exact ⟨(h.bB q (by simp [hq])).1, (pB.1 q hq).2⟩
            · refine h.col.imp_of_mem ?_
              intro p q hp hq h1
              refine h1.imp id ?_
              rintro ⟨b', hb', h2, h3⟩
              rcases List.mem_cons.1 hb' with rfl | hb'
              · have hpa : p.1.2 ≤ a.1.2 := by
                  rcases List.mem_cons.1 hp with rfl | hp
                  · exact le_rfl
                  · exact (hlow p hp).le
                exact absurd (h3.trans hpa) hlt.not_ge
              · exact ⟨b', hb', h2, h3⟩
            · exact (h.bB b (by simp)).2.le.trans h.top_le
          · intro a' as' he b' hb'
            cases he
            exact hne ▸ (pB.1 b' hb').1
          · intro x y
            by_cases hy : b.2 ≤ y
            · have e1 : AttBy ((a :: as).map Prod.fst) x y ↔ a.1.1 ≤ x := attBy_cons_of_le sA (hlt.le.trans hy)
              have e2 : AttBy (b :: bs) x y ↔ b.1 ≤ x := attBy_cons_of_le h.sB hy
              rw [e1, e2, hne]
              constructor
              · rintro ⟨_, g1, g2⟩; exact absurd g1 g2
              · rintro ⟨g1, _⟩; exact absurd g1 hy.not_gt
            · push Not at hy
              have e2 : AttBy (b :: bs) x y ↔ AttBy bs x y := attBy_cons_of_lt hy
              rw [e2]
              have := hy.trans (h.bB b (by simp)).2
              tauto

theorem polyAdvance_spec (a : α × α) : ∀ (bs seen : List (α × α)), EafStair bs → (∀ b ∈ bs, a.1 < b.1) →
    ∃ S bs', polyAdvance a bs seen = some (bs', S.reverse ++ seen) ∧ bs = S ++ bs' ∧ (∀ b ∈ S, a.2 < b.2) ∧ ∀ b ∈ bs', b.2 ≤ a.2 := by
  intro bs
  induction bs with
  | nil => intro seen _ _; exact ⟨[], [], by simp [polyAdvance]⟩
  | cons b bs ih =>
    intro seen hs hx
    have p := List.pairwise_cons.1 hs
    by_cases hb : b.2 ≤ a.2
    · refine ⟨[], b :: bs, ?_, rfl, by simp, ?_⟩
      · rw [polyAdvance, if_neg (by simpa using hx b (by simp)), if_pos hb]; rfl
      · intro q hq
        rcases List.mem_cons.1 hq with rfl | hq
        · exact hb
        · exact (p.1 q hq).2.le.trans hb
    · obtain ⟨S, bs', h1, h2, h3, h4⟩ := ih (b :: seen) p.2 (fun q hq => hx q (by simp [hq]))
      refine ⟨b :: S, bs', ?_, by rw [h2]; rfl, ?_, h4⟩
      · rw [polyAdvance, if_neg (by simpa using hx b (by simp)), if_neg hb, h1]
        simp
      · intro q hq
        rcases List.mem_cons.1 hq with rfl | hq
        · exact not_le.1 hb
        · exact h3 q hq

/-- What the way down along `a` finds. -/
structure DownOk (color0 : ℤ) (A : List ((α × α) × ℤ)) (bs seen : List (α × α)) (prevY : α) (pts : List (α × α)) (d : PolyDown α)
    (A1 : List ((α × α) × ℤ)) (S : List (α × α)) : Prop where
  split : A = A1 ++ d.as
  ne : A1 ≠ []
  color : ∀ a ∈ A1, a.2 = color0
  last : d.pka ∈ A1.map Prod.fst
  rest : ∀ q ∈ d.as, d.pka.1 < q.1.1
  pts_eq : d.pts = pts ++ downPts prevY (A1.map Prod.fst)
  end_eq : d.pka.2 = downEnd prevY (A1.map Prod.fst)
  bsplit : bs = S ++ d.bs
  seen_eq : d.seen = S.reverse ++ seen
  above : ∀ b ∈ S, d.pka.2 < b.2
  below : ∀ b ∈ d.bs, b.2 ≤ d.pka.2
  right : ∀ b ∈ d.bs, d.pka.1 < b.1
  hit : ∀ a as, d.as = a :: as → ∃ b bs', d.bs = b :: bs' ∧ b.1 ≤ a.1.1

theorem polyDown_spec (color0 : ℤ) : ∀ (A : List ((α × α) × ℤ)) (bs seen : List (α × α)) (prevY : α) (pts : List (α × α)),
    A ≠ [] → (∀ a as, A = a :: as → a.2 = color0 ∧ a.1.2 < prevY ∧ ∀ b ∈ bs, a.1.1 < b.1) →
    EafStair (A.map Prod.fst) → EafStair bs → (∀ b ∈ bs, AttBy (A.map Prod.fst) b.1 b.2) →
    A.Pairwise (fun a a' => a.2 = a'.2 ∨ ∃ b ∈ bs, b.1 ≤ a'.1.1 ∧ b.2 ≤ a.1.2) →
    ∃ d A1 S, polyDown color0 A bs seen prevY pts = some d ∧ DownOk color0 A bs seen prevY pts d A1 S := by
  intro A
  induction A with
  | nil => intro _ _ _ _ h; exact absurd rfl h
  | cons a as ih =>
    intro bs seen prevY pts _ hhead hsA hsB hdom hcol
    obtain ⟨hc, hy, hx⟩ := hhead a as rfl
    have sA : EafStair (a.1 :: as.map Prod.fst) := hsA
    have pA := List.pairwise_cons.1 sA
    obtain ⟨S, bs', h1, h2, h3, h4⟩ := polyAdvance_spec a.1 bs seen hsB hx
    have hsub : ∀ b ∈ bs', b ∈ bs := fun b hb => by rw [h2]; simp [hb]
    have hsB' : EafStair bs' := by rw [h2] at hsB; exact (List.pairwise_append.1 hsB).2.1
    -- stop here
    have stop : (∀ a' as', as = a' :: as' → ∃ b bs'', bs' = b :: bs'' ∧ b.1 ≤ a'.1.1) →
        DownOk color0 (a :: as) bs seen prevY pts ⟨a.1, as, bs', S.reverse ++ seen, pts ++ [(a.1.1, prevY), (a.1.1, a.1.2)]⟩ [a] S := by
      intro hh
      refine ⟨rfl, by simp, by simpa using hc, by simp, ?_, by simp [downPts], by simp [downEnd], h2, rfl, h3, h4, fun b hb => hx b (hsub b hb), hh⟩
      intro q hq
      exact (pA.1 q.1 (List.mem_map.2 ⟨q, hq, rfl⟩)).1
    -- the colours
    have hcolor : ∀ a' as', as = a' :: as' → a.2 ≠ a'.2 → ∃ b bs'', bs' = b :: bs'' ∧ b.1 ≤ a'.1.1 := by
      rintro a' as' rfl hne
      rcases (List.pairwise_cons.1 hcol).1 a' (by simp) with h | ⟨b, hb, g1, g2⟩
      · exact absurd h hne
      · rw [h2, List.mem_append] at hb
        rcases hb with hb | hb
        · exact absurd g2 (h3 b hb).not_ge
        · cases bs' with
          | nil => simp at hb
          | cons b0 bs'' =>
            refine ⟨b0, bs'', rfl, ?_⟩
            rcases List.mem_cons.1 hb with rfl | hb
            · exact g1
            · exact ((List.pairwise_cons.1 hsB').1 b hb).1.le.trans g1
    cases as with
    | nil =>
      refine ⟨_, _, S, ?_, stop (by simp)⟩
      rw [polyDown, h1]
      dsimp only
      have hhit : polyHit a.1 ([] : List ((α × α) × ℤ)) bs' = some false := by cases bs' <;> rfl
      rw [if_neg (by simpa using hy), hhit]
      simp [polySame]
    | cons a' as' =>
      have ha' := pA.1 a'.1 (by simp)
      by_cases hh : ∃ b bs'', bs' = b :: bs'' ∧ b.1 ≤ a'.1.1
      · refine ⟨_, _, S, ?_, stop (by rintro p q h; cases h; exact hh)⟩
        obtain ⟨b, bs'', rfl, hb⟩ := hh
        have hb1 := hx b (hsub b (by simp))
        have hb2 := h4 b (by simp)
        have hhit : polyHit a.1 (a' :: as') (b :: bs'') = some true := by
          rw [polyHit]
          rw [if_neg (by push Not; exact ⟨hb1, hb2⟩), if_pos hb, if_neg]
          push Not
          refine ⟨?_, hb2⟩
          obtain ⟨q, hq, g1, g2⟩ := hdom b (hsub b (by simp))
          rw [List.map_cons, List.mem_cons] at hq
          rcases hq with rfl | hq
          · exact Or.inl (le_antisymm hb2 g2)
          · right
            rw [List.map_cons, List.mem_cons] at hq
            rcases hq with rfl | hq
            · exact le_antisymm hb g1
            · have := ((List.pairwise_cons.1 pA.2).1 q hq).1
              exact absurd (this.trans_le (g1.trans hb)) (lt_irrefl _)
        rw [polyDown, h1]
        dsimp only
        rw [if_neg (by simpa using hy), hhit]
        simp
      · have hhit : polyHit a.1 (a' :: as') bs' = some false := by
          cases bs' with
          | nil => rfl
          | cons b bs'' =>
            rw [polyHit]
            rw [if_neg (by push Not; exact ⟨hx b (hsub b (by simp)), h4 b (by simp)⟩), if_neg (fun h => hh ⟨b, bs'', rfl, h⟩)]
        have hceq : a.2 = a'.2 := by
          by_contra h
          exact hh (hcolor a' as' rfl h)
        have hright : ∀ b ∈ bs', a'.1.1 < b.1 := by
          intro b hb
          cases bs' with
          | nil => simp at hb
          | cons b0 bs'' =>
            have h0 : a'.1.1 < b0.1 := not_le.1 fun h => hh ⟨b0, bs'', rfl, h⟩
            rcases List.mem_cons.1 hb with rfl | hb
            · exact h0
            · exact h0.trans ((List.pairwise_cons.1 hsB').1 b hb).1
        obtain ⟨d, A1, S2, g1, g2⟩ := ih bs' (S.reverse ++ seen) a.1.2 (pts ++ [(a.1.1, prevY), (a.1.1, a.1.2)]) (by simp)
          (by rintro p q h; cases h; exact ⟨hceq ▸ hc, ha'.2, hright⟩) pA.2 hsB'
          (by
            intro b hb
            obtain ⟨q, hq, g1, g2⟩ := hdom b (hsub b hb)
            rw [List.map_cons, List.mem_cons] at hq
            rcases hq with rfl | hq
            · exact ⟨a'.1, by simp, (hright b hb).le, ha'.2.le.trans g2⟩
            · exact ⟨q, hq, g1, g2⟩)
          (by
            refine (List.pairwise_cons.1 hcol).2.imp_of_mem ?_
            intro p q hp hq h
            refine h.imp id ?_
            rintro ⟨b, hb, g1, g2⟩
            refine ⟨b, ?_, g1, g2⟩
            rw [h2, List.mem_append] at hb
            rcases hb with hb | hb
            · exact absurd (g2.trans (pA.1 p.1 (List.mem_map.2 ⟨p, hp, rfl⟩)).2.le) (h3 b hb).not_ge
            · exact hb)
        have hmem : d.pka.2 < a.1.2 := by
          obtain ⟨q, hq, he⟩ := List.mem_map.1 g2.last
          rw [← he]
          exact (pA.1 q.1 (List.mem_map.2 ⟨q, by rw [g2.split]; simp [hq], rfl⟩)).2
        refine ⟨d, a :: A1, S ++ S2, ?_, ?_⟩
        · rw [polyDown, h1]
          dsimp only
          rw [if_neg (by simpa using hy), hhit]
          dsimp only
          rw [if_pos ⟨rfl, by simp [polySame, ← hceq, hc]⟩, g1]
        · refine ⟨by rw [g2.split]; rfl, by simp, ?_, by simp [g2.last], g2.rest, ?_, ?_, ?_, ?_, ?_, g2.below, g2.right, g2.hit⟩
          · intro q hq
            rcases List.mem_cons.1 hq with rfl | hq
            · exact hc
            · exact g2.color q hq
          · rw [g2.pts_eq]; simp [downPts]
          · rw [g2.end_eq]; simp [downEnd]
          · rw [h2, g2.bsplit, List.append_assoc]
          · rw [g2.seen_eq]; simp
          · intro b hb
            rcases List.mem_append.1 hb with hb | hb
            · exact hmem.trans (h3 b hb)
            · exact g2.above b hb

theorem polyUp_spec (pka : α × α) (top : α) : ∀ (L : List (α × α)) (pkb : α × α) (pts : List (α × α)), (∀ b ∈ L, pka.2 < b.2) →
    (∀ b ∈ pkb :: L, b.2 < top) → polyUp pka top L pkb pts = some (pts ++ upPts top pkb.1 L) := by
  intro L
  induction L with
  | nil =>
    intro pkb pts _ h
    rw [polyUp, if_neg (by simpa using h pkb (by simp))]
    rfl
  | cons b bs ih =>
    intro pkb pts h1 h2
    rw [polyUp, if_neg (by simpa using h1 b (by simp)), ih b _ (fun q hq => h1 q (by simp [hq])) (fun q hq => h2 q (by
      rcases List.mem_cons.1 hq with rfl | hq
      · simp
      · simp [hq]))]
    simp [upPts]

/-! ## All the polygons between two surfaces -/

/-- The number of polygons that contain `(x, y)`. -/
noncomputable def polyCount (ps : List (List (α × α) × ℤ)) (x y : α) : ℕ := ps.countP (fun p => decide (InPolygon p.1 x y))

theorem polyCount_append (l m : List (List (α × α) × ℤ)) (x y : α) : polyCount (l ++ m) x y = polyCount l x y + polyCount m x y := by
  simp [polyCount]

theorem polyCount_cons (p : List (α × α) × ℤ) (m : List (List (α × α) × ℤ)) (x y : α) :
    polyCount (p :: m) x y = (if InPolygon p.1 x y then 1 else 0) + polyCount m x y := by
  unfold polyCount
  rw [List.countP_cons, Nat.add_comm]
  simp

/-- What the polygons are: corners and colours. -/
structure PolysOk (mx mn : α) (A : List ((α × α) × ℤ)) (B : List (α × α)) (top : α) (ps : List (List (α × α) × ℤ)) : Prop where
  shape : ∀ p ∈ ps, Rectilinear p.1 ∧ 4 ≤ p.1.length
  corner : ∀ p ∈ ps, ∀ v ∈ p.1, mn < v.1 ∧ mn < v.2
  count : ∀ x y, polyCount ps x y = if y < top ∧ x < mx ∧ AttBy (A.map Prod.fst) x y ∧ ¬ AttBy B x y then 1 else 0
  color : ∀ p ∈ ps, ∀ x y, InPolygon p.1 x y → ∃ a ∈ A, a.1.1 ≤ x ∧ a.1.2 ≤ y ∧ a.2 = p.2
  proper : ∀ p ∈ ps, ∃ x y, InPolygon p.1 x y

theorem polysOk_nil (mx mn top : α) (B : List (α × α)) : PolysOk mx mn [] B top [] := by
  refine ⟨by simp, by simp, ?_, by simp, by simp⟩
  intro x y
  rw [if_neg]
  · rfl
  · rintro ⟨_, _, ⟨q, hq, _⟩, _⟩; simp at hq

theorem polysOk_step {mx mn top ym : α} {A A1 A2 : List ((α × α) × ℤ)} {B B2 U : List (α × α)} {P : List (α × α)} {c0 : ℤ} {ps : List (List (α × α) × ℤ)}
    (hym : ym ≤ top) (hP : Rectilinear P ∧ 4 ≤ P.length) (hv : ∀ v ∈ P, mn < v.1 ∧ mn < v.2)
    (hin : ∀ x y, InPolygon P x y ↔ ym ≤ y ∧ y < top ∧ AttBy (A1.map Prod.fst) x y ∧ ¬ AttBy U x y)
    (hA : ∀ x y, ym ≤ y → (AttBy (A.map Prod.fst) x y ↔ AttBy (A1.map Prod.fst) x y))
    (hU : ∀ x y, ym ≤ y → (¬ AttBy U x y ↔ x < mx ∧ ¬ AttBy B x y))
    (hlow : ∀ x y, y < ym → (AttBy (A.map Prod.fst) x y ∧ ¬ AttBy B x y ↔ AttBy (A2.map Prod.fst) x y ∧ ¬ AttBy B2 x y))
    (hc : ∀ a ∈ A1, a ∈ A ∧ a.2 = c0) (hA2 : ∀ a ∈ A2, a ∈ A) (h : PolysOk mx mn A2 B2 ym ps)
    (hpt : ∃ x y, ym ≤ y ∧ y < top ∧ AttBy (A1.map Prod.fst) x y ∧ x < mx ∧ ¬ AttBy B x y) :
    PolysOk mx mn A B top ((P, c0) :: ps) := by
  refine ⟨?_, ?_, ?_, ?_, ?_⟩
  · intro p hp
    rcases List.mem_cons.1 hp with rfl | hp
    · exact hP
    · exact h.shape p hp
  · intro p hp
    rcases List.mem_cons.1 hp with rfl | hp
    · exact hv
    · exact h.corner p hp
  · intro x y
    rw [polyCount_cons, h.count x y]
    by_cases hy : ym ≤ y
    · rw [if_neg (c := y < ym ∧ _) (by rintro ⟨g, _⟩; exact absurd g hy.not_gt), Nat.add_zero]
      apply if_congr _ rfl rfl
      rw [hin x y, hA x y hy, hU x y hy]
      tauto
    · push Not at hy
      rw [if_neg (c := InPolygon _ x y) (by rw [hin x y]; rintro ⟨g, _⟩; exact absurd g hy.not_ge), Nat.zero_add]
      apply if_congr _ rfl rfl
      rw [hlow x y hy]
      have := hy.trans_le hym
      tauto
  · intro p hp x y hi
    rcases List.mem_cons.1 hp with rfl | hp
    · obtain ⟨_, _, ⟨q, hq, h1, h2⟩, _⟩ := (hin x y).1 hi
      obtain ⟨a, ha, rfl⟩ := List.mem_map.1 hq
      exact ⟨a, (hc a ha).1, h1, h2, (hc a ha).2⟩
    · obtain ⟨a, ha, g⟩ := h.color p hp x y hi
      exact ⟨a, hA2 a ha, g⟩
  · intro p hp
    rcases List.mem_cons.1 hp with rfl | hp
    · obtain ⟨x, y, g1, g2, g3, g4, g5⟩ := hpt
      exact ⟨x, y, (hin x y).2 ⟨g1, g2, g3, (hU x y g1).2 ⟨g4, g5⟩⟩⟩
    · exact h.proper p hp

/-- The vector `xy` of some polygons. -/
def polyXY (mn : α) (ps : List (List (α × α) × ℤ)) : List (α × α) := ps.flatMap (fun p => p.1 ++ [(mn, mn)])

theorem polyClose_spec (mn : α) (out : EafPoly α) (P : List (α × α)) (c : ℤ) (h4 : 4 ≤ P.length) (h2 : P.length % 2 = 0) :
    polyClose mn out P c = some ⟨out.xy ++ polyXY mn [(P, c)], out.col ++ [c]⟩ := by
  rw [polyClose, if_neg (by push Not; exact ⟨h4, h2⟩)]
  simp [polyXY]

theorem polyLoop_spec {mx mn : α} (hmn : mn < mx) : ∀ (fuel : ℕ) (A : List ((α × α) × ℤ)) (B : List (α × α)) (top : α) (out : EafPoly α),
    A.length < fuel → PolyInv mx mn A B top →
    ∃ ps, polyLoop mx mn fuel A B top out = some ⟨out.xy ++ polyXY mn ps, out.col ++ ps.map Prod.snd⟩ ∧ PolysOk mx mn A B top ps := by
  intro fuel
  induction fuel with
  | zero => intro A B top out h; omega
  | succ fuel ih =>
    intro A0 B0 top0 out hf hinv0
    obtain ⟨A, B, top, ho, hinv, hlen, hsub, hright, hreg⟩ := polyOverlap_spec A0 B0 top0 hinv0
    -- back to the lists before the overlap
    suffices hmain : ∃ ps, polyLoop mx mn (fuel + 1) A0 B0 top0 out = some ⟨out.xy ++ polyXY mn ps, out.col ++ ps.map Prod.snd⟩ ∧ PolysOk mx mn A B top ps by
      obtain ⟨ps, h1, h2⟩ := hmain
      refine ⟨ps, h1, h2.shape, h2.corner, ?_, ?_, h2.proper⟩
      · intro x y
        rw [h2.count x y]
        apply if_congr _ rfl rfl
        have := hreg x y
        tauto
      · intro p hp x y hi
        obtain ⟨a, ha, g⟩ := h2.color p hp x y hi
        exact ⟨a, hsub a ha, g⟩
    cases A with
    | nil =>
      refine ⟨[], ?_, polysOk_nil _ _ _ _⟩
      rw [polyLoop, ho]
      simp [polyXY]
    | cons a as =>
      obtain ⟨d, A1, S, hd, D⟩ := polyDown_spec a.2 (a :: as) B [] top [] (by simp)
        (by rintro p q h; cases h; exact ⟨rfl, (hinv.bA a (by simp)).2, hright a as rfl⟩) hinv.sA hinv.sB hinv.dom hinv.col
      generalize hA : a :: as = A at *
      have hA1 : A1.map Prod.fst ≠ [] := by simpa using D.ne
      have hsplit : A.map Prod.fst = A1.map Prod.fst ++ d.as.map Prod.fst := by rw [D.split, List.map_append]
      have hst := hinv.sA
      rw [hsplit] at hst
      obtain ⟨sA1, sA2, sA12⟩ := List.pairwise_append.1 hst
      have hmem1 : ∀ q ∈ A1, q ∈ A := fun q hq => by rw [D.split]; simp [hq]
      have hmem2 : ∀ q ∈ d.as, q ∈ A := fun q hq => by rw [D.split]; simp [hq]
      have tA1 : ∀ q ∈ A1.map Prod.fst, q.2 < top := by
        intro q hq
        obtain ⟨p, hp, rfl⟩ := List.mem_map.1 hq
        exact (hinv.bA p (hmem1 p hp)).2
      have hend := downEnd_le top _ sA1 tA1
      rw [← D.end_eq] at hend
      have hpts : d.pts = downPts top (A1.map Prod.fst) := by rw [D.pts_eq]; rfl
      have hptop : d.pka.2 < top := tA1 _ D.last
      have hA1at : ∀ x y, d.pka.2 ≤ y → (AttBy (A.map Prod.fst) x y ↔ AttBy (A1.map Prod.fst) x y) := by
        intro x y hy
        rw [hsplit]
        constructor
        · rintro ⟨q, hq, g1, g2⟩
          rcases List.mem_append.1 hq with hq | hq
          · exact ⟨q, hq, g1, g2⟩
          · exact ⟨d.pka, D.last, (sA12 _ D.last q hq).1.le.trans g1, hy⟩
        · rintro ⟨q, hq, g⟩; exact ⟨q, List.mem_append_left _ hq, g⟩
      have hA2at : ∀ x y, y < d.pka.2 → (AttBy (A.map Prod.fst) x y ↔ AttBy (d.as.map Prod.fst) x y) := by
        intro x y hy
        rw [hsplit]
        constructor
        · rintro ⟨q, hq, g1, g2⟩
          rcases List.mem_append.1 hq with hq | hq
          · exact absurd ((hend.2 q hq).trans g2) hy.not_ge
          · exact ⟨q, hq, g1, g2⟩
        · rintro ⟨q, hq, g⟩; exact ⟨q, List.mem_append_right _ hq, g⟩
      have hdomA1 : ∀ b ∈ B, d.pka.2 ≤ b.2 → AttBy (A1.map Prod.fst) b.1 b.2 := fun b hb h => (hA1at _ _ h).1 (hinv.dom b hb)
      have hpka : mn < d.pka.1 ∧ mn < d.pka.2 ∧ d.pka.1 < mx := by
        obtain ⟨p, hp, he⟩ := List.mem_map.1 D.last
        rw [← he]
        exact ⟨(hinv.nA p (hmem1 p hp)).1, (hinv.nA p (hmem1 p hp)).2, (hinv.bA p (hmem1 p hp)).1⟩
      have hcorner : ∀ (c : α) (L : List (α × α)), mn < c → (∀ b ∈ L, b ∈ B) → ∀ v ∈ slabPolygon top (A1.map Prod.fst) c L, mn < v.1 ∧ mn < v.2 := by
        intro c L hc hL v hv
        unfold slabPolygon at hv
        rw [List.mem_append, List.mem_cons] at hv
        have hq : ∀ q ∈ A1.map Prod.fst, mn < q.1 ∧ mn < q.2 := by
          intro q hq
          obtain ⟨p, hp, rfl⟩ := List.mem_map.1 hq
          exact hinv.nA p (hmem1 p hp)
        rcases hv with hv | rfl | hv
        · exact downPts_mem (fun z => mn < z) top _ hinv.mn_top hq v hv
        · exact ⟨hc, downEnd_mem (fun z => mn < z) top _ hinv.mn_top hq⟩
        · exact upPts_mem (fun z => mn < z) top L c hc hinv.mn_top (fun b hb => hinv.nB b (hL b hb)) v hv
      have hcol1 : ∀ q ∈ A1, q ∈ A ∧ q.2 = a.2 := fun q hq => ⟨hmem1 q hq, D.color q hq⟩
      have hpt : ∃ x y, d.pka.2 ≤ y ∧ y < top ∧ AttBy (A1.map Prod.fst) x y ∧ x < mx ∧ ¬ AttBy B x y := by
        refine ⟨d.pka.1, d.pka.2, le_rfl, hptop, ⟨d.pka, D.last, le_rfl, le_rfl⟩, hpka.2.2, ?_⟩
        rintro ⟨b, hb, g1, g2⟩
        rw [D.bsplit, List.mem_append] at hb
        rcases hb with hb | hb
        · exact absurd (D.above b hb) g2.not_gt
        · exact absurd (D.right b hb) g1.not_gt
      subst hA
      by_cases hd2 : d.as = []
      · -- the last polygon
        have hnone : ∀ x y, y < d.pka.2 → ¬ AttBy ((a :: as).map Prod.fst) x y := by
          intro x y hy
          rw [hA2at x y hy, hd2]
          rintro ⟨q, hq, _⟩; simp at hq
        have finish : ∀ (c : α) (L : List (α × α)), mn < c → (∀ b ∈ L, b ∈ B) → (∀ b ∈ L, d.pka.2 ≤ b.2 ∧ b.1 ≤ c) →
            L.Pairwise (fun b b' => b'.1 < b.1 ∧ b.2 < b'.2) → d.pka.1 ≤ c →
            (∀ x y, d.pka.2 ≤ y → (¬ AttBy ((c, d.pka.2) :: L) x y ↔ x < mx ∧ ¬ AttBy B x y)) →
            polyEnd mx top d B = some (slabPolygon top (A1.map Prod.fst) c L) →
            ∃ ps, polyLoop mx mn (fuel + 1) A0 B0 top0 out = some ⟨out.xy ++ polyXY mn ps, out.col ++ ps.map Prod.snd⟩ ∧ PolysOk mx mn (a :: as) B top ps := by
          intro c L hc hL hL2 hp hcx hU hpe
          have hslab := slab_spec (c := c) (L := L) hA1 sA1 tA1
            (fun b hb => ⟨D.end_eq ▸ (hL2 b hb).1, (hinv.bB b (hL b hb)).2, (hL2 b hb).2⟩) hp (by
              intro b hb
              rcases List.mem_cons.1 hb with rfl | hb
              · exact ⟨d.pka, D.last, hcx, D.end_eq.le⟩
              · exact hdomA1 b (hL b hb) (hL2 b hb).1)
          rw [← D.end_eq] at hslab
          refine ⟨[(slabPolygon top (A1.map Prod.fst) c L, a.2)], ?_, ?_⟩
          · rw [polyLoop, ho]
            dsimp only
            rw [hd]
            dsimp only
            rw [hd2]
            dsimp only
            rw [hpe, Option.bind_some, polyClose_spec mn out _ _ hslab.2.1 hslab.2.2.1]
            rfl
          · refine polysOk_step (ym := d.pka.2) (A1 := A1) (A2 := []) (B2 := []) (U := (c, d.pka.2) :: L) hptop.le ⟨hslab.1, hslab.2.1⟩
              (hcorner c L hc hL) hslab.2.2.2 hA1at hU ?_ hcol1 (by simp) (polysOk_nil _ _ _ _) hpt
            intro x y hy
            constructor
            · rintro ⟨g, _⟩; exact absurd g (hnone x y hy)
            · rintro ⟨⟨q, hq, _⟩, _⟩; simp at hq
        cases hrev : B.reverse with
        | nil =>
          have hB : B = [] := by simpa using hrev
          subst hB
          refine finish mx [] hmn (by simp) (by simp) List.Pairwise.nil hpka.2.2.le ?_ ?_
          · intro x y hy
            have e1 : AttBy [(mx, d.pka.2)] x y ↔ mx ≤ x := by
              unfold AttBy; simp [hy]
            have e2 : ¬ AttBy ([] : List (α × α)) x y := by rintro ⟨q, hq, _⟩; simp at hq
            rw [e1, not_le]
            tauto
          · rw [polyEnd, hrev]
            dsimp only
            rw [if_neg (by simpa using hptop), hpts, slabPolygon, upPts, ← D.end_eq]
        | cons pkb rest =>
          have hmemB : ∀ q, q ∈ pkb :: rest ↔ q ∈ B := by intro q; rw [← hrev, List.mem_reverse]
          have hpB : (pkb :: rest).Pairwise (fun b b' => b'.1 < b.1 ∧ b.2 < b'.2) := by
            rw [← hrev, List.pairwise_reverse]; exact hinv.sB
          have hpB' := List.pairwise_cons.1 hpB
          have hattB : ∀ x y, AttBy (pkb :: rest) x y ↔ AttBy B x y := by
            intro x y
            unfold AttBy
            simp only [hmemB]
          have hpkb : d.pka.2 ≤ pkb.2 := by
            by_contra hlt
            push Not at hlt
            exact hnone pkb.1 pkb.2 hlt (hinv.dom pkb ((hmemB _).1 (by simp)))
          have hrest : ∀ b ∈ rest, d.pka.2 < b.2 := fun b hb => hpkb.trans_lt (hpB'.1 b hb).2
          have hall : ∀ b ∈ pkb :: rest, b.2 < top := fun b hb => (hinv.bB b ((hmemB b).1 hb)).2
          by_cases hlt : d.pka.2 < pkb.2
          · refine finish mx (pkb :: rest) hmn (fun b hb => (hmemB b).1 hb) ?_ hpB hpka.2.2.le ?_ ?_
            · intro b hb
              refine ⟨?_, (hinv.bB b ((hmemB b).1 hb)).1.le⟩
              rcases List.mem_cons.1 hb with rfl | hb
              · exact hpkb
              · exact (hrest b hb).le
            · intro x y hy
              have e1 : AttBy ((mx, d.pka.2) :: pkb :: rest) x y ↔ mx ≤ x ∨ AttBy (pkb :: rest) x y := by
                unfold AttBy; simp [hy]
              rw [e1, hattB, not_or, not_le]
            · rw [polyEnd, hrev]
              dsimp only
              rw [if_neg (by simpa using hpkb), if_pos hlt, if_neg (by simpa using (hall pkb (by simp)).le), polyUp_spec _ _ _ _ _ hrest hall, hpts,
                slabPolygon, upPts, ← D.end_eq]
              simp
          · have heq : d.pka.2 = pkb.2 := le_antisymm hpkb (not_lt.1 hlt)
            have hx : d.pka.1 < pkb.1 := by
              have hm := (hmemB pkb).1 (by simp)
              rw [D.bsplit, List.mem_append] at hm
              rcases hm with hm | hm
              · exact absurd (D.above pkb hm) hlt
              · exact D.right pkb hm
            refine finish pkb.1 rest (hinv.nB pkb ((hmemB _).1 (by simp))).1 (fun b hb => (hmemB b).1 (by simp [hb])) ?_ hpB'.2 hx.le ?_ ?_
            · intro b hb; exact ⟨(hrest b hb).le, (hpB'.1 b hb).1.le⟩
            · intro x y hy
              rw [heq, hattB]
              constructor
              · intro g
                refine ⟨?_, g⟩
                by_contra hxx
                push Not at hxx
                exact g ((hattB x y).1 ⟨pkb, by simp, (hinv.bB pkb ((hmemB _).1 (by simp))).1.le.trans hxx, heq ▸ hy⟩)
              · rintro ⟨_, g⟩; exact g
            · rw [polyEnd, hrev]
              dsimp only
              rw [if_neg (by simpa using hpkb), if_neg hlt, if_neg (by simpa using hx), polyUp_spec _ _ _ _ _ hrest hall, hpts,
                slabPolygon, ← D.end_eq, heq]
              simp
      · -- a polygon before the last one
        obtain ⟨a', as', hd2⟩ := List.exists_cons_of_ne_nil hd2
        obtain ⟨pkb, bs, hbs, -⟩ := D.hit a' as' hd2
        have hsB := hinv.sB
        rw [D.bsplit, hbs] at hsB
        obtain ⟨sS, sR, sSR⟩ := List.pairwise_append.1 hsB
        have sR' := List.pairwise_cons.1 sR
        have hBmem : ∀ q, q ∈ B ↔ q ∈ S ∨ q ∈ pkb :: bs := by intro q; rw [D.bsplit, hbs, List.mem_append]
        have hpb := D.below pkb (by rw [hbs]; simp)
        have hpr := D.right pkb (by rw [hbs]; simp)
        have hbm : ∀ b ∈ pkb :: bs, b.2 ≤ d.pka.2 := fun b hb => D.below b (by rw [hbs]; exact hb)
        have hslab := slab_spec (c := pkb.1) (L := S.reverse) hA1 sA1 tA1
          (by
            intro b hb
            rw [List.mem_reverse] at hb
            exact ⟨D.end_eq ▸ (D.above b hb).le, (hinv.bB b ((hBmem b).2 (Or.inl hb))).2, (sSR b hb pkb (by simp)).1.le⟩)
          (by rw [List.pairwise_reverse]; exact sS)
          (by
            intro b hb
            rcases List.mem_cons.1 hb with rfl | hb
            · exact ⟨d.pka, D.last, hpr.le, D.end_eq.le⟩
            · rw [List.mem_reverse] at hb
              exact hdomA1 b ((hBmem b).2 (Or.inl hb)) (D.above b hb).le)
        rw [← D.end_eq] at hslab
        -- the rest of `b`
        let R := if pkb.2 = d.pka.2 then bs else pkb :: bs
        have hR : ∀ q ∈ pkb :: bs, q.2 < d.pka.2 → q ∈ R := by
          intro q hq hlt
          unfold R
          split_ifs with h
          · rcases List.mem_cons.1 hq with rfl | hq
            · exact absurd hlt (by rw [h]; exact lt_irrefl _)
            · exact hq
          · exact hq
        have hR2 : ∀ q ∈ R, q ∈ pkb :: bs ∧ q.2 < d.pka.2 := by
          intro q hq
          unfold R at hq
          split_ifs at hq with h
          · exact ⟨by simp [hq], h ▸ (sR'.1 q hq).2⟩
          · have hlt : pkb.2 < d.pka.2 := lt_of_le_of_ne hpb h
            refine ⟨hq, ?_⟩
            rcases List.mem_cons.1 hq with rfl | hq
            · exact hlt
            · exact (sR'.1 q hq).2.trans hlt
        have sRR : EafStair R := by
          unfold R
          split_ifs
          · exact sR'.2
          · exact sR
        have hlow : ∀ q ∈ d.as, q.1.2 < d.pka.2 := fun q hq => (sA12 d.pka D.last q.1 (List.mem_map.2 ⟨q, hq, rfl⟩)).2
        have hinv2 : PolyInv mx mn d.as R d.pka.2 := by
          refine ⟨sA2, sRR, fun q hq => ⟨(hinv.bA q (hmem2 q hq)).1, hlow q hq⟩, ?_, fun q hq => hinv.nA q (hmem2 q hq), ?_, ?_, ?_, ?_, hpka.2.1⟩
          · intro q hq
            exact ⟨(hinv.bB q ((hBmem q).2 (Or.inr (hR2 q hq).1))).1, (hR2 q hq).2⟩
          · intro q hq
            exact hinv.nB q ((hBmem q).2 (Or.inr (hR2 q hq).1))
          · intro q hq
            exact (hA2at _ _ (hR2 q hq).2).1 (hinv.dom q ((hBmem q).2 (Or.inr (hR2 q hq).1)))
          · have hcol := hinv.col
            rw [D.split] at hcol
            refine (List.pairwise_append.1 hcol).2.1.imp_of_mem ?_
            intro p q hp hq h
            refine h.imp id ?_
            rintro ⟨b, hb, g1, g2⟩
            refine ⟨b, ?_, g1, g2⟩
            have hblt : b.2 < d.pka.2 := g2.trans_lt (hlow p hp)
            rcases (hBmem b).1 hb with hb | hb
            · exact absurd (D.above b hb) hblt.not_gt
            · exact hR b hb hblt
          · exact hptop.le.trans hinv.top_le
        have hlen2 : d.as.length < fuel := by
          have h1 := congrArg List.length D.split
          have h2 := List.length_pos_of_ne_nil D.ne
          rw [List.length_append] at h1
          omega
        obtain ⟨ps, g1, g2⟩ := ih d.as R d.pka.2 ⟨out.xy ++ polyXY mn [(slabPolygon top (A1.map Prod.fst) pkb.1 S.reverse, a.2)], out.col ++ [a.2]⟩ hlen2 hinv2
        refine ⟨(slabPolygon top (A1.map Prod.fst) pkb.1 S.reverse, a.2) :: ps, ?_, ?_⟩
        · have hseen : d.seen = S.reverse := by rw [D.seen_eq, List.append_nil]
          have hmid : polyMiddle mx top d = some (slabPolygon top (A1.map Prod.fst) pkb.1 S.reverse, R) := by
            rw [polyMiddle, hbs]
            dsimp only
            rw [if_neg (by push Not; exact ⟨hpb, hpr.ne'⟩), hseen, polyUp_spec, Option.map_some, hpts, slabPolygon, ← D.end_eq]
            · simp [R]
            · intro b hb
              rw [List.mem_reverse] at hb
              exact D.above b hb
            · intro b hb
              rcases List.mem_cons.1 hb with rfl | hb
              · exact (hinv.bB b ((hBmem b).2 (Or.inr (by simp)))).2
              · rw [List.mem_reverse] at hb
                exact (hinv.bB b ((hBmem b).2 (Or.inl hb))).2
          rw [polyLoop, ho]
          dsimp only
          rw [hd]
          dsimp only
          rw [hd2] at g1 ⊢
          dsimp only
          rw [hmid, Option.bind_some, polyClose_spec mn out _ _ hslab.2.1 hslab.2.2.1, Option.bind_some, if_neg (by simpa using hptop.le), g1]
          simp [polyXY]
        · refine polysOk_step (ym := d.pka.2) (A1 := A1) (A2 := d.as) (B2 := R) (U := (pkb.1, d.pka.2) :: S.reverse) hptop.le ⟨hslab.1, hslab.2.1⟩
            (hcorner pkb.1 S.reverse (hinv.nB pkb ((hBmem _).2 (Or.inr (by simp)))).1 (fun b hb => (hBmem b).2 (Or.inl (List.mem_reverse.1 hb))))
            hslab.2.2.2 hA1at ?_ ?_ hcol1 hmem2 g2 hpt
          · intro x y hy
            have e1 : AttBy ((pkb.1, d.pka.2) :: S.reverse) x y ↔ AttBy B x y := by
              constructor
              · rintro ⟨q, hq, g3, g4⟩
                rcases List.mem_cons.1 hq with rfl | hq
                · exact ⟨pkb, (hBmem _).2 (Or.inr (by simp)), g3, hpb.trans hy⟩
                · exact ⟨q, (hBmem _).2 (Or.inl (List.mem_reverse.1 hq)), g3, g4⟩
              · rintro ⟨q, hq, g3, g4⟩
                rcases (hBmem q).1 hq with hq | hq
                · exact ⟨q, by simp [hq], g3, g4⟩
                · refine ⟨(pkb.1, d.pka.2), by simp, ?_, hy⟩
                  rcases List.mem_cons.1 hq with rfl | hq
                  · exact g3
                  · exact (sR'.1 q hq).1.le.trans g3
            rw [e1]
            constructor
            · intro g
              refine ⟨?_, g⟩
              by_contra hxx
              push Not at hxx
              have hm : pkb ∈ B := (hBmem _).2 (Or.inr (by simp))
              exact g ⟨pkb, hm, (hinv.bB pkb hm).1.le.trans hxx, hpb.trans hy⟩
            · rintro ⟨_, g⟩; exact g
          · intro x y hy
            rw [hA2at x y hy]
            have e1 : AttBy B x y ↔ AttBy R x y := by
              constructor
              · rintro ⟨q, hq, g3, g4⟩
                have hlt := g4.trans_lt hy
                rcases (hBmem q).1 hq with hq | hq
                · exact absurd (D.above q hq) hlt.not_gt
                · exact ⟨q, hR q hq hlt, g3, g4⟩
              · rintro ⟨q, hq, g3⟩; exact ⟨q, (hBmem q).2 (Or.inr (hR2 q hq).1), g3⟩
            rw [e1]

end Moo
