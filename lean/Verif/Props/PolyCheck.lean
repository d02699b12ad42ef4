import Verif.Model.PolyCheck
import Verif.Spec.Polygon
import Verif.Spec.PolyCheck
import Mathlib.Data.Real.Basic
import Mathlib.Order.Interval.Set.Basic
import Mathlib.Tactic.NormNum
import Mathlib.Tactic.Linarith

/-!
# C121: what the debugging check of the polygons accepts
-/

set_option autoImplicit false
set_option linter.unusedSectionVars false

namespace Moo

section
variable {α : Type*} [LinearOrder α]

theorem minMaxLoop_spec {mn : α} {k : Bool} (P : List (α × α)) (hP : ∀ p ∈ P, polyCoord k p ≠ mn) (tail : List (α × α)) (lo hi : α) :
    ∃ l h, minMaxLoop mn k (P ++ (mn, mn) :: tail) lo hi = some (l, h) ∧ l ≤ lo ∧ hi ≤ h ∧ (∀ p ∈ P, l ≤ polyCoord k p ∧ polyCoord k p ≤ h) ∧
      (l = lo ∨ ∃ p ∈ P, polyCoord k p = l) ∧ (h = hi ∨ ∃ p ∈ P, polyCoord k p = h) := by
  induction P generalizing lo hi with
  | nil =>
    refine ⟨lo, hi, ?_, le_rfl, le_rfl, by simp, Or.inl rfl, Or.inl rfl⟩
    rw [List.nil_append, minMaxLoop, if_pos (by cases k <;> rfl)]
  | cons v P ih =>
    rw [List.cons_append, minMaxLoop, if_neg (hP v (by simp))]
    obtain ⟨l, h, e, h1, h2, h3, h4, h5⟩ := ih (fun p hp => hP p (by simp [hp])) (if lo > polyCoord k v then polyCoord k v else lo)
      (if hi < polyCoord k v then polyCoord k v else hi)
    have a1 : l ≤ lo ∧ l ≤ polyCoord k v := by
      split_ifs at h1 with g
      · exact ⟨h1.trans g.le, h1⟩
      · exact ⟨h1, h1.trans (not_lt.1 g)⟩
    have a2 : hi ≤ h ∧ polyCoord k v ≤ h := by
      split_ifs at h2 with g
      · exact ⟨g.le.trans h2, h2⟩
      · exact ⟨h2, (not_lt.1 g).trans h2⟩
    refine ⟨l, h, e, a1.1, a2.1, ?_, ?_, ?_⟩
    · intro p hp
      rcases List.mem_cons.1 hp with rfl | hp
      · exact ⟨a1.2, a2.2⟩
      · exact h3 p hp
    · rcases h4 with h4 | ⟨p, hp, h4⟩
      · split_ifs at h4
        · exact Or.inr ⟨v, by simp, h4.symm⟩
        · exact Or.inl h4
      · exact Or.inr ⟨p, by simp [hp], h4⟩
    · rcases h5 with h5 | ⟨p, hp, h5⟩
      · split_ifs at h5
        · exact Or.inr ⟨v, by simp, h5.symm⟩
        · exact Or.inl h5
      · exact Or.inr ⟨p, by simp [hp], h5⟩

theorem minMaxInObjective_spec {mn : α} (k : Bool) {P raw : List (α × α)} (h : Stored mn P raw) :
    ∃ lo hi, minMaxInObjective mn k raw = some (lo, hi) ∧ (∀ p ∈ P, lo ≤ polyCoord k p ∧ polyCoord k p ≤ hi) ∧ (∃ p ∈ P, polyCoord k p = lo) ∧
      ∃ p ∈ P, polyCoord k p = hi := by
  obtain ⟨h0, h1, tail, rfl⟩ := h
  have hc : ∀ p ∈ P, polyCoord k p ≠ mn := fun p hp => by cases k <;> simp [polyCoord, h1 p hp]
  obtain ⟨v, P, rfl⟩ := List.exists_cons_of_ne_nil h0
  obtain ⟨l, h, e, g1, g2, g3, g4, g5⟩ := minMaxLoop_spec P (fun p hp => hc p (by simp [hp])) tail (polyCoord k v) (polyCoord k v)
  refine ⟨l, h, ?_, ?_, ?_, ?_⟩
  · rw [List.cons_append, minMaxInObjective, if_neg (hc v (by simp)), e]
  · intro p hp
    rcases List.mem_cons.1 hp with rfl | hp
    · exact ⟨g1, g2⟩
    · exact g3 p hp
  · rcases g4 with g | ⟨p, hp, g⟩
    · exact ⟨v, by simp, g.symm⟩
    · exact ⟨p, by simp [hp], g⟩
  · rcases g5 with g | ⟨p, hp, g⟩
    · exact ⟨v, by simp, g.symm⟩
    · exact ⟨p, by simp [hp], g⟩

theorem polygonsApart_spec {mn : α} (k : Bool) {P Q a b : List (α × α)} (ha : Stored mn P a) (hb : Stored mn Q b) :
    ∃ r, polygonsApart mn k a b = some r ∧ (r = true ↔ LineBetween k P Q) := by
  obtain ⟨l, h, e, g1, ⟨p1, hp1, rfl⟩, ⟨p2, hp2, rfl⟩⟩ := minMaxInObjective_spec k ha
  obtain ⟨l', h', e', g1', ⟨q1, hq1, rfl⟩, ⟨q2, hq2, rfl⟩⟩ := minMaxInObjective_spec k hb
  refine ⟨_, by rw [polygonsApart, e, e'], ?_⟩
  rw [decide_eq_true_iff]
  unfold LineBetween
  constructor
  · rintro (h | h)
    · exact Or.inl fun p hp q hq => (g1 p hp).2.trans (h.trans (g1' q hq).1)
    · exact Or.inr fun p hp q hq => (g1' q hq).2.trans (h.trans (g1 p hp).1)
  · rintro (h | h)
    · exact Or.inl (h p2 hp2 q1 hq1)
    · exact Or.inr (h p1 hp1 q2 hq2)

theorem polygonDominatesPoint_spec {mn : α} (x : α × α) (P : List (α × α)) (hP : ∀ p ∈ P, p.1 ≠ mn) (tail : List (α × α)) :
    ∃ r, polygonDominatesPoint mn x (P ++ (mn, mn) :: tail) = some r ∧ (r = true ↔ ∃ p ∈ P, p.1 < x.1 ∧ p.2 < x.2) := by
  induction P with
  | nil => exact ⟨false, by rw [List.nil_append, polygonDominatesPoint, if_pos rfl], by simp⟩
  | cons v P ih =>
    rw [List.cons_append, polygonDominatesPoint, if_neg (hP v (by simp))]
    by_cases h : v.1 < x.1 ∧ v.2 < x.2
    · exact ⟨true, by rw [if_pos h], by simp [h]⟩
    · rw [if_neg h]
      obtain ⟨r, e, hr⟩ := ih (fun p hp => hP p (by simp [hp]))
      refine ⟨r, e, hr.trans ?_⟩
      rw [List.exists_mem_cons_iff]
      exact ⟨Or.inr, fun g => g.resolve_left h⟩

theorem polygonDominatesAnyPoint_spec {mn : α} {P Q a b : List (α × α)} (ha : Stored mn P a) (hb : Stored mn Q b) :
    ∃ r, polygonDominatesAnyPoint mn a b = some r ∧ (r = true ↔ CornerBelow P Q) := by
  obtain ⟨_, ha1, t, rfl⟩ := ha
  obtain ⟨_, hb1, t', rfl⟩ := hb
  unfold CornerBelow
  induction Q with
  | nil => exact ⟨false, by rw [List.nil_append, polygonDominatesAnyPoint, if_pos rfl], by simp⟩
  | cons x Q ih =>
    rw [List.cons_append, polygonDominatesAnyPoint, if_neg (hb1 x (by simp)).1]
    obtain ⟨r, e, hr⟩ := polygonDominatesPoint_spec x P (fun p hp => (ha1 p hp).1) t
    rw [e]
    cases r with
    | true =>
      obtain ⟨p, hp, h⟩ := hr.1 rfl
      exact ⟨true, rfl, fun _ => ⟨p, hp, x, by simp, h⟩, fun _ => rfl⟩
    | false =>
      by_cases hQ : Q = []
      · subst hQ
        refine ⟨false, by rw [List.nil_append]; dsimp only; rw [polygonDominatesAnyPoint, if_pos rfl], fun h => absurd h (by simp), ?_⟩
        rintro ⟨p, hp, q, hq, h⟩
        rw [List.mem_singleton] at hq
        subst hq
        exact hr.2 ⟨p, hp, h⟩
      · obtain ⟨r', e', hr'⟩ := ih hQ (fun p hp => hb1 p (by simp [hp]))
        refine ⟨r', e', hr'.trans ⟨fun ⟨p, hp, q, hq, h⟩ => ⟨p, hp, q, by simp [hq], h⟩, ?_⟩⟩
        rintro ⟨p, hp, q, hq, h⟩
        rcases List.mem_cons.1 hq with rfl | hq
        · exact absurd (hr.2 ⟨p, hp, h⟩) (by simp)
        · exact ⟨p, hp, q, hq, h⟩

/-- **C121.**  The check reads nothing behind the marks, and reports that two polygons intersect exactly if no vertical and no horizontal line lies
between them and each has a corner that is less than a corner of the other in both coordinates. -/
theorem C121_reports {mn : α} {P Q a b : List (α × α)} (ha : Stored mn P a) (hb : Stored mn Q b) :
    ∃ r, polygonsIntersect mn a b = some r ∧ (r = true ↔ ¬ LineBetween false P Q ∧ ¬ LineBetween true P Q ∧ CornerBelow P Q ∧ CornerBelow Q P) := by
  obtain ⟨r1, e1, h1⟩ := polygonsApart_spec false ha hb
  obtain ⟨r2, e2, h2⟩ := polygonsApart_spec true ha hb
  obtain ⟨r3, e3, h3⟩ := polygonDominatesAnyPoint_spec ha hb
  obtain ⟨r4, e4, h4⟩ := polygonDominatesAnyPoint_spec hb ha
  unfold polygonsIntersect
  rw [← h1, ← h2, ← h3, ← h4, e1]
  cases r1
  · rw [e2]
    cases r2
    · rw [e3]
      cases r3
      · exact ⟨false, rfl, by simp⟩
      · exact ⟨r4, e4, by simp⟩
    · exact ⟨false, rfl, by simp⟩
  · exact ⟨false, rfl, by simp⟩

/-- **C121.**  The order of the two polygons does not matter. -/
theorem C121_symmetric {mn : α} {P Q a b : List (α × α)} (ha : Stored mn P a) (hb : Stored mn Q b) : polygonsIntersect mn a b = polygonsIntersect mn b a := by
  obtain ⟨r, e, h⟩ := C121_reports ha hb
  obtain ⟨r', e', h'⟩ := C121_reports hb ha
  have sw : ∀ k, LineBetween k P Q ↔ LineBetween k Q P := fun k => by
    unfold LineBetween
    exact ⟨fun g => g.symm.imp (fun g q hq p hp => g p hp q hq) (fun g q hq p hp => g p hp q hq),
      fun g => g.symm.imp (fun g p hp q hq => g q hq p hp) (fun g p hp q hq => g q hq p hp)⟩
  rw [e, e']
  congr 1
  rw [Bool.eq_iff_iff, h, h', sw, sw]
  tauto

/-- **C121.**  For rectangles the check is right: it reports an intersection exactly if the interiors have a point in common. -/
theorem C121_rectangles [DenselyOrdered α] {mn : α} {P Q a b : List (α × α)} (ha : Stored mn P a) (hb : Stored mn Q b) {x0 x1 y0 y1 u0 u1 v0 v1 : α}
    (hP : RectCorners P x0 x1 y0 y1) (hQ : RectCorners Q u0 u1 v0 v1) :
    ∃ r, polygonsIntersect mn a b = some r ∧ (r = true ↔ ∃ x y, (x0 < x ∧ x < x1 ∧ y0 < y ∧ y < y1) ∧ (u0 < x ∧ x < u1 ∧ v0 < y ∧ y < v1)) := by
  obtain ⟨r, e, h⟩ := C121_reports ha hb
  obtain ⟨px, py, pm⟩ := hP
  obtain ⟨qx, qy, qm⟩ := hQ
  refine ⟨r, e, h.trans ⟨?_, ?_⟩⟩
  · rintro ⟨n1, n2, -, -⟩
    unfold LineBetween at n1 n2
    push Not at n1 n2
    obtain ⟨⟨p, hp, q, hq, c1⟩, ⟨p', hp', q', hq', c2⟩⟩ := n1
    obtain ⟨⟨s, hs, t, ht, c3⟩, ⟨s', hs', t', ht', c4⟩⟩ := n2
    simp only [Bool.false_eq_true, if_false, if_true] at c1 c2 c3 c4
    have bx : ∀ p ∈ P, (x0 ≤ p.1 ∧ p.1 ≤ x1) ∧ (y0 ≤ p.2 ∧ p.2 ≤ y1) := fun p hp => by
      obtain ⟨g1 | g1, g2 | g2⟩ := (pm p).1 hp <;> rw [g1, g2] <;> simp [px.le, py.le]
    have bu : ∀ q ∈ Q, (u0 ≤ q.1 ∧ q.1 ≤ u1) ∧ (v0 ≤ q.2 ∧ q.2 ≤ v1) := fun q hq => by
      obtain ⟨g1 | g1, g2 | g2⟩ := (qm q).1 hq <;> rw [g1, g2] <;> simp [qx.le, qy.le]
    have d1 : u0 < x1 := (bu q hq).1.1.trans_lt (c1.trans_le (bx p hp).1.2)
    have d2 : x0 < u1 := (bx p' hp').1.1.trans_lt (c2.trans_le (bu q' hq').1.2)
    have d3 : v0 < y1 := (bu t ht).2.1.trans_lt (c3.trans_le (bx s hs).2.2)
    have d4 : y0 < v1 := (bx s' hs').2.1.trans_lt (c4.trans_le (bu t' ht').2.2)
    obtain ⟨x, g1, g2⟩ := exists_between (show max x0 u0 < min x1 u1 from max_lt (lt_min px d2) (lt_min d1 qx))
    obtain ⟨y, g3, g4⟩ := exists_between (show max y0 v0 < min y1 v1 from max_lt (lt_min py d4) (lt_min d3 qy))
    rw [max_lt_iff] at g1 g3
    rw [lt_min_iff] at g2 g4
    exact ⟨x, y, ⟨g1.1, g2.1, g3.1, g4.1⟩, g1.2, g2.2, g3.2, g4.2⟩
  · rintro ⟨x, y, ⟨g1, g2, g3, g4⟩, g5, g6, g7, g8⟩
    have m00 : (x0, y0) ∈ P := (pm _).2 ⟨Or.inl rfl, Or.inl rfl⟩
    have m11 : (x1, y1) ∈ P := (pm _).2 ⟨Or.inr rfl, Or.inr rfl⟩
    have k00 : (u0, v0) ∈ Q := (qm _).2 ⟨Or.inl rfl, Or.inl rfl⟩
    have k11 : (u1, v1) ∈ Q := (qm _).2 ⟨Or.inr rfl, Or.inr rfl⟩
    refine ⟨?_, ?_, ⟨_, m00, _, k11, g1.trans g6, g3.trans g8⟩, ⟨_, k00, _, m11, g5.trans g2, g7.trans g4⟩⟩
    · rintro (g | g)
      · exact absurd (g _ m11 _ k00) (not_le.2 (g5.trans g2))
      · exact absurd (g _ m00 _ k11) (not_le.2 (g1.trans g6))
    · rintro (g | g)
      · exact absurd (g _ m11 _ k00) (not_le.2 (g7.trans g4))
      · exact absurd (g _ m00 _ k11) (not_le.2 (g3.trans g8))

/-- What is reported about a pair. -/
def PairReported (P Q : List (α × α)) : Prop := ¬ LineBetween false P Q ∧ ¬ LineBetween true P Q ∧ CornerBelow P Q ∧ CornerBelow Q P

theorem polyVector_cons (mn : α) (P : List (α × α)) (Ps : List (List (α × α))) : polyVector mn (P :: Ps) = P ++ (mn, mn) :: polyVector mn Ps := by
  simp [polyVector]

theorem nextPolygon_cons {mn : α} (P : List (α × α)) (hP : ∀ p ∈ P, p.1 ≠ mn) (rest : List (α × α)) : nextPolygon mn (P ++ (mn, mn) :: rest) = rest := by
  induction P with
  | nil => rw [List.nil_append, nextPolygon, if_pos rfl]
  | cons v P ih =>
    rw [List.cons_append, nextPolygon, if_neg (hP v (by simp))]
    exact ih (fun p hp => hP p (by simp [hp]))

theorem checkPolygonsInner_spec {mn : α} {P a : List (α × α)} (ha : Stored mn P a) (Qs : List (List (α × α))) (hQ : PolysStored mn Qs) (fuel : ℕ)
    (hf : Qs.length < fuel) : ∃ r, checkPolygonsInner mn a fuel (polyVector mn Qs) = some r ∧ (r = true ↔ ∀ Q ∈ Qs, ¬ PairReported P Q) := by
  induction Qs generalizing fuel with
  | nil =>
    obtain ⟨f, rfl⟩ : ∃ f, fuel = f + 1 := ⟨fuel - 1, by simp at hf; omega⟩
    exact ⟨true, rfl, by simp⟩
  | cons Q Qs ih =>
    obtain ⟨f, rfl⟩ : ∃ f, fuel = f + 1 := ⟨fuel - 1, by simp at hf; omega⟩
    obtain ⟨hQ0, hQ1⟩ := hQ Q (by simp)
    obtain ⟨r, e, hr⟩ := C121_reports ha (⟨hQ0, hQ1, _, rfl⟩ : Stored mn Q (Q ++ (mn, mn) :: polyVector mn Qs))
    have hn := nextPolygon_cons Q (fun p hp => (hQ1 p hp).1) (polyVector mn Qs)
    rw [polyVector_cons]
    obtain ⟨v, Q', rfl⟩ := List.exists_cons_of_ne_nil hQ0
    rw [List.cons_append] at e hn ⊢
    rw [checkPolygonsInner]
    rw [e, hn]
    cases r with
    | true => exact ⟨false, rfl, fun h => absurd h (by simp), fun h => absurd (hr.1 rfl) (h _ (by simp))⟩
    | false =>
      obtain ⟨r', e', hr'⟩ := ih (fun R hR => hQ R (by simp [hR])) f (by simp at hf; omega)
      refine ⟨r', e', hr'.trans ?_⟩
      rw [List.forall_mem_cons]
      exact ⟨fun h => ⟨fun g => absurd (hr.2 g) (by simp), h⟩, fun h => h.2⟩

theorem checkPolygonsOuter_spec {mn : α} (Ps : List (List (α × α))) (hP : PolysStored mn Ps) (fuel : ℕ) (hf : Ps.length < fuel) :
    ∃ r, checkPolygonsOuter mn fuel (polyVector mn Ps) = some r ∧ (r = true ↔ Ps.Pairwise (fun P Q => ¬ PairReported P Q)) := by
  induction Ps generalizing fuel with
  | nil =>
    obtain ⟨f, rfl⟩ : ∃ f, fuel = f + 1 := ⟨fuel - 1, by simp at hf; omega⟩
    exact ⟨true, rfl, by simp⟩
  | cons P Ps ih =>
    obtain ⟨f, rfl⟩ : ∃ f, fuel = f + 1 := ⟨fuel - 1, by simp at hf; omega⟩
    obtain ⟨hP0, hP1⟩ := hP P (by simp)
    have hok : PolysStored mn Ps := fun R hR => hP R (by simp [hR])
    obtain ⟨r, e, hr⟩ := checkPolygonsInner_spec (⟨hP0, hP1, _, rfl⟩ : Stored mn P (P ++ (mn, mn) :: polyVector mn Ps)) Ps hok (f + 1) (by simp at hf; omega)
    have hn := nextPolygon_cons P (fun p hp => (hP1 p hp).1) (polyVector mn Ps)
    rw [polyVector_cons, List.pairwise_cons, ← hr]
    obtain ⟨v, P', rfl⟩ := List.exists_cons_of_ne_nil hP0
    rw [List.cons_append] at e hn ⊢
    rw [checkPolygonsOuter]
    rw [hn, e]
    cases r with
    | false => exact ⟨false, rfl, by simp⟩
    | true =>
      obtain ⟨r', e', hr'⟩ := ih hok f (by simp at hf; omega)
      exact ⟨r', e', hr'.trans (by simp)⟩

/-- **C121.**  On a vector of polygons the check ends, reads nothing outside of the vector, and passes exactly if it reports no pair. -/
theorem C121_check {mn : α} (Ps : List (List (α × α))) (hP : PolysStored mn Ps) :
    ∃ r, eafCheckPolygons mn (polyVector mn Ps) = some r ∧
      (r = true ↔ Ps.Pairwise (fun P Q => ¬ (¬ LineBetween false P Q ∧ ¬ LineBetween true P Q ∧ CornerBelow P Q ∧ CornerBelow Q P))) := by
  refine checkPolygonsOuter_spec Ps hP _ ?_
  have : ∀ Qs : List (List (α × α)), Qs.length ≤ (polyVector mn Qs).length := by
    intro Qs
    induction Qs with
    | nil => simp
    | cons Q Qs ih => rw [polyVector_cons]; simp; omega
  exact Nat.lt_succ_of_le (this Ps)

end

/-- **C121.**  For other polygons the check can be wrong: a square inside the notch of a polygon in the form of a U is reported, although the two have
no point in common. -/
theorem C121_false_notch : ∃ P Q : List (ℝ × ℝ), Rectilinear P ∧ Rectilinear Q ∧ (∀ x y, ¬ (InPolygon P x y ∧ InPolygon Q x y)) ∧
    (∃ x y, InPolygon P x y) ∧ (∃ x y, InPolygon Q x y) ∧ eafCheckPolygons (-1) (polyVector (-1) [P, Q]) = some false := by
  refine ⟨[(0, 0), (3, 0), (3, 3), (2, 3), (2, 1), (1, 1), (1, 3), (0, 3)], [(1, 2), (2, 2), (2, 3), (1, 3)], ?_, ?_, ?_, ⟨1, 0, ?_⟩, ⟨1, 2, ?_⟩, ?_⟩
  · simp [Rectilinear, polySides, List.rotate]
  · simp [Rectilinear, polySides, List.rotate]
  · rintro x y ⟨h1, h2⟩
    have hy : 2 ≤ y ∧ ¬ 3 ≤ y := by
      by_contra hc
      by_cases a2 : 2 ≤ y
      · have a3 : 3 ≤ y := by
          by_contra a3
          exact hc ⟨a2, a3⟩
        simp [InPolygon, polySides, List.rotate, Crosses, a2, a3] at h2
      · have a3 : ¬ 3 ≤ y := fun g => a2 (le_trans (by norm_num) g)
        simp [InPolygon, polySides, List.rotate, Crosses, a2, a3] at h2
    obtain ⟨a2, a3⟩ := hy
    have hx : x < 2 ∧ ¬ x < 1 := by
      by_contra hc
      by_cases b2 : x < 2
      · have b1 : x < 1 := by
          by_contra b1
          exact hc ⟨b2, b1⟩
        simp [InPolygon, polySides, List.rotate, Crosses, a2, a3, b1, b2] at h2
        revert h2
        decide
      · have b1 : ¬ x < 1 := fun g => b2 (lt_trans g (by norm_num))
        simp [InPolygon, polySides, List.rotate, Crosses, a2, a3, b1, b2] at h2
    obtain ⟨b2, b1⟩ := hx
    have a0 : 0 ≤ y := le_trans (by norm_num) a2
    have a1 : 1 ≤ y := le_trans (by norm_num) a2
    have b3 : x < 3 := lt_trans b2 (by norm_num)
    have b0 : ¬ x < 0 := fun g => b1 (lt_trans g (by norm_num))
    simp [InPolygon, polySides, List.rotate, Crosses, a0, a1, a3, b0, b1, b2, b3] at h1
    revert h1
    decide
  · norm_num [InPolygon, polySides, List.rotate, Crosses, List.countP_cons]
  · norm_num [InPolygon, polySides, List.rotate, Crosses, List.countP_cons]
  · obtain ⟨r, e, h⟩ := C121_check (mn := (-1 : ℝ)) [[(0, 0), (3, 0), (3, 3), (2, 3), (2, 1), (1, 1), (1, 3), (0, 3)], [(1, 2), (2, 2), (2, 3), (1, 3)]] (by
      intro P hP
      simp only [List.mem_cons, List.not_mem_nil, or_false] at hP
      rcases hP with rfl | rfl
      · refine ⟨by simp, ?_⟩
        norm_num
      · refine ⟨by simp, ?_⟩
        norm_num)
    rw [e]
    cases r with
    | false => rfl
    | true =>
      exfalso
      have h1 := h.1 rfl
      rw [List.pairwise_cons] at h1
      refine h1.1 [(1, 2), (2, 2), (2, 3), (1, 3)] (by simp) ⟨?_, ?_, ⟨(0, 0), by simp, (2, 3), by simp, by norm_num, by norm_num⟩,
        ⟨(1, 2), by simp, (3, 3), by simp, by norm_num, by norm_num⟩⟩
      · rintro (g | g)
        · exact absurd (g (3, 3) (by simp) (1, 2) (by simp)) (by norm_num [polyCoord])
        · exact absurd (g (0, 0) (by simp) (1, 2) (by simp)) (by norm_num [polyCoord])
      · rintro (g | g)
        · exact absurd (g (3, 3) (by simp) (1, 2) (by simp)) (by norm_num [polyCoord])
        · exact absurd (g (0, 0) (by simp) (1, 2) (by simp)) (by norm_num [polyCoord])

/-- Non-vacuity: two squares that overlap, as they are stored. -/
example : Stored (-1 : ℝ) [(0, 0), (2, 0), (2, 2), (0, 2)] [(0, 0), (2, 0), (2, 2), (0, 2), (-1, -1), (1, 1), (3, 1), (3, 3), (1, 3), (-1, -1)] ∧
    Stored (-1 : ℝ) [(1, 1), (3, 1), (3, 3), (1, 3)] [(1, 1), (3, 1), (3, 3), (1, 3), (-1, -1)] ∧
    RectCorners [((0 : ℝ), (0 : ℝ)), (2, 0), (2, 2), (0, 2)] 0 2 0 2 := by
  refine ⟨⟨by simp, by norm_num, _, rfl⟩, ⟨by simp, by norm_num, _, rfl⟩, by norm_num, by norm_num, fun p => ?_⟩
  obtain ⟨x, y⟩ := p
  simp only [List.mem_cons, Prod.mk.injEq, List.not_mem_nil, or_false]
  tauto

end Moo
