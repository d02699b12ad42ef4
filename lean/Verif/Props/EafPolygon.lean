import Verif.Lemmas.EafPolygon
import Verif.Lemmas.FloatEps
import Verif.Props.EafRect

/-!
# Properties of the polygons of the EAF differences: C65
-/

set_option autoImplicit false
set_option linter.unusedSectionVars false

namespace Moo

open Classical

/-! ## Truncation of the rounded quotient -/

theorem floor_rnd_div {rnd : ℝ → ℝ} (h : Nearest binary64 rnd) {p : ℤ} {q : ℕ} (hq : 1 ≤ q) (h0 : 0 ≤ p) (hp : p ≤ 2147483647) :
    ⌊rnd ((p : ℝ) / (q : ℝ))⌋ = ⌊(p : ℝ) / (q : ℝ)⌋ := by
  have hq0 : (0 : ℝ) < q := by exact_mod_cast hq
  have hp0 : (0 : ℝ) ≤ p := by exact_mod_cast h0
  set x : ℝ := (p : ℝ) / (q : ℝ) with hx
  have hx0 : 0 ≤ x := div_nonneg hp0 hq0.le
  have hxp : x ≤ p := div_le_self hp0 (by exact_mod_cast hq)
  have hn0 : 0 ≤ ⌊x⌋ := Int.floor_nonneg.2 hx0
  have hnp : ⌊x⌋ ≤ p := by
    have : (⌊x⌋ : ℝ) ≤ p := (Int.floor_le x).trans hxp
    exact_mod_cast this
  have hfix : ∀ n : ℤ, 0 ≤ n → n ≤ 2147483648 → rnd (n : ℝ) = n := by
    intro n h1 h2
    exact h.fix (binary64_int (by rw [abs_of_nonneg h1]; norm_num; omega))
  rw [Int.floor_eq_iff]
  constructor
  · have := h.mono (Int.floor_le x)
    rwa [hfix _ hn0 (by omega)] at this
  · have h1 := h.mono (Int.lt_floor_add_one x).le
    have e1 : ((⌊x⌋ : ℝ) + 1) = ((⌊x⌋ + 1 : ℤ) : ℝ) := by push_cast; ring
    rw [e1, hfix _ (by omega) (by omega)] at h1
    rw [e1]
    refine lt_of_le_of_ne h1 ?_
    intro heq
    by_cases hhalf : x ≤ 1 / 2
    · have h2 := h.mono hhalf
      have hb : (1 / 2 : ℝ) ∈ binary64 := ⟨1, -1, by norm_num, by norm_num, by norm_num⟩
      rw [h.fix hb, heq] at h2
      have : (1 : ℝ) ≤ ((⌊x⌋ + 1 : ℤ) : ℝ) := by exact_mod_cast (by omega : (1 : ℤ) ≤ ⌊x⌋ + 1)
      linarith
    · push Not at hhalf
      have hmin : minNormal ≤ |x| := by
        rw [abs_of_nonneg hx0]
        have : minNormal ≤ 1 / 2 := by
          unfold minNormal
          rw [show (1 / 2 : ℝ) = (2 : ℝ) ^ (-1 : ℤ) by norm_num]
          exact zpow_le_zpow_right₀ (by norm_num) (by norm_num)
        linarith
      have h2 := h.rel hmin
      rw [heq, abs_of_nonneg hx0] at h2
      have h3 := le_of_abs_le h2
      -- the distance to the next integer is at least `1 / q`
      have h4 : (1 : ℝ) ≤ ((⌊x⌋ + 1 : ℤ) : ℝ) * q - p := by
        have h5 : (p : ℝ) < ((⌊x⌋ + 1 : ℤ) : ℝ) * q := by
          rw [← e1]
          have := Int.lt_floor_add_one x
          rw [hx, div_lt_iff₀ hq0, ← hx] at this
          exact this
        have h6 : p < (⌊x⌋ + 1) * q := by exact_mod_cast h5
        have h7 : 1 ≤ (⌊x⌋ + 1) * q - p := by omega
        exact_mod_cast h7
      have hxq : x * q = p := by rw [hx, div_mul_cancel₀ _ hq0.ne']
      have h8 : (((⌊x⌋ + 1 : ℤ) : ℝ) - x) * q ≤ ulpU * x * q := mul_le_mul_of_nonneg_right h3 hq0.le
      rw [sub_mul, mul_assoc, hxq] at h8
      have hpp : (p : ℝ) ≤ 2147483647 := by exact_mod_cast hp
      rw [ulpU_val] at h8
      linarith

theorem nearest_neg {rnd : ℝ → ℝ} (h : Nearest binary64 rnd) : Nearest binary64 (fun y => -rnd (-y)) := by
  refine ⟨fun x => binary64_neg (h.mem _), ?_⟩
  intro x f hf
  have := h.best (-x) (-f) (binary64_neg hf)
  rw [show -rnd (-x) - x = -(rnd (-x) - -x) by ring, abs_neg]
  rw [show -f - -x = -(f - x) by ring, abs_neg] at this
  exact this

/-- The colour is the exact quotient, truncated. -/
theorem cTrunc_rnd_div {rnd : ℝ → ℝ} (h : Nearest binary64 rnd) {p : ℤ} {q : ℕ} (hq : 1 ≤ q) (hp : |p| ≤ 2147483647) :
    cTrunc (rnd ((p : ℝ) / (q : ℝ))) = cTrunc ((p : ℝ) / (q : ℝ)) := by
  have hq0 : (0 : ℝ) < q := by exact_mod_cast hq
  have hp' := abs_le.1 hp
  rcases le_or_gt 0 p with h0 | h0
  · have hp0 : (0 : ℝ) ≤ p := by exact_mod_cast h0
    have hx0 : 0 ≤ (p : ℝ) / (q : ℝ) := div_nonneg hp0 hq0.le
    rw [cTrunc, cTrunc, if_pos hx0, if_pos (h.nonneg binary64_zero hx0), floor_rnd_div h hq h0 hp'.2]
  · have hp0 : (p : ℝ) < 0 := by exact_mod_cast h0
    have hx0 : (p : ℝ) / (q : ℝ) < 0 := div_neg_of_neg_of_pos hp0 hq0
    have hf := floor_rnd_div (nearest_neg h) (p := -p) hq (by omega) (by omega)
    have e : (((-p : ℤ) : ℝ)) / (q : ℝ) = -((p : ℝ) / (q : ℝ)) := by push_cast; ring
    rw [e] at hf
    simp only [neg_neg] at hf
    rw [Int.floor_neg, Int.floor_neg, neg_inj] at hf
    rw [cTrunc, cTrunc, if_neg (not_le.2 hx0)]
    by_cases hz : 0 ≤ rnd ((p : ℝ) / (q : ℝ))
    · have : rnd ((p : ℝ) / (q : ℝ)) = 0 := le_antisymm (h.nonpos binary64_zero hx0.le) hz
      rw [if_pos hz, ← hf, this]
      simp
    · rw [if_neg hz, hf]

theorem one_le_cTrunc (d : ℝ) : 1 ≤ cTrunc d ↔ 1 ≤ d := by
  unfold cTrunc
  split_ifs with h
  · rw [Int.le_floor]; simp
  · constructor
    · intro h1
      have : ⌈d⌉ ≤ 0 := Int.ceil_le.2 (by push_cast; linarith)
      omega
    · intro h1; linarith

theorem cTrunc_of_one_le {d : ℝ} (h : 1 ≤ d) : cTrunc d = ⌊d⌋ := by
  rw [cTrunc, if_pos (by linarith)]

theorem cTrunc_of_lt_one {d : ℝ} (h : d < 1) : 1 - cTrunc d = 1 + ⌊max 0 (-d)⌋ := by
  unfold cTrunc
  split_ifs with h0
  · rw [max_eq_left (by linarith)]
    have : ⌊d⌋ = 0 := Int.floor_eq_zero_iff.2 ⟨h0, h⟩
    rw [this]; simp
  · rw [max_eq_right (by linarith), Int.floor_neg]
    ring

/-! ## The two sides -/

section sides
variable {α : Type*} [LinearOrder α]

/-- The rows of one polygon in the matrix of R. -/
def naRows (P : List (α × α)) : List (Option (α × α)) := P.map some ++ [none]

theorem naPolygons_rows (P : List (α × α)) (r : List (Option (α × α))) : naPolygons (naRows P ++ r) = P :: naPolygons r := by
  unfold naRows
  induction P with
  | nil => rfl
  | cons v P ih =>
    rw [List.map_cons, List.cons_append, List.cons_append, naPolygons, ih]

theorem naPolygons_flatMap (Ps : List (List (α × α))) : naPolygons (Ps.flatMap naRows) = Ps := by
  induction Ps with
  | nil => rfl
  | cons P Ps ih => rw [List.flatMap_cons, naPolygons_rows, ih]

variable {mn : α}

theorem polygonLen_spec : ∀ (P : List (α × α)) (t : List (α × α)), (∀ v ∈ P, mn < v.1) → polygonLen mn (P ++ (mn, mn) :: t) = some (P.length + 1) := by
  intro P
  induction P with
  | nil => intro t _; simp [polygonLen]
  | cons v P ih =>
    intro t h
    rw [List.cons_append, polygonLen, if_pos (h v (by simp)).ne', ih t (fun w hw => h w (by simp [hw]))]
    simp

theorem rowSet_next (pre : List (Option (α × α))) (k : ℕ) (v : Option (α × α)) :
    rowSet (pre.map some ++ List.replicate (k + 1) none) pre.length v = some ((pre ++ [v]).map some ++ List.replicate k none) := by
  rw [rowSet, if_pos (by simp), List.replicate_succ]
  congr 1
  rw [show pre.length = (pre.map some).length + 0 by simp, List.set_append_right _ _ (by simp)]
  simp

theorem polygonCopy_spec : ∀ (P : List (α × α)) (t : List (α × α)) (pre : List (Option (α × α))) (k : ℕ), (∀ v ∈ P, mn < v.1) →
    polygonCopy mn (pre.map some ++ List.replicate (P.length + 1 + k) none) pre.length (P ++ (mn, mn) :: t) =
      some ((pre ++ naRows P).map some ++ List.replicate k none, pre.length + (P.length + 1)) := by
  intro P
  induction P with
  | nil =>
    intro t pre k _
    rw [List.nil_append, polygonCopy, if_neg (by simp), show ([] : List (α × α)).length + 1 + k = k + 1 by simp; omega, rowSet_next]
    simp [naRows]
  | cons v P ih =>
    intro t pre k h
    rw [List.cons_append, polygonCopy, if_pos (h v (by simp)).ne', show (v :: P).length + 1 + k = (P.length + 1 + k) + 1 by simp; omega, rowSet_next,
      Option.bind_some]
    have h2 := ih t (pre ++ [some v]) k (fun w hw => h w (by simp [hw]))
    rw [List.length_append, List.length_singleton] at h2
    rw [h2]
    simp [naRows]
    omega

/-- The polygons of colour at least one, with their truncated colours, and the others. -/
def leftOf (f : ℤ → ℤ) (ps : List (List (α × α) × ℤ)) : List (List (α × α) × ℤ) := ps.filter (fun p => 1 ≤ f p.2)
/-- see `leftOf` -/
def rightOf (f : ℤ → ℤ) (ps : List (List (α × α) × ℤ)) : List (List (α × α) × ℤ) := ps.filter (fun p => ¬ 1 ≤ f p.2)

/-- The rows of some polygons. -/
def polyRows (ps : List (List (α × α) × ℤ)) : List (Option (α × α)) := (ps.map Prod.fst).flatMap naRows

theorem polyXY_cons (p : List (α × α) × ℤ) (ps : List (List (α × α) × ℤ)) : polyXY mn (p :: ps) = p.1 ++ (mn, mn) :: polyXY mn ps := by
  simp [polyXY]

theorem polyXY_drop (p : List (α × α) × ℤ) (ps : List (List (α × α) × ℤ)) : (polyXY mn (p :: ps)).drop (p.1.length + 1) = polyXY mn ps := by
  rw [polyXY_cons, ← List.drop_drop]
  simp

theorem polyLens_spec {rnd : ℝ → ℝ} {intervals : ℤ} {division : ℕ} {f : ℤ → ℤ} : ∀ (ps : List (List (α × α) × ℤ)) (s : SideLens),
    (∀ p ∈ ps, polyColor rnd intervals division p.2 = some (f p.2)) → (∀ p ∈ ps, ∀ v ∈ p.1, mn < v.1) →
    polyLens rnd mn intervals division (ps.map Prod.snd) (polyXY mn ps) s = some (ps.map (fun p => f p.2),
      ⟨s.leftLen + (polyRows (leftOf f ps)).length, s.rightLen + (polyRows (rightOf f ps)).length, s.leftN + (leftOf f ps).length, s.rightN + (rightOf f ps).length⟩) := by
  intro ps
  induction ps with
  | nil => intro s _ _; simp [polyLens, leftOf, rightOf, polyRows]
  | cons p ps ih =>
    intro s hc hv
    have hlen : polygonLen mn (polyXY mn (p :: ps)) = some (p.1.length + 1) := by
      rw [polyXY_cons]; exact polygonLen_spec _ _ (hv p (by simp))
    rw [List.map_cons, polyLens, hc p (by simp), hlen]
    dsimp only
    rw [polyXY_drop, ih _ (fun q hq => hc q (by simp [hq])) (fun q hq => hv q (by simp [hq])), Option.map_some]
    by_cases h1 : 1 ≤ f p.2
    · rw [if_pos h1]
      simp only [leftOf, rightOf, polyRows, List.filter_cons, h1, decide_true, not_true, decide_false, if_true, List.map_cons, List.flatMap_cons, List.length_append,
        List.length_cons, naRows, List.length_map, List.length_nil]
      simp only [Option.some.injEq, Prod.mk.injEq, SideLens.mk.injEq, true_and]
      refine ⟨by omega, by simp, by omega, by simp⟩
    · rw [if_neg h1, if_pos (by omega)]
      simp only [leftOf, rightOf, polyRows, List.filter_cons, h1, decide_false, not_false_eq_true, decide_true, if_true, List.map_cons, List.flatMap_cons, List.length_append,
        List.length_cons, naRows, List.length_map, List.length_nil]
      simp only [Option.some.injEq, Prod.mk.injEq, SideLens.mk.injEq, true_and]
      refine ⟨by simp, by omega, by simp, by omega⟩

theorem polyCopies_spec {f : ℤ → ℤ} : ∀ (ps : List (List (α × α) × ℤ)) (preL preR : List (Option (α × α))) (cl cr : List ℤ),
    (∀ p ∈ ps, ∀ v ∈ p.1, mn < v.1) →
    polyCopies mn (ps.map (fun p => f p.2)) (polyXY mn ps)
      ⟨preL.map some ++ List.replicate (polyRows (leftOf f ps)).length none, preR.map some ++ List.replicate (polyRows (rightOf f ps)).length none, cl, cr, preL.length, preR.length⟩ =
    some ⟨(preL ++ polyRows (leftOf f ps)).map some, (preR ++ polyRows (rightOf f ps)).map some, cl ++ (leftOf f ps).map (fun p => f p.2 + 1),
      cr ++ (rightOf f ps).map (fun p => 1 - f p.2), (preL ++ polyRows (leftOf f ps)).length, (preR ++ polyRows (rightOf f ps)).length⟩ := by
  intro ps
  induction ps with
  | nil => intro preL preR cl cr _; simp [polyCopies, leftOf, rightOf, polyRows]
  | cons p ps ih =>
    intro preL preR cl cr hv
    have hv' : ∀ q ∈ ps, ∀ v ∈ q.1, mn < v.1 := fun q hq => hv q (by simp [hq])
    rw [List.map_cons, polyCopies]
    by_cases h1 : 1 ≤ f p.2
    · have eL : leftOf f (p :: ps) = p :: leftOf f ps := by simp [leftOf, h1]
      have eR : rightOf f (p :: ps) = rightOf f ps := by simp [rightOf, h1]
      have erow : polyRows (p :: leftOf f ps) = naRows p.1 ++ polyRows (leftOf f ps) := by simp [polyRows]
      have elen : (naRows p.1 ++ polyRows (leftOf f ps)).length = p.1.length + 1 + (polyRows (leftOf f ps)).length := by simp [naRows]; omega
      rw [if_pos h1, eL, eR, erow, elen]
      dsimp only
      have hcopy := polygonCopy_spec p.1 (polyXY mn ps) preL (polyRows (leftOf f ps)).length (hv p (by simp))
      rw [← polyXY_cons] at hcopy
      rw [hcopy]
      dsimp only
      rw [show preL.length + (p.1.length + 1) - preL.length = p.1.length + 1 by omega, polyXY_drop]
      have h2 := ih (preL ++ naRows p.1) preR (cl ++ [f p.2 + 1]) cr hv'
      rw [show (preL ++ naRows p.1).length = preL.length + (p.1.length + 1) by simp [naRows]] at h2
      rw [h2]
      simp
    · have eL : leftOf f (p :: ps) = leftOf f ps := by simp [leftOf, h1]
      have eR : rightOf f (p :: ps) = p :: rightOf f ps := by
        unfold rightOf
        rw [List.filter_cons_of_pos (by simpa using h1)]
      have erow : polyRows (p :: rightOf f ps) = naRows p.1 ++ polyRows (rightOf f ps) := by simp [polyRows]
      have elen : (naRows p.1 ++ polyRows (rightOf f ps)).length = p.1.length + 1 + (polyRows (rightOf f ps)).length := by simp [naRows]; omega
      rw [if_neg h1, if_pos (by omega), eL, eR, erow, elen]
      dsimp only
      have hcopy := polygonCopy_spec p.1 (polyXY mn ps) preR (polyRows (rightOf f ps)).length (hv p (by simp))
      rw [← polyXY_cons] at hcopy
      rw [hcopy]
      dsimp only
      rw [show preR.length + (p.1.length + 1) - preR.length = p.1.length + 1 by omega, polyXY_drop]
      have h2 := ih preL (preR ++ naRows p.1) cl (cr ++ [1 - f p.2]) hv'
      rw [show (preR ++ naRows p.1).length = preR.length + (p.1.length + 1) by simp [naRows]] at h2
      rw [h2]
      simp

theorem mapM_id_some {β : Type*} (l : List β) : (l.map some).mapM id = some l := by
  induction l with
  | nil => rfl
  | cons a l ih => rw [List.map_cons, List.mapM_cons, ih]; rfl

theorem rEafdiffPolygon_spec {rnd : ℝ → ℝ} {intervals : ℤ} {division : ℕ} {f : ℤ → ℤ} (ps : List (List (α × α) × ℤ))
    (hc : ∀ p ∈ ps, polyColor rnd intervals division p.2 = some (f p.2)) (hv : ∀ p ∈ ps, ∀ v ∈ p.1, mn < v.1) :
    rEafdiffPolygon rnd mn intervals division ⟨polyXY mn ps, ps.map Prod.snd⟩ =
      some ((polyRows (leftOf f ps), (leftOf f ps).map (fun p => f p.2 + 1)), (polyRows (rightOf f ps), (rightOf f ps).map (fun p => 1 - f p.2))) := by
  rw [rEafdiffPolygon]
  dsimp only
  rw [polyLens_spec ps _ hc hv]
  dsimp only
  have h := polyCopies_spec (f := f) ps [] [] [] [] hv
  simp only [List.map_nil, List.nil_append, List.length_nil] at h
  simp only [Nat.zero_add]
  rw [h]
  simp only [List.length_map, ne_eq, not_true, or_self, if_false, mapM_id_some]

end sides

/-! ## The levels -/

section one
variable {α : Type*} [LinearOrder α] {pts : ℕ → ℕ → α} {cumsize : ℕ → ℕ} {s k : ℕ}

theorem eafPoints_gt {out : List (α × α × (ℕ → ℤ))} {nruns : ℕ} {mn : α} (hr : RunsOk cumsize nruns) (hk : 1 ≤ k)
    (hL : EafLevelOk pts cumsize nruns k out) (hmn : ∀ p < cumsize (nruns - 1), ∀ d < 2, mn < pts p d) : ∀ p ∈ eafPoints out, mn < p.1 ∧ mn < p.2 := by
  rintro ⟨x, y⟩ hp
  have hm := (hL.points.2 x y).1 hp
  obtain ⟨q, h1, h2⟩ := minimalAttained_coord hr hk hm 0 (by omega)
  obtain ⟨q', h3, h4⟩ := minimalAttained_coord hr hk hm 1 (by omega)
  have e1 : pts q 0 = x := by simpa [vec2] using h2
  have e2 : pts q' 1 = y := by simpa [vec2] using h4
  exact ⟨e1 ▸ hmn q h1 0 (by omega), e2 ▸ hmn q' h3 1 (by omega)⟩

/-- What the polygons of the levels `k, ..., k + n` are. -/
structure LevelPolys (pts : ℕ → ℕ → α) (cumsize : ℕ → ℕ) (s : ℕ) (mx mn : α) (k n : ℕ) (ps : List (List (α × α) × ℤ)) : Prop where
  shape : ∀ p ∈ ps, Rectilinear p.1 ∧ 4 ≤ p.1.length
  corner : ∀ p ∈ ps, ∀ v ∈ p.1, mn < v.1 ∧ mn < v.2
  count : ∀ x y, polyCount ps x y = if x < mx ∧ y < mx ∧ k ≤ attainCount pts cumsize (2 * s) 2 (vec2 x y) ∧
    attainCount pts cumsize (2 * s) 2 (vec2 x y) < k + n then 1 else 0
  color : ∀ p ∈ ps, ∃ l, ∀ x y, InPolygon p.1 x y → attainCount pts cumsize (2 * s) 2 (vec2 x y) = l ∧ p.2 = pointColor pts cumsize s x y
  proper : ∀ p ∈ ps, ∃ x y, InPolygon p.1 x y

theorem pointColor_le (x y : α) : |pointColor pts cumsize s x y| ≤ s := by
  have h1 : attainedBetween pts cumsize 0 s x y ≤ s := by
    unfold attainedBetween
    exact (Finset.card_filter_le _ _).trans (by simp)
  have h2 : attainedBetween pts cumsize s (2 * s) x y ≤ s := by
    unfold attainedBetween
    exact (Finset.card_filter_le _ _).trans (by simp; omega)
  unfold pointColor
  rw [abs_le]
  omega

theorem polyPair_spec {mx mn : α} {outa outb : List (α × α × (ℕ → ℤ))} {ea eb : EafT α} (hs1 : 1 ≤ s) (hk : 1 ≤ k) (hr : RunsOk cumsize (2 * s))
    (hmm : mn < mx) (hmx : ∀ p < cumsize (2 * s - 1), ∀ d < 2, pts p d < mx) (hmn : ∀ p < cumsize (2 * s - 1), ∀ d < 2, mn < pts p d)
    (ha : EafStored (2 * s) outa ea) (hb : EafStored (2 * s) outb eb)
    (La : EafLevelOk pts cumsize (2 * s) k outa) (Lb : EafLevelOk pts cumsize (2 * s) (k + 1) outb) (out : EafPoly α) :
    ∃ ps, polyPair mx mn (2 * s) ea eb out = some ⟨out.xy ++ polyXY mn ps, out.col ++ ps.map Prod.snd⟩ ∧ LevelPolys pts cumsize s mx mn k 1 ps := by
  let A := outa.map (fun o => ((o.1, o.2.1), pointColor pts cumsize s o.1 o.2.1))
  have hzip : (eafPoints outa).zip (outa.map (fun o => pointColor pts cumsize s o.1 o.2.1)) = A := by
    unfold eafPoints; rw [List.zip_map']
  have hfst : A.map Prod.fst = eafPoints outa := by
    unfold A eafPoints; rw [List.map_map]; rfl
  have ltA := eafPoints_lt hr hk La hmx
  have ltB := eafPoints_lt hr (by omega) Lb hmx
  have gtA := eafPoints_gt hr hk La hmn
  have gtB := eafPoints_gt hr (by omega) Lb hmn
  have stairA : EafStair (A.map Prod.fst) := by rw [hfst]; unfold eafPoints EafStair; rw [List.pairwise_map]; exact La.chain
  have stairB : EafStair (eafPoints outb) := by unfold eafPoints EafStair; rw [List.pairwise_map]; exact Lb.chain
  have hinv : PolyInv mx mn A (eafPoints outb) mx := by
    refine ⟨stairA, stairB, ?_, ltB, ?_, gtB, ?_, ?_, le_rfl, hmm⟩
    · intro a hma
      exact ltA a.1 (by rw [← hfst]; exact List.mem_map.2 ⟨a, hma, rfl⟩)
    · intro a hma
      exact gtA a.1 (by rw [← hfst]; exact List.mem_map.2 ⟨a, hma, rfl⟩)
    · intro b hmb
      rw [hfst, attBy_level La]
      have := (attBy_level Lb b.1 b.2).1 ⟨b, hmb, le_rfl, le_rfl⟩
      omega
    · unfold A
      rw [List.pairwise_map]
      refine La.chain.imp_of_mem ?_
      intro o o' ho ho' hlt
      dsimp only
      by_cases hj : k + 1 ≤ attainCount pts cumsize (2 * s) 2 (vec2 o'.1 o.2.1)
      · right
        obtain ⟨b, hb, h1⟩ := (attBy_level Lb o'.1 o.2.1).2 hj
        exact ⟨b, hb, h1⟩
      · left
        have h1 := La.reached o ho
        have h2 := La.reached o' ho'
        have e1 : pointColor pts cumsize s o.1 o.2.1 = pointColor pts cumsize s o'.1 o.2.1 := by
          unfold pointColor
          rw [attainedBetween_eq hlt.1.le le_rfl (nruns := 2 * s) (by omega) (lo := 0) (hi := s) (by omega),
            attainedBetween_eq hlt.1.le le_rfl (nruns := 2 * s) (by omega) (lo := s) (hi := 2 * s) le_rfl]
        have e2 : pointColor pts cumsize s o'.1 o'.2.1 = pointColor pts cumsize s o'.1 o.2.1 := by
          unfold pointColor
          rw [attainedBetween_eq le_rfl hlt.2.le (nruns := 2 * s) (by omega) (lo := 0) (hi := s) (by omega),
            attainedBetween_eq le_rfl hlt.2.le (nruns := 2 * s) (by omega) (lo := s) (hi := 2 * s) le_rfl]
        rw [e1, e2]
  obtain ⟨ps, h1, h2⟩ := polyLoop_spec hmm ((eafPoints outa).length + 1) A (eafPoints outb) mx out (by simp [A, eafPoints]) hinv
  have hcnt : ∀ x y, polyCount ps x y = if x < mx ∧ y < mx ∧ k ≤ attainCount pts cumsize (2 * s) 2 (vec2 x y) ∧
      attainCount pts cumsize (2 * s) 2 (vec2 x y) < k + 1 then 1 else 0 := by
    intro x y
    rw [h2.count x y]
    apply if_congr _ rfl rfl
    rw [hfst, attBy_level La, attBy_level Lb]
    constructor
    · rintro ⟨g1, g2, g3, g4⟩; exact ⟨g2, g1, g3, by omega⟩
    · rintro ⟨g1, g2, g3, g4⟩; exact ⟨g2, g1, g3, by omega⟩
  refine ⟨ps, ?_, h2.shape, h2.corner, hcnt, ?_, h2.proper⟩
  · rw [polyPair, initColors_stored hs1 ha La, eafCoords_stored ha, eafCoords_stored hb]
    dsimp only
    rw [hzip]
    exact h1
  · intro p hp
    refine ⟨k, ?_⟩
    intro x y hh
    have hpos : 0 < polyCount ps x y := by
      unfold polyCount
      rw [List.countP_pos_iff]
      exact ⟨p, hp, by simpa using hh⟩
    rw [hcnt x y] at hpos
    split_ifs at hpos with hc
    · have heq : attainCount pts cumsize (2 * s) 2 (vec2 x y) = k := by omega
      refine ⟨heq, ?_⟩
      obtain ⟨a, hma, e1, e2, e3⟩ := h2.color p hp x y hh
      obtain ⟨o, ho, rfl⟩ := List.mem_map.1 hma
      dsimp only at e1 e2 e3
      have hle : attainCount pts cumsize (2 * s) 2 (vec2 x y) ≤ attainCount pts cumsize (2 * s) 2 (vec2 o.1 o.2.1) := by
        have := La.reached o ho; omega
      rw [← e3]
      unfold pointColor
      rw [attainedBetween_eq e1 e2 hle (lo := 0) (hi := s) (by omega), attainedBetween_eq e1 e2 hle (lo := s) (hi := 2 * s) le_rfl]
    · simp at hpos

theorem polyXY_append (mn : α) (l m : List (List (α × α) × ℤ)) : polyXY mn (l ++ m) = polyXY mn l ++ polyXY mn m := by
  simp [polyXY]

theorem polyPairs_spec {mx mn : α} (hs1 : 1 ≤ s) (hr : RunsOk cumsize (2 * s)) (hmm : mn < mx)
    (hmx : ∀ p < cumsize (2 * s - 1), ∀ d < 2, pts p d < mx) (hmn : ∀ p < cumsize (2 * s - 1), ∀ d < 2, mn < pts p d) :
    ∀ (n k : ℕ) (outs : List (List (α × α × (ℕ → ℤ)))) (es : List (EafT α)) (out : EafPoly α),
    1 ≤ k → List.Forall₂ (EafLevelOk pts cumsize (2 * s)) (List.range' k (n + 1)) outs → List.Forall₂ (EafStored (2 * s)) outs es →
    ∃ ps, polyPairs mx mn (2 * s) es out = some ⟨out.xy ++ polyXY mn ps, out.col ++ ps.map Prod.snd⟩ ∧ LevelPolys pts cumsize s mx mn k n ps := by
  intro n
  induction n with
  | zero =>
    intro k outs es out hk h1 h2
    rw [List.range'_succ] at h1
    cases h1 with
    | cons ha h1 =>
      cases h1
      cases h2 with
      | cons hb h2 =>
        cases h2
        refine ⟨[], by simp [polyPairs, polyXY], by simp, by simp, ?_, by simp, by simp⟩
        intro x y
        rw [if_neg]
        · rfl
        · rintro ⟨_, _, g1, g2⟩; omega
  | succ n ih =>
    intro k outs es out hk h1 h2
    rw [List.range'_succ] at h1
    cases h1 with
    | @cons _ outa _ outs' La h1 =>
      cases h2 with
      | @cons _ ea _ es' ha h2 =>
        have h1' := h1
        have h2' := h2
        rw [List.range'_succ] at h1
        cases h1 with
        | @cons _ outb _ outs'' Lb h1 =>
          cases h2 with
          | @cons _ eb _ es'' hb h2 =>
            obtain ⟨ps1, g1, g2⟩ := polyPair_spec (mx := mx) (mn := mn) hs1 hk hr hmm hmx hmn ha hb La Lb out
            obtain ⟨ps2, g3, g4⟩ := ih (k + 1) (outb :: outs'') (eb :: es'') ⟨out.xy ++ polyXY mn ps1, out.col ++ ps1.map Prod.snd⟩ (by omega) h1' h2'
            refine ⟨ps1 ++ ps2, ?_, ?_, ?_, ?_, ?_, ?_⟩
            · rw [polyPairs, g1]
              dsimp only
              rw [g3, polyXY_append, List.map_append, List.append_assoc, List.append_assoc]
            · intro r hrm
              rcases List.mem_append.1 hrm with hrm | hrm
              · exact g2.shape r hrm
              · exact g4.shape r hrm
            · intro r hrm
              rcases List.mem_append.1 hrm with hrm | hrm
              · exact g2.corner r hrm
              · exact g4.corner r hrm
            · intro x y
              rw [polyCount_append, g2.count, g4.count]
              generalize attainCount pts cumsize (2 * s) 2 (vec2 x y) = c
              by_cases hx : x < mx ∧ y < mx
              · by_cases hc1 : k ≤ c ∧ c < k + 1
                · rw [if_pos ⟨hx.1, hx.2, hc1⟩, if_neg (by rintro ⟨_, _, g, _⟩; omega), if_pos ⟨hx.1, hx.2, by omega, by omega⟩]
                · rw [if_neg (by rintro ⟨_, _, g⟩; exact hc1 g), Nat.zero_add]
                  apply if_congr _ rfl rfl
                  constructor
                  · rintro ⟨_, _, g5, g6⟩; exact ⟨hx.1, hx.2, by omega, by omega⟩
                  · rintro ⟨_, _, g5, g6⟩; exact ⟨hx.1, hx.2, by omega, by omega⟩
              · rw [if_neg (by tauto), if_neg (by tauto), if_neg (by tauto)]
            · intro r hrm
              rcases List.mem_append.1 hrm with hrm | hrm
              · exact g2.color r hrm
              · exact g4.color r hrm
            · intro r hrm
              rcases List.mem_append.1 hrm with hrm | hrm
              · exact g2.proper r hrm
              · exact g4.proper r hrm

end one

section main
variable {α : Type*} [LinearOrder α] {pts : ℕ → ℕ → α} {cumsize : ℕ → ℕ} {s : ℕ} {sx sy : List ℕ} {fuel : ℕ}

/-- The difference of the fractions of the left and of the right runs that attain `(x, y)`, times `intervals`. -/
noncomputable def polyDifference (pts : ℕ → ℕ → α) (cumsize : ℕ → ℕ) (s : ℕ) (intervals : ℤ) (x y : α) : ℝ :=
  (intervals : ℝ) * ((attainedBetween pts cumsize 0 s x y : ℝ) / (s : ℝ) - (attainedBetween pts cumsize s (2 * s) x y : ℝ) / (s : ℝ))

/-- **C65**: two sides of `s` runs each (runs `0 .. s-1` and `s .. 2s-1`), every run with at least one point, all coordinates between the infinities `mn` and `mx`, correctly rounded division.
`compute_eafdiff_call(..., ret = "polygons")` succeeds: no assertion fails and nothing is read or written outside of the vectors.  There is one colour for each polygon.
Every polygon has horizontal and vertical sides, at least four corners and a nonempty inside.  Every point `(x, y)` below infinity is in exactly one polygon (of both sides together) if it is attained
by at least one run but not by all, and in none otherwise; the number of attaining runs is the same everywhere in a polygon.  A polygon of `left` has a difference `d` of at least one and the colour
`⌊d⌋ + 1`; a polygon of `right` has a difference less than one, and the colour is one (white) for `-1 < d` and `⌊-d⌋ + 1` otherwise. -/
theorem C65_polygons {rnd : ℝ → ℝ} (hrnd : Nearest binary64 rnd) (hs1 : 1 ≤ s) (hr : RunsOk cumsize (2 * s)) (h0 : 0 < cumsize 0)
    (hx : EafSortedX pts (cumsize (2 * s - 1)) sx) (hy : EafSortedY pts (cumsize (2 * s - 1)) sy) (hf : 2 * cumsize (2 * s - 1) < fuel)
    (hsize : cumsize (2 * s - 1) ≤ 1073741823) (V : EafEnv α) (hV : GrowOk V) (mx mn : α) (hmm : mn < mx)
    (hmx : ∀ p < cumsize (2 * s - 1), ∀ d < 2, pts p d < mx) (hmn : ∀ p < cumsize (2 * s - 1), ∀ d < 2, mn < pts p d)
    (intervals : ℤ) (hint : (s : ℤ) * |intervals| ≤ 2147483647) :
    ∃ left leftCol right rightCol, rComputeEafdiffPolygons rnd V mx mn pts cumsize (2 * s) intervals sx sy fuel = some ((left, leftCol), (right, rightCol)) ∧
      (naPolygons left).length = leftCol.length ∧ (naPolygons right).length = rightCol.length ∧
      (∀ P ∈ naPolygons left ++ naPolygons right, Rectilinear P ∧ 4 ≤ P.length ∧ ∃ x y, InPolygon P x y) ∧
      (∀ x y, (naPolygons left ++ naPolygons right).countP (fun P => decide (InPolygon P x y)) =
        if x < mx ∧ y < mx ∧ 1 ≤ attainCount pts cumsize (2 * s) 2 (vec2 x y) ∧ attainCount pts cumsize (2 * s) 2 (vec2 x y) < 2 * s then 1 else 0) ∧
      (∀ P ∈ naPolygons left ++ naPolygons right, ∃ l, ∀ x y, InPolygon P x y → attainCount pts cumsize (2 * s) 2 (vec2 x y) = l) ∧
      (∀ p ∈ (naPolygons left).zip leftCol, ∀ x y, InPolygon p.1 x y →
        1 ≤ polyDifference pts cumsize s intervals x y ∧ p.2 = ⌊polyDifference pts cumsize s intervals x y⌋ + 1) ∧
      (∀ p ∈ (naPolygons right).zip rightCol, ∀ x y, InPolygon p.1 x y →
        polyDifference pts cumsize s intervals x y < 1 ∧ p.2 = 1 + ⌊max 0 (-polyDifference pts cumsize s intervals x y)⌋) := by
  have hlev : (List.range (2 * s)).map (fun k : ℕ => (k : ℤ) + 1) = (List.range' 1 (2 * s)).map Int.ofNat := by
    rw [List.range'_eq_map_range, List.map_map]
    apply List.map_congr_left
    intro k _
    simp only [Function.comp, Int.ofNat_eq_natCast]
    push_cast; omega
  have hl : ∀ k ∈ List.range' 1 (2 * s), 1 ≤ k ∧ k ≤ 2 * s := by
    intro k hk
    rw [List.mem_range'_1] at hk
    omega
  obtain ⟨res, h1, h2⟩ := eaf2d_levels hr hx hy hf (List.range' 1 (2 * s)) (fun k hk => (hl k hk).1)
  have hsurf : ∃ es, res.mapM (fun out => eafSurface2d V (2 * s) (cumsize (2 * s - 1)) out) = some es ∧ List.Forall₂ (EafStored (2 * s)) res es := by
    clear h1 hlev
    revert hl h2
    generalize List.range' 1 (2 * s) = lv
    intro hl h2
    induction h2 with
    | nil => exact ⟨[], rfl, List.Forall₂.nil⟩
    | @cons k out ks outs h _ ih =>
      obtain ⟨es, g1, g2⟩ := ih (fun k hk => hl k (by simp [hk]))
      have hk := hl k (by simp)
      obtain ⟨e, g3, g5, g4⟩ := eafSurface_of hr h0 hk.1 hk.2 hsize V hV h
      exact ⟨e :: es, by rw [List.mapM_cons, g3, g1]; rfl, List.Forall₂.cons ⟨g5, g4⟩ g2⟩
  obtain ⟨es, g1, g2⟩ := hsurf
  have h2s : 2 * s = (2 * s - 1) + 1 := by omega
  have h2' := h2
  rw [show List.range' 1 (2 * s) = List.range' 1 ((2 * s - 1) + 1) by rw [← h2s]] at h2'
  obtain ⟨ps, g3, g4⟩ := polyPairs_spec (mx := mx) (mn := mn) hs1 hr hmm hmx hmn (2 * s - 1) 1 res es ⟨[], []⟩ le_rfl h2' g2
  rw [List.nil_append, List.nil_append] at g3
  -- the colours
  have hdiv : 2 * s / 2 = s := by omega
  let f : ℤ → ℤ := fun c => cTrunc (((c * intervals : ℤ) : ℝ) / (s : ℝ))
  have hcol : ∀ p ∈ ps, polyColor rnd intervals s p.2 = some (f p.2) := by
    intro p hp
    obtain ⟨x, y, hxy⟩ := g4.proper p hp
    obtain ⟨l, hc⟩ := g4.color p hp
    have hb : |p.2 * intervals| ≤ 2147483647 := by
      rw [(hc x y hxy).2, abs_mul]
      exact (mul_le_mul_of_nonneg_right (pointColor_le x y) (abs_nonneg _)).trans hint
    rw [polyColor, if_pos hb, cTrunc_rnd_div hrnd hs1 hb]
  have hdiff : ∀ p ∈ ps, ∀ x y, InPolygon p.1 x y → ((p.2 * intervals : ℤ) : ℝ) / (s : ℝ) = polyDifference pts cumsize s intervals x y := by
    intro p hp x y hxy
    obtain ⟨l, hc⟩ := g4.color p hp
    rw [(hc x y hxy).2]
    unfold pointColor polyDifference
    push_cast
    ring
  have hR := rEafdiffPolygon_spec (f := f) ps hcol (fun p hp v hv => (g4.corner p hp v hv).1)
  have hna : ∀ qs : List (List (α × α) × ℤ), naPolygons (polyRows qs) = qs.map Prod.fst := fun qs => naPolygons_flatMap _
  have hmem : ∀ P ∈ (leftOf f ps).map Prod.fst ++ (rightOf f ps).map Prod.fst, ∃ p ∈ ps, p.1 = P := by
    intro P hP
    rw [← List.map_append, List.mem_map] at hP
    obtain ⟨p, hp, rfl⟩ := hP
    rw [List.mem_append] at hp
    exact ⟨p, by rcases hp with hp | hp <;> exact (List.mem_filter.1 hp).1, rfl⟩
  refine ⟨polyRows (leftOf f ps), (leftOf f ps).map (fun p => f p.2 + 1), polyRows (rightOf f ps), (rightOf f ps).map (fun p => 1 - f p.2), ?_, ?_, ?_, ?_, ?_, ?_, ?_, ?_⟩
  · rw [rComputeEafdiffPolygons, hlev, h1]
    dsimp only
    rw [g1]
    dsimp only
    have hes : es ≠ [] := by
      rintro rfl
      cases g2
      have := (forall₂_get h2).1
      simp at this
      omega
    obtain ⟨e, es', rfl⟩ := List.exists_cons_of_ne_nil hes
    have hn : e.nruns = 2 * s := by
      cases g2 with
      | cons h _ => exact h.1
    rw [eafComputePolygon]
    rw [hn, if_neg (by omega), g3]
    dsimp only
    rw [hdiv, hR]
  · rw [hna]; simp
  · rw [hna]; simp
  · rw [hna, hna]
    intro P hP
    obtain ⟨p, hp, rfl⟩ := hmem P hP
    exact ⟨(g4.shape p hp).1, (g4.shape p hp).2, g4.proper p hp⟩
  · intro x y
    rw [hna, hna]
    have hc := g4.count x y
    have e : polyCount ps x y = ((leftOf f ps).map Prod.fst ++ (rightOf f ps).map Prod.fst).countP (fun P => decide (InPolygon P x y)) := by
      unfold polyCount leftOf rightOf
      rw [← List.map_append, List.countP_map]
      refine List.Perm.countP_eq _ ?_
      refine (List.filter_append_perm (fun p : List (α × α) × ℤ => decide (1 ≤ f p.2)) ps).symm.trans ?_
      refine List.Perm.of_eq ?_
      congr 1
      apply List.filter_congr
      intro p _
      by_cases hp : 1 ≤ f p.2
      · simp [hp]
      · simp [hp]
    rw [← e, hc]
    apply if_congr _ rfl rfl
    constructor
    · rintro ⟨a1, a2, a, b⟩; exact ⟨a1, a2, a, by omega⟩
    · rintro ⟨a1, a2, a, b⟩; exact ⟨a1, a2, a, by omega⟩
  · rw [hna, hna]
    intro P hP
    obtain ⟨p, hp, rfl⟩ := hmem P hP
    obtain ⟨l, h4⟩ := g4.color p hp
    exact ⟨l, fun x y h => (h4 x y h).1⟩
  · rw [hna, List.zip_map']
    intro p hp x y hxy
    obtain ⟨q, hq, rfl⟩ := List.mem_map.1 hp
    obtain ⟨hq1, hq2⟩ := List.mem_filter.1 hq
    have hd := hdiff q hq1 x y hxy
    have hq3 : 1 ≤ cTrunc (((q.2 * intervals : ℤ) : ℝ) / (s : ℝ)) := by simpa [f] using hq2
    rw [hd, one_le_cTrunc] at hq3
    refine ⟨hq3, ?_⟩
    show cTrunc (((q.2 * intervals : ℤ) : ℝ) / (s : ℝ)) + 1 = _
    rw [hd, cTrunc_of_one_le hq3]
  · rw [hna, List.zip_map']
    intro p hp x y hxy
    obtain ⟨q, hq, rfl⟩ := List.mem_map.1 hp
    obtain ⟨hq1, hq2⟩ := List.mem_filter.1 hq
    have hd := hdiff q hq1 x y hxy
    have hq3 : ¬ 1 ≤ cTrunc (((q.2 * intervals : ℤ) : ℝ) / (s : ℝ)) := by simpa [f] using hq2
    rw [hd, one_le_cTrunc, not_le] at hq3
    refine ⟨hq3, ?_⟩
    show 1 - cTrunc (((q.2 * intervals : ℤ) : ℝ) / (s : ℝ)) = _
    rw [hd, cTrunc_of_lt_one hq3]

/-- With an odd number of runs the assertion fails. -/
theorem C65_odd_runs_abort (mx mn : α) (e : EafT α) (es : List (EafT α)) (h : e.nruns % 2 = 1) : eafComputePolygon mx mn (e :: es) = none := by
  rw [eafComputePolygon, if_pos (by omega)]

end main

/-- Non-vacuity: the example of C23 (one run on each side) meets the hypotheses, and these are its polygons. -/
example : (2 * 1 = 2 ∧ RunsOk eafExCum (2 * 1)) ∧ 0 < eafExCum 0 ∧ EafSortedX eafExPts (eafExCum (2 * 1 - 1)) [3, 0, 2, 1] ∧
    EafSortedY eafExPts (eafExCum (2 * 1 - 1)) [3, 0, 2, 1] ∧ (∀ p < eafExCum (2 * 1 - 1), ∀ d < 2, eafExPts p d < 100) ∧
    ∀ p < eafExCum (2 * 1 - 1), ∀ d < 2, -100 < eafExPts p d :=
  ⟨⟨rfl, eafEx_runs⟩, by decide, ⟨by decide, by decide⟩, ⟨by decide, by decide⟩, by decide, by decide⟩

example : polyLoop (100 : ℤ) (-100) 4 [((1, 3), 1), ((2, 2), -1), ((3, 1), 1)] [(1, 4), (2, 3), (3, 2)] 100 ⟨[], []⟩ =
    some ⟨[(1, 4), (1, 3), (2, 3), (2, 4), (-100, -100), (2, 3), (2, 2), (3, 2), (3, 3), (-100, -100), (3, 2), (3, 1), (100, 1), (100, 2), (-100, -100)], [1, -1, 1]⟩ := by decide +kernel

/-- A polygon with eight corners, with a hook. -/
example : polyLoop (100 : ℤ) (-100) 3 [((1, 3), 1), ((2, 1), 1)] [(3, 4), (5, 2)] 100 ⟨[], []⟩ =
    some ⟨[(1, 100), (1, 3), (2, 3), (2, 1), (100, 1), (100, 2), (5, 2), (5, 4), (3, 4), (3, 100), (-100, -100)], [1]⟩ := by decide +kernel

end Moo
