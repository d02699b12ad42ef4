import Verif.Lemmas.EafDiff
import Verif.Props.EafLabels

/-!
# C61: `eafdiff` of two labelled data sets
-/

set_option autoImplicit false
set_option linter.unusedSectionVars false

namespace Moo

section main

variable {K : Type*} [Field K] [LinearOrder K] [IsStrictOrderedRing K] {L : Type*} [LinearOrder L]

/-! ## Removing duplicates -/

theorem uniqueNosort_spec (rows : List (List K)) : (uniqueNosort rows).Nodup ∧ ∀ r, r ∈ uniqueNosort rows ↔ r ∈ rows := by
  have hl : (npUniqueIndex rows).length = (npUnique rows).length := by simp [npUniqueIndex]
  have h : (uniqueNosort rows).Perm (npUnique rows) := by
    unfold uniqueNosort
    have h1 := (npArgsort_perm (npUniqueIndex rows)).map (fun i => (npUnique rows).getD i [])
    rw [hl, map_getD_range] at h1
    exact h1
  exact ⟨h.nodup_iff.2 (npUnique_nodup rows), fun r => by rw [h.mem_iff, npUnique_mem]⟩

theorem notDuplicated_spec : ∀ (rows seen : List (List K)), (notDuplicated seen rows).Nodup ∧ ∀ r, r ∈ notDuplicated seen rows ↔ r ∈ rows ∧ r ∉ seen
  | [], seen => by simp [notDuplicated]
  | a :: rows, seen => by
    rw [notDuplicated]
    split_ifs with h
    · obtain ⟨h1, h2⟩ := notDuplicated_spec rows seen
      refine ⟨h1, fun r => ?_⟩
      rw [h2, List.mem_cons]
      constructor
      · rintro ⟨g1, g2⟩; exact ⟨Or.inr g1, g2⟩
      · rintro ⟨g1, g2⟩
        rcases g1 with rfl | g1
        · exact absurd h g2
        · exact ⟨g1, g2⟩
    · obtain ⟨h1, h2⟩ := notDuplicated_spec rows (a :: seen)
      refine ⟨?_, fun r => ?_⟩
      · rw [List.nodup_cons, h2]
        exact ⟨fun g => g.2 (by simp), h1⟩
      · rw [List.mem_cons, h2, List.mem_cons, List.mem_cons]
        constructor
        · rintro (rfl | ⟨g1, g2⟩)
          · exact ⟨Or.inl rfl, h⟩
          · exact ⟨Or.inr g1, fun g => g2 (Or.inr g)⟩
        · rintro ⟨g1, g2⟩
          by_cases hra : r = a
          · exact Or.inl hra
          · exact Or.inr ⟨g1.resolve_left hra, fun g => g.elim hra g2⟩

theorem untransformRow_untransformRow (m : ℕ → Bool) (n : ℕ) (row : List K) : untransformRow m n (untransformRow m n row) = row := by
  unfold untransformRow
  apply List.ext_getElem
  · simp
  · intro i h1 h2
    simp only [List.getElem_mapIdx]
    by_cases h : i < n ∧ m i = true <;> simp [h]

theorem untransformRow_injective (m : ℕ → Bool) (n : ℕ) : Function.Injective (untransformRow (K := K) m n) :=
  Function.LeftInverse.injective (untransformRow_untransformRow m n)

/-! ## The matrix of the C code -/

theorem eafdiffRows_stored {pts : ℕ → ℕ → K} {cumsize : ℕ → ℕ} {k nruns : ℕ} (hn : 0 < nruns) {out : List (K × K × (ℕ → ℤ))} {e : EafT K} (h : EafStored nruns out e)
    (hL : EafLevelOk pts cumsize nruns k out) (intervals : ℕ) :
    eafdiffRows 2 e nruns intervals = some (out.map (fun o => [o.1, o.2.1, (intervals : K) *
      ((attainedBetween pts cumsize 0 (nruns / 2) o.1 o.2.1 : K) / ((nruns / 2 : ℕ) : K) -
        (attainedBetween pts cumsize (nruns / 2) nruns o.1 o.2.1 : K) / ((nruns - nruns / 2 : ℕ) : K))])) := by
  have hs : e.size = out.length := by rw [h.2.size]; simp
  unfold eafdiffRows
  rw [hs]
  apply mapM_range_eq
  intro i hi
  obtain ⟨A, hA⟩ := bitRep_any e.maxsize nruns e.bits (by rw [h.2.blen, h.1])
  have him : i < e.maxsize := by have := h.2.le; omega
  have hspec := attainedLeftRight_spec hA (k := i) (division := nruns / 2) him (by omega)
  have hcnt : ∀ lo hi', hi' ≤ nruns → countIn (A i) lo hi' = attainedBetween pts cumsize lo hi' out[i].1 out[i].2.1 := by
    intro lo hi' hle
    classical
    rw [countIn_eq_card]
    unfold attainedBetween
    congr 1
    apply Finset.filter_congr
    intro r hr
    rw [Finset.mem_Ico] at hr
    have h1 := hA.get i him r (by omega)
    have h2 := h.2.bits i (by simpa using hi) r (by rw [h.1]; omega)
    rw [h.1] at h2
    rw [h2] at h1
    have h3 := Option.some.inj h1
    rw [← h3, decide_eq_true_eq]
    simp only [List.getElem_map]
    exact hL.bits _ (List.getElem_mem _) r (by omega)
  have h0 := h.2.data i (by simpa using hi) 0 (by omega)
  have h1 := h.2.data i (by simpa using hi) 1 (by omega)
  rw [Nat.add_zero] at h0
  have hc : (List.range 2).mapM (fun j => e.data[i * 2 + j]?) = some [out[i].1, out[i].2.1] := by
    have e0 : e.data[i * 2 + 0]? = some out[i].1 := by rw [Nat.add_zero, Nat.mul_comm, h0]; simp
    have e1 : e.data[i * 2 + 1]? = some out[i].2.1 := by rw [Nat.mul_comm, h1]; simp
    rw [show List.range 2 = [0, 1] from rfl, List.mapM_cons, e0, List.mapM_cons, e1]
    rfl
  rw [hc]
  unfold eafdiffPercentile
  rw [hspec]
  dsimp only
  rw [hcnt 0 (nruns / 2) (by omega), hcnt (nruns / 2) nruns le_rfl]
  rfl

theorem range_levels (n : ℕ) : (List.range n).map (fun k : ℕ => (k : ℤ) + 1) = (List.range' 1 n).map Int.ofNat := by
  rw [List.range'_eq_map_range, List.map_map]
  apply List.map_congr_left
  intro k _
  simp only [Function.comp, Int.ofNat_eq_natCast]
  push_cast; omega

/-- The rows of `eafdiff_compute_matrix`. -/
theorem eafdiffMatrix_rows {pts : ℕ → ℕ → K} {cumsize : ℕ → ℕ} {nruns : ℕ} {sx sy : List ℕ} {fuel : ℕ} (hr : RunsOk cumsize nruns) (h0 : 0 < cumsize 0)
    (hx : EafSortedX pts (cumsize (nruns - 1)) sx) (hy : EafSortedY pts (cumsize (nruns - 1)) sy) (hf : 2 * cumsize (nruns - 1) < fuel)
    (hsize : cumsize (nruns - 1) ≤ 1073741823) (V : EafEnv K) (hV : GrowOk V) (intervals : ℕ) :
    ∃ rows, eafdiffComputeMatrix2d V pts cumsize nruns intervals sx sy fuel = some rows ∧
      ∀ row, row ∈ rows ↔ ∃ (k : ℕ) (x y : K), 1 ≤ k ∧ k ≤ nruns ∧ MinimalAttained pts cumsize nruns 2 k (vec2 x y) ∧
        row = [x, y, (intervals : K) * ((attainedBetween pts cumsize 0 (nruns / 2) x y : K) / ((nruns / 2 : ℕ) : K) -
          (attainedBetween pts cumsize (nruns / 2) nruns x y : K) / ((nruns - nruns / 2 : ℕ) : K))] := by
  have hl : ∀ k ∈ List.range' 1 nruns, 1 ≤ k ∧ k ≤ nruns := by
    intro k hk
    rw [List.mem_range'_1] at hk
    omega
  obtain ⟨res, h1, h2⟩ := eaf2d_levels hr hx hy hf (List.range' 1 nruns) (fun k hk => (hl k hk).1)
  have key : ∀ (lv : List ℕ) (res : List (List (K × K × (ℕ → ℤ)))), (∀ k ∈ lv, 1 ≤ k ∧ k ≤ nruns) → List.Forall₂ (EafLevelOk pts cumsize nruns) lv res →
      ∃ es rows, res.mapM (fun out => eafSurface2d V nruns (cumsize (nruns - 1)) out) = some es ∧
        es.mapM (fun e => eafdiffRows 2 e nruns intervals) = some rows ∧
        ∀ row, row ∈ rows.flatten ↔ ∃ (k : ℕ) (x y : K), k ∈ lv ∧ MinimalAttained pts cumsize nruns 2 k (vec2 x y) ∧
          row = [x, y, (intervals : K) * ((attainedBetween pts cumsize 0 (nruns / 2) x y : K) / ((nruns / 2 : ℕ) : K) -
            (attainedBetween pts cumsize (nruns / 2) nruns x y : K) / ((nruns - nruns / 2 : ℕ) : K))] := by
    intro lv res hl h2
    induction h2 with
    | nil => exact ⟨[], [], rfl, rfl, by simp⟩
    | @cons k out ks outs h _ ih =>
      obtain ⟨es, rows, g1, g2, g6⟩ := ih (fun k hk => hl k (by simp [hk]))
      have hk := hl k (by simp)
      obtain ⟨e, g3, g5, g4⟩ := eafSurface_of hr h0 hk.1 hk.2 hsize V hV h
      refine ⟨e :: es, _ :: rows, by rw [List.mapM_cons, g3, g1]; rfl, by rw [List.mapM_cons, eafdiffRows_stored hr.1 ⟨g5, g4⟩ h, g2]; rfl, ?_⟩
      intro row
      rw [List.flatten_cons, List.mem_append, g6]
      constructor
      · rintro (hm | ⟨k', x, y, a, b, c⟩)
        · obtain ⟨o, ho, rfl⟩ := List.mem_map.1 hm
          exact ⟨k, o.1, o.2.1, by simp, (h.points.2 _ _).1 (List.mem_map.2 ⟨o, ho, rfl⟩), rfl⟩
        · exact ⟨k', x, y, by simp [a], b, c⟩
      · rintro ⟨k', x, y, a, b, c⟩
        rcases List.mem_cons.1 a with rfl | a
        · left
          obtain ⟨o, ho, he⟩ := List.mem_map.1 ((h.points.2 x y).2 b)
          rw [Prod.mk.injEq] at he
          rw [c, List.mem_map]
          exact ⟨o, ho, by rw [he.1, he.2]⟩
        · exact Or.inr ⟨k', x, y, a, b, c⟩
  obtain ⟨es, rows, g1, g2, g3⟩ := key _ res hl h2
  refine ⟨rows.flatten, ?_, ?_⟩
  · rw [eafdiffComputeMatrix2d, range_levels, h1]
    dsimp only
    rw [g1]
    dsimp only
    rw [g2]
    rfl
  · intro row
    rw [g3]
    simp only [List.mem_range'_1]
    constructor
    · rintro ⟨k, x, y, a, b, c⟩; exact ⟨k, x, y, a.1, by omega, b, c⟩
    · rintro ⟨k, x, y, a, a', b, c⟩; exact ⟨k, x, y, ⟨a, by omega⟩, b, c⟩

/-! ## Points -/

variable [Inhabited L] {maximise : ℕ → Bool} {dx dy : ℕ → ℕ → K} {lx ly : List L} {ox oy sx sy : List ℕ} {fuel s : ℕ}

theorem negVec_vec2 (x y : K) : vec2 (negVec maximise (vec2 x y) 0) (negVec maximise (vec2 x y) 1) = fun d => if d = 0 then negVec maximise (vec2 x y) 0 else negVec maximise (vec2 x y) 1 := rfl

theorem bestForPair_congr {k : ℕ} {z z' : ℕ → K} (h : ∀ d < 2, z d = z' d) (hb : BestForPair maximise dx lx dy ly 2 k z) : BestForPair maximise dx lx dy ly 2 k z' := by
  refine ⟨by rw [← pairCount_congr h]; exact hb.1, fun w h1 h2 d hd => ?_⟩
  rw [← h d hd]
  exact hb.2 w h1 (fun d hd => by rw [h d hd]; exact h2 d hd) d hd

/-- The rows of the C matrix for the combined data, in terms of the original data. -/
theorem diff_rows (hnx : lx ≠ []) (hny : ly ≠ []) (hcx : lx.toFinset.card = s) (hcy : ly.toFinset.card = s) (hox : IsOrder lx ox) (hoy : IsOrder ly oy)
    (hx : EafSortedX (diffData maximise dx dy lx ox oy) (lx.length + ly.length) sx) (hy : EafSortedY (diffData maximise dx dy lx ox oy) (lx.length + ly.length) sy)
    (hf : 2 * (lx.length + ly.length) < fuel) (hsize : lx.length + ly.length ≤ 1073741823) (V : EafEnv K) (hV : GrowOk V) (intervals : ℕ) :
    ∃ rows, eafdiffComputeMatrix2d V (diffData maximise dx dy lx ox oy) (diffCum lx ly) (nSets lx + nSets ly) intervals sx sy fuel = some rows ∧
      ∀ rows' : List (List K), rows'.Nodup → (∀ r, r ∈ rows' ↔ r ∈ rows) → IsDiffTable maximise dx lx dy ly intervals (rows'.map (untransformRow maximise 2)) := by
  obtain ⟨rx, rx0, rxl⟩ := ordered_facts hnx hox
  obtain ⟨ry, ry0, ryl⟩ := ordered_facts hny hoy
  obtain ⟨c1, c2, c3⟩ := catCum_runsOk rx rx0 ry ry0
  rw [rxl, ryl] at c3
  have hsx : nSets lx = s := by rw [nSets_eq_card, hcx]
  have hsy : nSets ly = s := by rw [nSets_eq_card, hcy]
  have hs1 : 1 ≤ s := by rw [← hsx]; exact nSets_pos hnx
  have c3' : diffCum lx ly (nSets lx + nSets ly - 1) = lx.length + ly.length := c3
  obtain ⟨rows, h1, h2⟩ := eafdiffMatrix_rows (pts := diffData maximise dx dy lx ox oy) (cumsize := diffCum lx ly) (nruns := nSets lx + nSets ly) (sx := sx) (sy := sy) (fuel := fuel)
    c1 c2 (by rw [c3']; exact hx) (by rw [c3']; exact hy) (by rw [c3']; exact hf) (by rw [c3']; exact hsize) V hV intervals
  refine ⟨rows, h1, fun rows' hnd hmem => ⟨hnd.map (untransformRow_injective _ _), fun row => ?_⟩⟩
  have hval : ∀ x y : K, (intervals : K) * ((attainedBetween (diffData maximise dx dy lx ox oy) (diffCum lx ly) 0 ((nSets lx + nSets ly) / 2) x y : K) / (((nSets lx + nSets ly) / 2 : ℕ) : K) -
      (attainedBetween (diffData maximise dx dy lx ox oy) (diffCum lx ly) ((nSets lx + nSets ly) / 2) (nSets lx + nSets ly) x y : K) / ((nSets lx + nSets ly - (nSets lx + nSets ly) / 2 : ℕ) : K)) =
      eafDifference maximise dx lx dy ly 2 intervals (negVec maximise (vec2 x y)) := by
    intro x y
    obtain ⟨e1, e2, -⟩ := diff_counts (m := maximise) (dx := dx) (dy := dy) hnx hox hoy x y
    have hd : (nSets lx + nSets ly) / 2 = nSets lx := by rw [hsx, hsy]; omega
    rw [hd, e1, e2, show nSets lx + nSets ly - nSets lx = nSets ly by omega, nSets_eq_card, nSets_eq_card]
    rfl
  have hrow : ∀ x y v : K, untransformRow maximise 2 [x, y, v] = [negVec maximise (vec2 x y) 0, negVec maximise (vec2 x y) 1, v] := by
    intro x y v
    simp [untransformRow, negVec, vec2]
  rw [List.mem_map]
  constructor
  · rintro ⟨r, hr, rfl⟩
    obtain ⟨k, x, y, a, b, c, rfl⟩ := (h2 r).1 ((hmem r).1 hr)
    refine ⟨k, negVec maximise (vec2 x y), a, by rw [← nSets_eq_card, ← nSets_eq_card]; exact b, (diff_minimal hnx hox hoy k x y).1 c, ?_⟩
    rw [hrow, hval]
  · rintro ⟨k, z, a, b, c, rfl⟩
    have hz : ∀ d < 2, negVec maximise (vec2 (negVec maximise z 0) (negVec maximise z 1)) d = z d := by
      intro d hd
      rcases (by omega : d = 0 ∨ d = 1) with rfl | rfl
      · by_cases h : maximise 0 <;> simp [negVec, vec2, h]
      · by_cases h : maximise 1 <;> simp [negVec, vec2, h]
    refine ⟨_, (hmem _).2 ((h2 _).2 ⟨k, negVec maximise z 0, negVec maximise z 1, a, by rw [nSets_eq_card, nSets_eq_card]; exact b, (diff_minimal hnx hox hoy k _ _).2 ?_, rfl⟩), ?_⟩
    · exact bestForPair_congr (fun d hd => (hz d hd).symm) c
    · rw [hrow, hval, hz 0 (by omega), hz 1 (by omega)]
      unfold eafDifference
      rw [labelCount_congr maximise dx lx 2 hz, labelCount_congr maximise dy ly 2 hz]

/-! ## Rectangles -/

theorem countP_one {β : Type*} {p : β → Bool} {l : List β} (h : l.countP p = 1) : ∃ a ∈ l, p a = true ∧ ∀ b ∈ l, p b = true → b = a := by
  rw [List.countP_eq_length_filter, List.length_eq_one_iff] at h
  obtain ⟨a, ha⟩ := h
  have hm : ∀ b, b ∈ l ∧ p b = true ↔ b = a := by
    intro b
    rw [← List.mem_filter, ha, List.mem_singleton]
  exact ⟨a, ((hm a).2 rfl).1, ((hm a).2 rfl).2, fun b h1 h2 => (hm b).1 ⟨h1, h2⟩⟩

theorem asGood_neg (b : Bool) (x y : K) : AsGood b (if b then -x else x) y ↔ x ≤ (if b then -y else y) := by
  cases b
  · simp [AsGood]
  · simp only [AsGood, if_true]
    constructor <;> intro h <;> linarith

theorem inBox_untransform (r : DRect K × K) (z : ℕ → K) :
    InBox maximise (untransformRow (fun d => maximise (d % 2)) 4 (rectRow r)) z ↔ r.1.Has (negVec maximise z 0) (negVec maximise z 1) := by
  have hrow : untransformRow (fun d => maximise (d % 2)) 4 (rectRow r) =
      [if maximise 0 then -r.1.lx else r.1.lx, if maximise 1 then -r.1.ly else r.1.ly, if maximise 0 then -r.1.ux else r.1.ux, if maximise 1 then -r.1.uy else r.1.uy, r.2] := by
    simp [untransformRow, rectRow]
  rw [hrow]
  constructor
  · rintro ⟨a, b, c, d, v, he, h1, h2, h3, h4⟩
    simp only [List.cons.injEq, and_true] at he
    obtain ⟨rfl, rfl, rfl, rfl, rfl⟩ := he
    rw [asGood_neg] at h1 h2 h3 h4
    exact ⟨h1, not_le.1 h3, h2, not_le.1 h4⟩
  · rintro ⟨h1, h2, h3, h4⟩
    exact ⟨_, _, _, _, _, rfl, (asGood_neg _ _ _).2 h1, (asGood_neg _ _ _).2 h3, fun h => absurd ((asGood_neg _ _ _).1 h) (not_le.2 h2),
      fun h => absurd ((asGood_neg _ _ _).1 h) (not_le.2 h4)⟩

/-- The rectangles of the C code for the combined data, in terms of the original data. -/
theorem diff_rects (hnx : lx ≠ []) (hny : ly ≠ []) (hcx : lx.toFinset.card = s) (hcy : ly.toFinset.card = s) (hox : IsOrder lx ox) (hoy : IsOrder ly oy)
    (hx : EafSortedX (diffData maximise dx dy lx ox oy) (lx.length + ly.length) sx) (hy : EafSortedY (diffData maximise dx dy lx ox oy) (lx.length + ly.length) sy)
    (hf : 2 * (lx.length + ly.length) < fuel) (hsize : lx.length + ly.length ≤ 1073741823) (V : EafEnv K) (hV : GrowOk V) (mx : K)
    (hmx : ∀ p < lx.length + ly.length, ∀ d < 2, diffData maximise dx dy lx ox oy p d < mx) (intervals : ℕ) :
    ∃ rows, eafdiffComputeRectangles (K := K) V mx (diffData maximise dx dy lx ox oy) (diffCum lx ly) (nSets lx + nSets ly) intervals sx sy fuel = some rows ∧
      ∀ rows' : List (List K), rows'.Nodup → (∀ r, r ∈ rows' ↔ r ∈ rows.map rectRow) →
        IsRectTable maximise mx dx lx dy ly intervals (rows'.map (untransformRow (fun d => maximise (d % 2)) 4)) := by
  obtain ⟨rx, rx0, rxl⟩ := ordered_facts hnx hox
  obtain ⟨ry, ry0, ryl⟩ := ordered_facts hny hoy
  obtain ⟨c1, c2, c3⟩ := catCum_runsOk rx rx0 ry ry0
  rw [rxl, ryl] at c3
  have hsx : nSets lx = s := by rw [nSets_eq_card, hcx]
  have hsy : nSets ly = s := by rw [nSets_eq_card, hcy]
  have hs1 : 1 ≤ s := by rw [← hsx]; exact nSets_pos hnx
  have c3' : diffCum lx ly (2 * s - 1) = lx.length + ly.length := by
    rw [show 2 * s = nSets lx + nSets ly by omega]; exact c3
  have c1' : RunsOk (diffCum lx ly) (2 * s) := by
    rw [show 2 * s = nSets lx + nSets ly by omega]; exact c1
  obtain ⟨rows, h1, h2, h3, -, h5⟩ := C43_rectangles (K := K) hs1 c1' c2 (sx := sx) (sy := sy) (fuel := fuel) (by rw [c3']; exact hx) (by rw [c3']; exact hy) (by rw [c3']; exact hf)
    (by rw [c3']; exact hsize) V hV mx (by rw [c3']; exact hmx) intervals
  have hcount : ∀ z : ℕ → K, attainCount (diffData maximise dx dy lx ox oy) (diffCum lx ly) (2 * s) 2 (vec2 (negVec maximise z 0) (negVec maximise z 1)) =
        pairCount maximise dx lx dy ly 2 z ∧
      attainedBetween (diffData maximise dx dy lx ox oy) (diffCum lx ly) 0 s (negVec maximise z 0) (negVec maximise z 1) = labelCount maximise dx lx 2 z ∧
      attainedBetween (diffData maximise dx dy lx ox oy) (diffCum lx ly) s (2 * s) (negVec maximise z 0) (negVec maximise z 1) = labelCount maximise dy ly 2 z := by
    intro z
    have hz : ∀ d < 2, negVec maximise (vec2 (negVec maximise z 0) (negVec maximise z 1)) d = z d := by
      intro d hd
      rcases (by omega : d = 0 ∨ d = 1) with rfl | rfl
      · by_cases h : maximise 0 <;> simp [negVec, vec2, h]
      · by_cases h : maximise 1 <;> simp [negVec, vec2, h]
    obtain ⟨e1, e2, e3⟩ := diff_counts (m := maximise) (dx := dx) (dy := dy) hnx hox hoy (negVec maximise z 0) (negVec maximise z 1)
    rw [hsx] at e1 e2 e3
    rw [hsy] at e2 e3
    rw [show 2 * s = s + s by omega, e1, e2, e3, labelCount_congr maximise dx lx 2 hz, labelCount_congr maximise dy ly 2 hz, pairCount_congr hz]
    exact ⟨rfl, rfl, rfl⟩
  have hall : ∀ z : ℕ → K, ∀ row ∈ rows, row.1.Has (negVec maximise z 0) (negVec maximise z 1) → (∀ d < 2, (if maximise d then -z d else z d) < mx) ∧
      1 ≤ pairCount maximise dx lx dy ly 2 z ∧ pairCount maximise dx lx dy ly 2 z < 2 * s := by
    intro z row hrow hh
    have hpos : 0 < rectCount (rows.map Prod.fst) (negVec maximise z 0) (negVec maximise z 1) := by
      unfold rectCount
      rw [List.countP_pos_iff]
      exact ⟨row.1, List.mem_map.2 ⟨row, hrow, rfl⟩, by simpa using hh⟩
    rw [h3, (hcount z).1] at hpos
    split_ifs at hpos with hc
    · refine ⟨fun d hd => ?_, hc.2.2.1, hc.2.2.2⟩
      rcases (by omega : d = 0 ∨ d = 1) with rfl | rfl
      · exact hc.1
      · exact hc.2.1
    · simp at hpos
  refine ⟨rows, by rw [show nSets lx + nSets ly = 2 * s by omega]; exact h1, fun rows' hnd hmem => ⟨hnd.map (untransformRow_injective _ _), ?_, ?_, ?_⟩⟩
  · intro row hrow
    obtain ⟨r', hr', rfl⟩ := List.mem_map.1 hrow
    obtain ⟨r, hr, rfl⟩ := List.mem_map.1 ((hmem r').1 hr')
    have hh : InBox maximise (untransformRow (fun d => maximise (d % 2)) 4 (rectRow r)) (negVec maximise (vec2 r.1.lx r.1.ly)) := by
      rw [inBox_untransform]
      have e := negVec_negVec (m := maximise) (vec2 r.1.lx r.1.ly)
      rw [e]
      have := h2 r hr
      exact ⟨le_rfl, this.1, le_rfl, this.2⟩
    obtain ⟨a, b, c, d, v, he, g1, g2, g3, g4⟩ := hh
    refine ⟨a, b, c, d, v, he, ?_, ?_⟩
    · intro h
      apply g3
      cases hm : maximise 0 <;> simp only [hm, AsGood] at h g1 ⊢
      · exact le_trans h g1
      · exact le_trans g1 h
    · intro h
      apply g4
      cases hm : maximise 1 <;> simp only [hm, AsGood] at h g2 ⊢
      · exact le_trans h g2
      · exact le_trans g2 h
  · intro z hz hz1 hz2
    rw [hcx, hcy] at hz2
    have hone := h3 (negVec maximise z 0) (negVec maximise z 1)
    rw [(hcount z).1, if_pos ⟨hz 0 (by omega), hz 1 (by omega), hz1, by omega⟩] at hone
    unfold rectCount at hone
    rw [List.countP_map] at hone
    obtain ⟨r, g1, g2, g3⟩ := countP_one hone
    refine ⟨untransformRow (fun d => maximise (d % 2)) 4 (rectRow r), ⟨List.mem_map.2 ⟨_, (hmem _).2 (List.mem_map.2 ⟨r, g1, rfl⟩), rfl⟩, (inBox_untransform r z).2 (by simpa using g2)⟩, ?_⟩
    rintro row ⟨hm, hb⟩
    obtain ⟨r', hr', rfl⟩ := List.mem_map.1 hm
    obtain ⟨q, hq, rfl⟩ := List.mem_map.1 ((hmem r').1 hr')
    rw [inBox_untransform] at hb
    rw [g3 q hq (by simpa using hb)]
  · intro z row hm hb
    obtain ⟨r', hr', rfl⟩ := List.mem_map.1 hm
    obtain ⟨q, hq, rfl⟩ := List.mem_map.1 ((hmem r').1 hr')
    rw [inBox_untransform] at hb
    obtain ⟨k1, k2, k3⟩ := hall z q hq hb
    refine ⟨k1, k2, by rw [hcx, hcy]; omega, ?_⟩
    have hv := (h5 q hq _ _ hb).2
    rw [(hcount z).2.1, (hcount z).2.2] at hv
    have : (untransformRow (fun d => maximise (d % 2)) 4 (rectRow q))[4]? = some q.2 := by simp [untransformRow, rectRow]
    rw [this, hv]
    unfold eafDifference
    rw [hcx, hcy]

theorem diffIntervals_eq (hcx : lx.toFinset.card = s) (hcy : ly.toFinset.card = s) (given : Option ℕ) : diffIntervals given (nSets lx + nSets ly) = min (given.getD s) s := by
  rw [nSets_eq_card, nSets_eq_card, hcx, hcy]
  unfold diffIntervals
  have : (s + s) / 2 = s := by omega
  cases given <;> simp [this]

theorem rUndo_rDropRows (signs : ℕ → Bool) (anyMax : Bool) (n : ℕ) (h : anyMax = false → ∀ i < n, signs i = false) (rows : List (List K)) :
    rUndo anyMax signs n (rDropRows rows) =
      match (notDuplicated [] rows).map (untransformRow signs n) with
      | [r] => if anyMax then none else some (RValue.vector r)
      | rs => some (RValue.matrix rs) := by
  unfold rUndo rDropRows
  have hid : ∀ r : List K, anyMax = false → untransformRow signs n r = r := by
    intro r hm
    unfold untransformRow
    apply List.ext_getElem
    · simp
    · intro i h1 h2
      rw [List.getElem_mapIdx, if_neg]
      rintro ⟨ha, hb⟩
      rw [h hm i ha] at hb
      exact absurd hb (by decide)
  cases hm : anyMax
  · rw [if_neg (by decide)]
    have hmap : (notDuplicated [] rows).map (untransformRow signs n) = notDuplicated [] rows := by
      conv_rhs => rw [← List.map_id (notDuplicated [] rows)]
      exact List.map_congr_left (fun r _ => hid r hm)
    rw [hmap]
    rcases notDuplicated [] rows with _ | ⟨a, _ | ⟨b, l⟩⟩
    · rfl
    · rfl
    · rfl
  · rw [if_pos rfl]
    rcases notDuplicated [] rows with _ | ⟨a, _ | ⟨b, l⟩⟩
    · rfl
    · rfl
    · rfl

/-! ## The functions -/

/-- **C61 (Python, points), partial**: for data sets with the same number of sets. -/
theorem C61_py_eafdiff_points_partial (hnx : lx ≠ []) (hny : ly ≠ []) (hcx : lx.toFinset.card = s) (hcy : ly.toFinset.card = s) (hox : IsOrder lx ox) (hoy : IsOrder ly oy)
    (hx : EafSortedX (diffData maximise dx dy lx ox oy) (lx.length + ly.length) sx) (hy : EafSortedY (diffData maximise dx dy lx ox oy) (lx.length + ly.length) sy)
    (hf : 2 * (lx.length + ly.length) < fuel) (hsize : lx.length + ly.length ≤ 1073741823) (V : EafEnv K) (hV : GrowOk V) (given : Option ℕ) :
    ∃ rows, pyEafdiffPoints V maximise dx dy lx ly given ox oy sx sy fuel = some rows ∧ IsDiffTable maximise dx lx dy ly (min (given.getD s) s) rows := by
  obtain ⟨rows, h1, h2⟩ := diff_rows hnx hny hcx hcy hox hoy hx hy hf hsize V hV (diffIntervals given (nSets lx + nSets ly))
  obtain ⟨u1, u2⟩ := uniqueNosort_spec rows
  refine ⟨_, ?_, by rw [← diffIntervals_eq hcx hcy given]; exact h2 _ u1 u2⟩
  unfold pyEafdiffPoints
  dsimp only
  rw [h1]
  rfl

/-- **C61 (R, points), partial**: for data sets with the same number of sets.  The result is the table, unless the table has just one row: then it is a vector, and an error if an objective is
maximised. -/
theorem C61_r_eafdiff_points_partial (hnx : lx ≠ []) (hny : ly ≠ []) (hcx : lx.toFinset.card = s) (hcy : ly.toFinset.card = s) (hox : IsOrder lx ox) (hoy : IsOrder ly oy)
    (hx : EafSortedX (diffData maximise dx dy lx ox oy) (lx.length + ly.length) sx) (hy : EafSortedY (diffData maximise dx dy lx ox oy) (lx.length + ly.length) sy)
    (hf : 2 * (lx.length + ly.length) < fuel) (hsize : lx.length + ly.length ≤ 1073741823) (V : EafEnv K) (hV : GrowOk V) (given : Option ℕ) :
    ∃ rows, IsDiffTable maximise dx lx dy ly (min (given.getD s) s) rows ∧
      (rows.length ≠ 1 → rEafdiffPoints V maximise dx dy lx ly given ox oy sx sy fuel = some (RValue.matrix rows)) ∧
      (∀ r, rows = [r] → rEafdiffPoints V maximise dx dy lx ly given ox oy sx sy fuel = if maximise 0 || maximise 1 then none else some (RValue.vector r)) := by
  obtain ⟨rows, h1, h2⟩ := diff_rows hnx hny hcx hcy hox hoy hx hy hf hsize V hV (diffIntervals given (nSets lx + nSets ly))
  obtain ⟨u1, u2⟩ := notDuplicated_spec rows []
  have he : rEafdiffPoints V maximise dx dy lx ly given ox oy sx sy fuel = rUndo (maximise 0 || maximise 1) maximise 2 (rDropRows rows) := by
    unfold rEafdiffPoints
    dsimp only
    rw [h1]
  rw [rUndo_rDropRows _ _ _ (by
    intro h i hi
    rw [Bool.or_eq_false_iff] at h
    rcases (by omega : i = 0 ∨ i = 1) with rfl | rfl
    · exact h.1
    · exact h.2)] at he
  refine ⟨(notDuplicated [] rows).map (untransformRow maximise 2), by rw [← diffIntervals_eq hcx hcy given]; exact h2 _ u1 (fun r => by rw [u2]; simp), ?_, ?_⟩
  · intro hl
    rw [he]
    generalize (notDuplicated [] rows).map (untransformRow maximise 2) = T at hl ⊢
    rcases T with _ | ⟨a, _ | ⟨b, l⟩⟩
    · rfl
    · exact absurd rfl hl
    · rfl
  · intro r hr
    rw [he, hr]

/-- **C61 (Python, rectangles), partial**: for data sets with the same number of sets; `mx` is infinity. -/
theorem C61_py_eafdiff_rectangles_partial (hnx : lx ≠ []) (hny : ly ≠ []) (hcx : lx.toFinset.card = s) (hcy : ly.toFinset.card = s) (hox : IsOrder lx ox) (hoy : IsOrder ly oy)
    (hx : EafSortedX (diffData maximise dx dy lx ox oy) (lx.length + ly.length) sx) (hy : EafSortedY (diffData maximise dx dy lx ox oy) (lx.length + ly.length) sy)
    (hf : 2 * (lx.length + ly.length) < fuel) (hsize : lx.length + ly.length ≤ 1073741823) (V : EafEnv K) (hV : GrowOk V) (mx : K)
    (hmx : ∀ p < lx.length + ly.length, ∀ d < 2, diffData maximise dx dy lx ox oy p d < mx) (given : Option ℕ) :
    ∃ rows, pyEafdiffRects V mx maximise dx dy lx ly given ox oy sx sy fuel = some rows ∧ IsRectTable maximise mx dx lx dy ly (min (given.getD s) s) rows := by
  obtain ⟨rows, h1, h2⟩ := diff_rects hnx hny hcx hcy hox hoy hx hy hf hsize V hV mx hmx (diffIntervals given (nSets lx + nSets ly))
  obtain ⟨u1, u2⟩ := uniqueNosort_spec (rows.map rectRow)
  refine ⟨_, ?_, by rw [← diffIntervals_eq hcx hcy given]; exact h2 _ u1 u2⟩
  unfold pyEafdiffRects
  dsimp only
  rw [h1]
  rfl

/-- **C61 (R, rectangles), partial**: for data sets with the same number of sets; a table with one row is a vector, and an error if an objective is maximised. -/
theorem C61_r_eafdiff_rectangles_partial (hnx : lx ≠ []) (hny : ly ≠ []) (hcx : lx.toFinset.card = s) (hcy : ly.toFinset.card = s) (hox : IsOrder lx ox) (hoy : IsOrder ly oy)
    (hx : EafSortedX (diffData maximise dx dy lx ox oy) (lx.length + ly.length) sx) (hy : EafSortedY (diffData maximise dx dy lx ox oy) (lx.length + ly.length) sy)
    (hf : 2 * (lx.length + ly.length) < fuel) (hsize : lx.length + ly.length ≤ 1073741823) (V : EafEnv K) (hV : GrowOk V) (mx : K)
    (hmx : ∀ p < lx.length + ly.length, ∀ d < 2, diffData maximise dx dy lx ox oy p d < mx) (given : Option ℕ) :
    ∃ rows, IsRectTable maximise mx dx lx dy ly (min (given.getD s) s) rows ∧
      (rows.length ≠ 1 → rEafdiffRects V mx maximise dx dy lx ly given ox oy sx sy fuel = some (RValue.matrix rows)) ∧
      (∀ r, rows = [r] → rEafdiffRects V mx maximise dx dy lx ly given ox oy sx sy fuel = if maximise 0 || maximise 1 then none else some (RValue.vector r)) := by
  obtain ⟨rows, h1, h2⟩ := diff_rects hnx hny hcx hcy hox hoy hx hy hf hsize V hV mx hmx (diffIntervals given (nSets lx + nSets ly))
  obtain ⟨u1, u2⟩ := notDuplicated_spec (rows.map rectRow) []
  have he : rEafdiffRects V mx maximise dx dy lx ly given ox oy sx sy fuel = rUndo (maximise 0 || maximise 1) (fun d => maximise (d % 2)) 4 (rDropRows (rows.map rectRow)) := by
    unfold rEafdiffRects
    dsimp only
    rw [h1]
  rw [rUndo_rDropRows _ _ _ (by
    intro h i hi
    rw [Bool.or_eq_false_iff] at h
    rcases (by omega : i % 2 = 0 ∨ i % 2 = 1) with e | e <;> rw [e]
    · exact h.1
    · exact h.2)] at he
  refine ⟨(notDuplicated [] (rows.map rectRow)).map (untransformRow (fun d => maximise (d % 2)) 4), by rw [← diffIntervals_eq hcx hcy given]; exact h2 _ u1 (fun r => by rw [u2]; simp), ?_, ?_⟩
  · intro hl
    rw [he]
    generalize (notDuplicated [] (rows.map rectRow)).map (untransformRow (fun d => maximise (d % 2)) 4) = T at hl ⊢
    rcases T with _ | ⟨a, _ | ⟨b, l⟩⟩
    · rfl
    · exact absurd rfl hl
    · rfl
  · intro r hr
    rw [he, hr]

end main

/-! ## Examples -/

/-- The second data set of the example: two sets of one point each. -/
def diffExY : ℕ → ℕ → ℚ := fun k d => ([[4, 2], [2, 6]].getD k []).getD d 0

theorem diffEx_sorted : EafSortedX (diffData (fun _ => false) labExPts diffExY labExLabels [2, 0, 1] [0, 1]) 5 [1, 4, 0, 3, 2] ∧
    EafSortedY (diffData (fun _ => false) labExPts diffExY labExLabels [2, 0, 1] [0, 1]) 5 [4, 1, 0, 3, 2] :=
  ⟨⟨by decide, by decide +kernel⟩, ⟨by decide, by decide +kernel⟩⟩

/-- Non-vacuity: the labels `2, 2, 1` and `1, 3`. -/
example : ∃ rows, pyEafdiffPoints labExEnv (fun _ => false) labExPts diffExY labExLabels [1, 3] none [2, 0, 1] [0, 1] [1, 4, 0, 3, 2] [4, 1, 0, 3, 2] 20 = some rows ∧
    IsDiffTable (fun _ => false) labExPts labExLabels diffExY [1, 3] 2 rows :=
  C61_py_eafdiff_points_partial (s := 2) (by decide) (by decide) (by decide) (by decide) labEx_order ⟨by decide, by decide⟩ diffEx_sorted.1 diffEx_sorted.2 (by decide) (by decide) labExEnv
    (fun _ _ => Nat.le_add_right _ _) none

example : pyEafdiffPoints labExEnv (fun _ => false) labExPts diffExY labExLabels [1, 3] none [2, 0, 1] [0, 1] [1, 4, 0, 3, 2] [4, 1, 0, 3, 2] 20 =
    some [[1, 5, 1], [3, 3, 1], [4, 2, -1], [5, 1, 1], [2, 6, 0], [3, 5, 2], [4, 3, 0], [5, 2, 0], [3, 6, 1], [4, 5, 1], [5, 3, 1], [4, 6, 0]] := by decide +kernel

/-- The same data with the first objective maximised: the rectangles. -/
example : ∃ rows, pyEafdiffRects labExEnv 100 (fun d => d == 0) labExPts diffExY labExLabels [1, 3] none [2, 0, 1] [0, 1] [2, 3, 0, 4, 1] [4, 1, 0, 3, 2] 20 = some rows ∧
    IsRectTable (fun d => d == 0) 100 labExPts labExLabels diffExY [1, 3] 2 rows :=
  C61_py_eafdiff_rectangles_partial (s := 2) (by decide) (by decide) (by decide) (by decide) labEx_order ⟨by decide, by decide⟩ ⟨by decide, by decide +kernel⟩ ⟨by decide, by decide +kernel⟩
    (by decide) (by decide) labExEnv (fun _ _ => Nat.le_add_right _ _) 100 (by decide +kernel) none

/-- With a maximised objective the column `xmin` holds the larger abscissa. -/
example : rEafdiffRects labExEnv 100 (fun d => d == 0) labExPts diffExY labExLabels [1, 3] none [2, 0, 1] [0, 1] [2, 3, 0, 4, 1] [4, 1, 0, 3, 2] 20 =
    some (RValue.matrix [[5, 2, 4, 100, 1], [5, 1, -100, 2, 1], [4, 3, 3, 100, 0], [4, 2, -100, 3, 0], [3, 6, 2, 100, 1], [3, 3, -100, 6, 1]]) := by decide +kernel

/-! ## Different numbers of sets; one row in R -/

/-- **C61 is false of the code for different numbers of sets**: three sets `{(1,1)}` against one set `{(2,2)}`.  At `(1,1)` the difference is 2 (all of the first data set, none of the second, two
intervals), but the result is 1: the third set is counted with the second data set. -/
theorem C61_false_unequal :
    EafSortedX (diffData (fun _ => false) (fun _ _ => (1 : ℚ)) (fun _ _ => 2) [(1 : ℤ), 2, 3] [0, 1, 2] [0]) 4 [0, 1, 2, 3] ∧
    EafSortedY (diffData (fun _ => false) (fun _ _ => (1 : ℚ)) (fun _ _ => 2) [(1 : ℤ), 2, 3] [0, 1, 2] [0]) 4 [3, 0, 1, 2] ∧
    pyEafdiffPoints labExEnv (fun _ => false) (fun _ _ => 1) (fun _ _ => 2) [(1 : ℤ), 2, 3] [1] none [0, 1, 2] [0] [0, 1, 2, 3] [3, 0, 1, 2] 20 = some [[1, 1, 1], [2, 2, 0]] ∧
    rEafdiffPoints labExEnv (fun _ => false) (fun _ _ => 1) (fun _ _ => 2) [(1 : ℤ), 2, 3] [1] none [0, 1, 2] [0] [0, 1, 2, 3] [3, 0, 1, 2] 20 = some (RValue.matrix [[1, 1, 1], [2, 2, 0]]) ∧
    eafDifference (fun _ => false) (fun _ _ => (1 : ℚ)) [(1 : ℤ), 2, 3] (fun _ _ => 2) [1] 2 2 (vec2 1 1) = 2 ∧
    ¬ IsDiffTable (fun _ => false) (fun _ _ => (1 : ℚ)) [(1 : ℤ), 2, 3] (fun _ _ => 2) [1] 2 [[1, 1, 1], [2, 2, 0]] := by
  have h1 : ∀ z : ℕ → ℚ, (∀ d < 2, 1 ≤ z d) → labelCount (fun _ => false) (fun _ _ => (1 : ℚ)) [(1 : ℤ), 2, 3] 2 z = 3 := by
    intro z hz
    classical
    unfold labelCount
    rw [Finset.filter_true_of_mem]
    · decide
    · intro u hu
      rw [List.mem_toFinset, List.mem_iff_getElem?] at hu
      obtain ⟨k, hk⟩ := hu
      exact ⟨k, hk, fun d hd => by simpa [AsGood] using hz d hd⟩
  have h2 : labelCount (fun _ => false) (fun _ _ => (2 : ℚ)) [(1 : ℤ)] 2 (vec2 1 1) = 0 := by
    classical
    unfold labelCount
    rw [Finset.card_eq_zero, Finset.filter_eq_empty_iff]
    rintro u - ⟨k, -, h⟩
    have := h 0 (by omega)
    simp [AsGood, vec2] at this
  have h3 : eafDifference (fun _ => false) (fun _ _ => (1 : ℚ)) [(1 : ℤ), 2, 3] (fun _ _ => 2) [1] 2 2 (vec2 1 1) = 2 := by
    unfold eafDifference
    rw [h1 _ (by intro d _; simp [vec2]), h2, show ([(1 : ℤ), 2, 3].toFinset.card) = 3 by decide]
    norm_num
  refine ⟨⟨by decide, by decide +kernel⟩, ⟨by decide, by decide +kernel⟩, by decide +kernel, by decide +kernel, h3, fun h => ?_⟩
  have hm := (h.2 [1, 1, 2]).2 ⟨1, vec2 1 1, le_rfl, by decide, ⟨?_, ?_⟩, by rw [h3]; simp [vec2]⟩
  · simp at hm
  · unfold pairCount
    rw [h1 _ (by intro d _; simp [vec2])]
    omega
  · intro w hw hle d hd
    have hle' : ∀ d < 2, w d ≤ 1 := by
      intro d hd
      have := hle d hd
      rcases (by omega : d = 0 ∨ d = 1) with rfl | rfl <;> simpa [AsGood, vec2] using this
    have hatt : ∀ d < 2, 1 ≤ w d := by
      by_contra hc
      push Not at hc
      obtain ⟨d, hd, hlt⟩ := hc
      have e1 : labelCount (fun _ => false) (fun _ _ => (1 : ℚ)) [(1 : ℤ), 2, 3] 2 w = 0 := by
        classical
        unfold labelCount
        rw [Finset.card_eq_zero, Finset.filter_eq_empty_iff]
        rintro u - ⟨k, -, h⟩
        have := h d hd
        simp only [AsGood, Bool.false_eq_true, if_false] at this
        linarith
      have e2 : labelCount (fun _ => false) (fun _ _ => (2 : ℚ)) [(1 : ℤ)] 2 w = 0 := by
        classical
        unfold labelCount
        rw [Finset.card_eq_zero, Finset.filter_eq_empty_iff]
        rintro u - ⟨k, -, h⟩
        have := h d hd
        simp only [AsGood, Bool.false_eq_true, if_false] at this
        linarith
      unfold pairCount at hw
      omega
    rcases (by omega : d = 0 ∨ d = 1) with rfl | rfl
    · simpa [vec2] using le_antisymm (hle' 0 hd) (hatt 0 hd)
    · simpa [vec2] using le_antisymm (hle' 1 hd) (hatt 1 hd)

/-- **C61 is false of R for a table of one row**: the sets `{(1,1)}` and `{(1,2)}` have just one rectangle.  The result is a vector; with a maximised objective the call is an error. -/
theorem C61_r_false_single_row :
    rEafdiffRects labExEnv 100 (fun _ => false) (fun _ _ => 1) (fun _ d => (d : ℚ) + 1) [(1 : ℤ)] [1] none [0] [0] [0, 1] [1, 0] 20 = some (RValue.vector [1, 1, 100, 2, 1]) ∧
    rEafdiffRects labExEnv 100 (fun d => d == 0) (fun _ _ => 1) (fun _ d => (d : ℚ) + 1) [(1 : ℤ)] [1] none [0] [0] [0, 1] [1, 0] 20 = none ∧
    pyEafdiffRects labExEnv 100 (fun d => d == 0) (fun _ _ => 1) (fun _ d => (d : ℚ) + 1) [(1 : ℤ)] [1] none [0] [0] [0, 1] [1, 0] 20 = some [[1, 1, -100, 2, 1]] := by
  refine ⟨by decide +kernel, by decide +kernel, by decide +kernel⟩

end Moo
