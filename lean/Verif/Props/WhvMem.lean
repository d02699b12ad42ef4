import Verif.Lemmas.WhvMem
import Verif.Props.Whv
import Verif.Props.WhvHype

set_option autoImplicit false
set_option linter.unusedSectionVars false

/-!
# Memory safety of `normalise`, `whv_rect` and `whv_hype`, for arbitrary doubles

As in `NdMem.lean`: `flatPts x dim size` is the row-major block of `dim * size` doubles that the caller passes, `cells f n` is a block of `n` cells all of
which hold a value.  The operations `o` on doubles, comparisons and arithmetic, are arbitrary, so the theorems hold whatever the doubles are, NaN included.  The
only thing assumed of `qsort` is that it permutes the rows of its array.
-/

namespace Moo

section
variable {F : Type} (o : FOps F)

/-! ## Safety -/

/-- **C114.** `normalise` accesses memory correctly and replaces each element by the same formula, whatever the doubles are: a new value depends on the old value, on the
bounds of its objective and on the range only. -/
theorem C114_normalise (x : ℕ → ℕ → F) (dim size : ℕ) (mm : ℕ → ℤ) (agree : ℤ) (lo hi : F) (l u : ℕ → F) :
    normaliseM o (flatPts x dim size) dim size (cells mm dim) agree lo hi (cells l dim) (cells u dim) =
      .ok (flatPts (fun k d =>
        let diff := if o.eq (o.sub (u d) (l d)) o.zero then o.one else o.sub (u d) (l d)
        if (agree > 0 ∧ mm d < 0) ∨ (agree < 0 ∧ mm d > 0) then o.add lo (o.div (o.mul (o.sub hi lo) (o.add (u d) (x k d))) diff)
        else o.add lo (o.div (o.mul (o.sub hi lo) (o.sub (x k d) (l d))) diff)) dim size) :=
  normaliseM_ok o x dim size mm agree lo hi l u

/-- **C114.** `agree_normalise`, which is what Python's `normalise` calls: maximised objectives are negated first. -/
theorem C114_agree_normalise (x : ℕ → ℕ → F) (dim size : ℕ) (mx : ℕ → Bool) (lo hi : F) (l u : ℕ → F) :
    agreeNormaliseM o (flatPts x dim size) dim size (cells mx dim) lo hi (cells l dim) (cells u dim) =
      .ok (flatPts (fun k d =>
        let diff := if o.eq (o.sub (u d) (l d)) o.zero then o.one else o.sub (u d) (l d)
        if mx d then o.add lo (o.div (o.mul (o.sub hi lo) (o.add (u d) (o.neg (x k d)))) diff)
        else o.add lo (o.div (o.mul (o.sub hi lo) (o.sub (x k d) (l d))) diff)) dim size) := by
  unfold agreeNormaliseM
  rw [minmaxFromBoolM_ok]
  simp only [bind, Except.bind]
  rw [agreeObjectivesM_flat o _ _ _ List.nodup_range (fun d hd => List.mem_range.1 hd)]
  simp only
  rw [normaliseM_ok]
  congr 1
  apply flat_congr
  intro k _ d hd
  cases hm : mx d <;> simp [normElem, normDiffR, hd, hm, minmaxFromBool, AGREE_MINIMISE, AGREE_MAXIMISE]

/-- **C114.** `rect_weighted_hv2d` never reads or writes outside of a block and never reads a cell that was not written, whatever the doubles are and whatever order
`qsort` leaves: it returns a value or fails an assertion. -/
theorem C114_whv_rect_safe (lowest : F) (sortD sortR : Blk F → List ℕ) (x : ℕ → ℕ → F) (n : ℕ) (R : ℕ → ℕ → F) (nrow : ℕ) (ref : ℕ → F)
    (hD : ∀ b, (sortD b).Perm (List.range n)) (hR : ∀ b : Blk F, (sortR b).Perm (List.range (b.length / 5))) :
    (∃ v, rectWeightedHv2dM o lowest sortD sortR (flatPts x 2 n) n (flatPts R 5 nrow) nrow (cells ref 2) = .ok v) ∨
      rectWeightedHv2dM o lowest sortD sortR (flatPts x 2 n) n (flatPts R 5 nrow) nrow (cells ref 2) = .error .assertion := by
  rw [rectWeightedHv2dM_ok o lowest sortD sortR x n R nrow ref hD hR]
  cases rectWeightedR o lowest sortD sortR x n R nrow ref with
  | none => exact Or.inr rfl
  | some v => exact Or.inl ⟨v, rfl⟩

/-- **C114.** The preprocessing of the rectangles yields, in their order, the rectangles that are not empty after their corners have been replaced by the
minimum with the reference point, and their number. -/
theorem C114_preprocess (ref : ℕ → F) (R : ℕ → ℕ → F) (nrow : ℕ) :
    whvPreprocessM o (flatPts R 5 nrow) nrow (cells ref 2) =
      let clipped := fun k c => if c < 4 then o.min (R k c) (ref (c % 2)) else R k c
      let kept := (List.range nrow).filter fun k => !(o.eq (clipped k 0) (clipped k 2) || o.eq (clipped k 1) (clipped k 3))
      .ok (flatPts (fun j => clipped (kept.getD j 0)) 5 kept.length, kept.length) :=
  whvPreprocessM_ok o ref R nrow

/-- The number of the given points that are not worse than the sample, as decided by `sample[d] < p[d]`. -/
def dominators (x : ℕ → ℕ → F) (n : ℕ) (s : ℕ → F) : ℕ := ((List.range n).filter fun j => !(o.lt (s 0) (x j 0)) && !(o.lt (s 1) (x j 1))).length

/-- **C114.** `estimate_whv` accesses memory correctly and its assertion never fails, whatever the doubles are: for each sample it adds `1 / c` to the sum `c` times,
where `c` is the number of points that dominate the sample. -/
theorem C114_estimate_whv (x : ℕ → ℕ → F) (n : ℕ) (S : ℕ → ℕ → F) (ns : ℕ) :
    estimateWhvM o (flatPts x 2 n) n (flatPts S 2 ns) ns =
      .ok ((List.range ns).foldl (fun w s => (fun w => o.add w (o.div o.one (o.ofNat (dominators o x n (S s)))))^[dominators o x n (S s)] w) o.zero) := by
  rw [estimateWhvM_ok]
  congr 2
  funext w s
  unfold hypeTerm
  have : ∀ (l : List ℕ) (c w : F), l.foldl (fun w _ => o.add w c) w = (fun w => o.add w c)^[l.length] w := by
    intro l c
    induction l with
    | nil => intro w; rfl
    | cons a l ih => intro w; rw [List.foldl_cons, ih, List.length_cons, Function.iterate_succ_apply]
  rw [this]
  rfl

theorem volumeM_cells (p q : ℕ → F) (n : ℕ) : ∀ (ks : List ℕ) (v : F), (∀ k ∈ ks, k < n) →
    volumeM o (cells p n) (cells q n) ks v = .ok (ks.foldl (fun v k => o.mul v (o.sub (q k) (p k))) v) := by
  intro ks
  induction ks with
  | nil => intro v _; rfl
  | cons k ks ih =>
    intro v h
    unfold volumeM
    rw [ld_cells (h k (by simp)), ld_cells (h k (by simp))]
    simp only [bind, Except.bind]
    rw [ih _ (fun y hy => h y (by simp [hy]))]
    rfl

/-- `whv_hype` on rows. -/
theorem whvHypeSampleM_ok (x : ℕ → ℕ → F) (n : ℕ) (ideal ref : ℕ → F) (S : ℕ → ℕ → F) (ns : ℕ) :
    whvHypeSampleM o (flatPts x 2 n) n (cells ideal 2) (cells ref 2) (flatPts S 2 ns) ns =
      .ok (o.mul ((List.range ns).foldl (fun w s => hypeTerm o (fun k d => normElem o (-1) (-1) o.zero o.one (ideal d) (ref d) (x k d)) n w (S s)) o.zero)
        (o.div (o.mul (o.mul o.one (o.sub (ref 0) (ideal 0))) (o.sub (ref 1) (ideal 1))) (o.ofNat ns))) := by
  unfold whvHypeSampleM
  rw [fillM_alloc]
  simp only [bind, Except.bind]
  have hcp : cpBlk (allocBlk (2 * n)) (flatPts x 2 n) (2 * n) = .ok (flatPts x 2 n) := by
    rw [allocBlk_eq]
    exact cpBlk_blk _ _ _
  rw [hcp]
  simp only
  rw [normaliseM_ok]
  simp only
  rw [estimateWhvM_ok]
  simp only
  rw [volumeM_cells o ideal ref 2 _ _ (fun k hk => List.mem_range.1 hk)]
  rfl

/-- **C114.** `whv_hype` with given samples: no error, whatever the doubles are. -/
theorem C114_whv_hype_safe (x : ℕ → ℕ → F) (n : ℕ) (ideal ref : ℕ → F) (S : ℕ → ℕ → F) (ns : ℕ) :
    ∃ v, whvHypeSampleM o (flatPts x 2 n) n (cells ideal 2) (cells ref 2) (flatPts S 2 ns) ns = .ok v :=
  ⟨_, whvHypeSampleM_ok o x n ideal ref S ns⟩

end

/-! ## Without NaN, in exact arithmetic: the same results as before -/

section
variable {K : Type} [Field K] [LinearOrder K]

/-- Exact arithmetic in an ordered field. -/
def fieldOps (K : Type) [Field K] [LinearOrder K] : FOps K where
  toFCmp := ordCmp K
  add := (· + ·)
  sub := (· - ·)
  mul := (· * ·)
  div := (· / ·)
  neg := Neg.neg
  zero := 0
  one := 1
  ofNat n := (n : K)

/-- A row of five numbers as a rectangle. -/
def rowRect (q : ℕ → K) : WRect K := ⟨q 0, q 1, q 2, q 3, q 4⟩

theorem fieldOps_min (a b : K) : (fieldOps K).min a b = min a b := by
  unfold FOps.min fieldOps ordCmp
  simp only [decide_eq_true_eq]
  split_ifs with h
  · rw [min_eq_left h.le]
  · rw [min_eq_right (not_lt.1 h)]

theorem fieldOps_max (a b : K) : (fieldOps K).max a b = max a b := by
  unfold FOps.max fieldOps ordCmp
  simp only [decide_eq_true_eq]
  split_ifs with h
  · rw [max_eq_left h.le]
  · rw [max_eq_right (not_lt.1 h)]

theorem rectOkR_field (q : ℕ → K) : rectOkR (fieldOps K) q = decide (rowRect q).Ok := by
  unfold rectOkR WRect.Ok rowRect fieldOps ordCmp
  rw [Bool.eq_iff_iff]
  simp [and_assoc]
  exact decide_eq_true_iff.symm

theorem whvInnerR_field (R : ℕ → ℕ → K) (p0 p1 top : K) : ∀ (rs : List ℕ) (first : Bool) (acc : K),
    whvInnerR (fieldOps K) R p0 p1 top first rs acc = whvInner p0 p1 top first (rs.map fun r => rowRect (R r)) acc := by
  intro rs
  induction rs with
  | nil => intro first acc; rfl
  | cons r rs ih =>
    intro first acc
    unfold whvInnerR
    rw [List.map_cons]
    unfold whvInner
    rw [rectOkR_field]
    simp only [fieldOps_min, fieldOps_max, ih]
    by_cases h1 : (rowRect (R r)).Ok
    · have e1 : (fieldOps K).lt p1 (R r 3) = decide (p1 < R r 3) := rfl
      have e2 : (fieldOps K).lt p0 (R r 2) = decide (p0 < R r 2) := rfl
      have e3 : (fieldOps K).lt (R r 1) top = decide (R r 1 < top) := rfl
      have e4 : (fieldOps K).lt p1 top = decide (p1 < top) := rfl
      rw [e1, e2, e3, e4]
      have g0 : (rowRect (R r)).u1 = R r 3 := rfl
      have g1 : (rowRect (R r)).u0 = R r 2 := rfl
      have g2 : (rowRect (R r)).l1 = R r 1 := rfl
      rw [g0, g1, g2]
      by_cases a : p1 < R r 3 <;> by_cases b : p0 < R r 2 <;> by_cases c : R r 1 < top <;> by_cases d : p1 < top <;> cases first <;>
        simp [h1, a, b, c, d] <;> rfl
    · simp [h1]

theorem whvGoR_field (x : ℕ → ℕ → K) (f : ℕ → ℕ) (R : ℕ → ℕ → K) (nrow : ℕ) (u1 lastTop lastRight : K) : ∀ (ps : List ℕ) (again : Bool) (top acc : K),
    whvGoR (fieldOps K) (fun j => x (f j)) R nrow u1 lastTop lastRight again top ps acc =
      whvGo x ((List.range nrow).map fun r => rowRect (R r)) u1 lastTop lastRight again top (ps.map f) acc := by
  intro ps
  induction ps with
  | nil => intro again top acc; rfl
  | cons p ps ih =>
    intro again top acc
    unfold whvGoR
    rw [List.map_cons]
    unfold whvGo
    have e1 : (fieldOps K).eq top (x (f p) 1) = decide (top = x (f p) 1) := rfl
    have e2 : (fieldOps K).le u1 (x (f p) 1) = decide (u1 ≤ x (f p) 1) := rfl
    have e3 : (fieldOps K).eq (x (f p) 1) lastTop = decide (x (f p) 1 = lastTop) := rfl
    have e4 : (fieldOps K).le lastRight (x (f p) 0) = decide (lastRight ≤ x (f p) 0) := rfl
    have e5 : (fieldOps K).lt (x (f p) 1) u1 = decide (x (f p) 1 < u1) := rfl
    simp only [e1, e2, e3, e4, e5, ih, whvInnerR_field, Bool.and_eq_true, Bool.or_eq_true, decide_eq_true_eq, Bool.not_eq_true', decide_eq_false_iff_not, ge_iff_le,
      and_assoc]
    cases whvInner (x (f p) 0) (x (f p) 1) top true ((List.range nrow).map fun r => rowRect (R r)) acc <;> rfl

theorem whvFirstR_field (x : ℕ → ℕ → K) (f : ℕ → ℕ) (R : ℕ → ℕ → K) (nrow : ℕ) (u1 lastTop lastRight : K) : ∀ (ps : List ℕ) (top : K),
    whvFirstR (fieldOps K) (fun j => x (f j)) R nrow u1 lastTop lastRight top ps =
      whvFirst x ((List.range nrow).map fun r => rowRect (R r)) u1 lastTop lastRight top (ps.map f) := by
  intro ps
  induction ps with
  | nil => intro top; rfl
  | cons p ps ih =>
    intro top
    unfold whvFirstR
    rw [whvGoR_field, List.map_cons]
    unfold whvFirst
    have e2 : (fieldOps K).le u1 (x (f p) 1) = decide (u1 ≤ x (f p) 1) := rfl
    have e3 : (fieldOps K).eq (x (f p) 1) lastTop = decide (x (f p) 1 = lastTop) := rfl
    have e4 : (fieldOps K).le lastRight (x (f p) 0) = decide (lastRight ≤ x (f p) 0) := rfl
    simp only [e2, e3, e4, ih, Bool.or_eq_true, decide_eq_true_eq, ge_iff_le]
    rfl

theorem clipR_field (ref q : ℕ → K) : rowRect (clipR (fieldOps K) ref q) = (rowRect q).clip ref := by
  simp [rowRect, clipR, WRect.clip, fieldOps_min]

theorem emptyR_field (q : ℕ → K) : emptyR (fieldOps K) q = (rowRect q).isEmpty := by
  rw [Bool.eq_iff_iff]
  simp [emptyR, WRect.isEmpty, rowRect, fieldOps, ordCmp]
  exact decide_eq_true_iff.symm

theorem whvPreprocess_rows (ref : ℕ → K) (R : ℕ → ℕ → K) (nrow : ℕ) :
    whvPreprocess ((List.range nrow).map fun k => rowRect (R k)) ref =
      (fullRows (fieldOps K) ref R nrow).map fun k => rowRect (clipR (fieldOps K) ref (R k)) := by
  rw [whvPreprocess_eq, List.map_map, List.filter_map]
  unfold fullRows
  simp only [emptyR_field, clipR_field]
  rfl

theorem map_perm_getD {β : Type} (f : ℕ → β) {perm : List ℕ} {n : ℕ} (hp : perm.Perm (List.range n)) :
    ((List.range n).map fun j => f (perm.getD j 0)) = perm.map f := by
  have hl : perm.length = n := by rw [hp.length_eq, List.length_range]
  apply List.ext_getElem
  · simp [hl]
  · intro i h1 h2
    simp only [List.length_map] at h2
    simp [List.getElem?_eq_getElem h2]

theorem whvSortedR_field (lowest : K) (sortD sortR : Blk K → List ℕ) (x : ℕ → ℕ → K) (n : ℕ) (C : ℕ → ℕ → K) (m : ℕ) (hm : 0 < m)
    (hD : (sortD (flatPts x 2 n)).Perm (List.range n)) (hp : (sortR (flatPts C 5 m)).Perm (List.range m)) (hlow : ∀ j, lowest ≤ C j 2) :
    whvSortedR (fieldOps K) lowest sortD sortR x n C m =
      match (sortR (flatPts C 5 m)).map fun k => rowRect (C k) with
      | [] => none
      | r :: rs' =>
        if ¬ r.Ok then none
        else whvFirst x (r :: rs') r.u1 (((r :: rs').getLastD r).u1) (rs'.foldl (fun m q => max m q.u0) r.u0) r.u1 (sortD (flatPts x 2 n)) := by
  unfold whvSortedR whvSweepR
  rw [← map_perm_getD (fun k => rowRect (C k)) hp]
  generalize (sortR (flatPts C 5 m)) = perm at *
  obtain ⟨m', rfl⟩ : ∃ m', m = m' + 1 := ⟨m - 1, by omega⟩
  have hcons : ((List.range (m' + 1)).map fun j => rowRect (C (perm.getD j 0))) =
      rowRect (C (perm.getD 0 0)) :: (List.range m').map fun j => rowRect (C (perm.getD (j + 1) 0)) := by
    rw [List.range_succ_eq_map, List.map_cons, List.map_map]
    rfl
  rw [hcons]
  simp only [rectOkR_field]
  by_cases h2 : (rowRect (C (perm.getD 0 0))).Ok
  · rw [if_neg (by simpa using h2), if_neg (by simpa using h2), whvFirstR_field x (fun j => (sortD (flatPts x 2 n)).getD j 0), hcons]
    have hmap : ((List.range n).map fun j => (sortD (flatPts x 2 n)).getD j 0) = sortD (flatPts x 2 n) := by
      have := map_perm_getD (fun k => k) hD
      rwa [List.map_id'] at this
    rw [hmap]
    have hlast : (((rowRect (C (perm.getD 0 0)) :: (List.range m').map fun j => rowRect (C (perm.getD (j + 1) 0))).getLastD
        (rowRect (C (perm.getD 0 0)))).u1) = C (perm.getD (m' + 1 - 1) 0) 3 := by
      rw [← hcons, List.range_succ, List.map_append]
      simp [rowRect]
    have hright : ((List.range (m' + 1)).foldl (fun a r => (fieldOps K).max a (C (perm.getD r 0) 2)) lowest) =
        ((List.range m').map fun j => rowRect (C (perm.getD (j + 1) 0))).foldl (fun m q => max m q.u0) (rowRect (C (perm.getD 0 0))).u0 := by
      simp only [fieldOps_max]
      rw [List.range_succ_eq_map, List.foldl_cons, max_eq_right (hlow _), List.foldl_map, List.foldl_map]
      rfl
    rw [hlast, hright]
    rfl
  · rw [if_pos (by simpa using h2), if_pos (by simpa using h2)]

/-- **C114.** Without NaN and in exact arithmetic, `rect_weighted_hv2d` in memory computes what `rectWeightedHv2d` of C34 computes, including which assertions
fail. `lowest` is `-DBL_MAX`. -/
theorem C114_same_whv_rect (lowest : K) (sortD sortR : Blk K → List ℕ) (x : ℕ → ℕ → K) (n : ℕ) (R : ℕ → ℕ → K) (nrow : ℕ) (ref : ℕ → K)
    (hD : ∀ b, (sortD b).Perm (List.range n)) (hR : ∀ b : Blk K, (sortR b).Perm (List.range (b.length / 5)))
    (hlow : ∀ k < nrow, lowest ≤ R k 2 ∧ lowest ≤ ref 0) :
    ∃ rs, rs.Perm (whvPreprocess ((List.range nrow).map fun k => rowRect (R k)) ref) ∧
      (∀ b m, whvPreprocessM (fieldOps K) (flatPts R 5 nrow) nrow (cells ref 2) = .ok (b, m) →
        rs = (sortR b).map fun k => (whvPreprocess ((List.range nrow).map fun k => rowRect (R k)) ref).getD k ⟨0, 0, 0, 0, 0⟩) ∧
      rectWeightedHv2dM (fieldOps K) lowest sortD sortR (flatPts x 2 n) n (flatPts R 5 nrow) nrow (cells ref 2) =
        match rectWeightedHv2d x n ((List.range nrow).map fun k => rowRect (R k)) ref (sortD (flatPts x 2 n)) rs with
        | some v => .ok v
        | none => .error .assertion := by
  set C : ℕ → ℕ → K := fun j => clipR (fieldOps K) ref (R ((fullRows (fieldOps K) ref R nrow).getD j 0)) with hC
  set m := (fullRows (fieldOps K) ref R nrow).length with hm
  have hlen : (flatPts C 5 m).length / 5 = m := by
    unfold flatPts cells
    rw [length_blk]
    omega
  have hp := hR (flatPts C 5 m)
  rw [hlen] at hp
  have hpre : whvPreprocess ((List.range nrow).map fun k => rowRect (R k)) ref = (List.range m).map fun j => rowRect (C j) := by
    rw [whvPreprocess_rows]
    apply List.ext_getElem
    · simp [hm]
    · intro i h1 h2
      simp only [List.length_map, List.length_range] at h2
      simp [hC, List.getElem?_eq_getElem (show i < (fullRows (fieldOps K) ref R nrow).length from h2)]
  refine ⟨(sortR (flatPts C 5 m)).map fun k => rowRect (C k), ?_, ?_, ?_⟩
  · rw [hpre]
    exact hp.map _
  · intro b m' he
    rw [whvPreprocessM_ok] at he
    injection he with he
    obtain ⟨rfl, rfl⟩ := Prod.mk.inj he
    apply List.map_congr_left
    intro k hk
    have : k < m := List.mem_range.1 (hp.mem_iff.1 hk)
    rw [hpre, List.getD_eq_getElem _ _ (by simpa using this)]
    simp
  · rw [rectWeightedHv2dM_ok (fieldOps K) lowest sortD sortR x n R nrow ref hD hR]
    have key : rectWeightedR (fieldOps K) lowest sortD sortR x n R nrow ref =
        rectWeightedHv2d x n ((List.range nrow).map fun k => rowRect (R k)) ref (sortD (flatPts x 2 n)) ((sortR (flatPts C 5 m)).map fun k => rowRect (C k)) := by
      unfold rectWeightedR rectWeightedHv2d
      rw [List.length_map, List.length_range, hpre, List.length_map, List.length_range]
      by_cases h0 : nrow = 0 ∨ n = 0
      · rw [if_pos h0, if_pos h0]; rfl
      rw [if_neg h0, if_neg h0]
      by_cases h1 : m = 0
      · rw [if_pos h1, if_pos h1]; rfl
      rw [if_neg h1, if_neg h1]
      refine whvSortedR_field lowest sortD sortR x n C m (Nat.pos_of_ne_zero h1) (hD _) hp ?_
      intro j
      have hnr : 0 < nrow := by omega
      rw [hC]
      simp only [clipR, if_pos (show (2 : ℕ) < 4 by norm_num), fieldOps_min]
      have hk : (fullRows (fieldOps K) ref R nrow).getD j 0 < nrow := by
        by_cases hj : j < (fullRows (fieldOps K) ref R nrow).length
        · rw [List.getD_eq_getElem _ _ hj]
          exact List.mem_range.1 (List.mem_filter.1 (List.getElem_mem hj)).1
        · rw [List.getD_eq_default _ _ (not_lt.1 hj)]
          exact hnr
      exact le_min (hlow _ hk).1 (hlow _ hk).2
    rw [key]
    cases rectWeightedHv2d x n ((List.range nrow).map fun k => rowRect (R k)) ref (sortD (flatPts x 2 n)) ((sortR (flatPts C 5 m)).map fun k => rowRect (C k)) <;> rfl

/-- **C114.** Without NaN, `normalise` in memory is the function of C22. -/
theorem C114_same_normalise (x : ℕ → ℕ → K) (dim size : ℕ) (mx : ℕ → Bool) (lo hi : K) (l u : ℕ → K) :
    agreeNormaliseM (fieldOps K) (flatPts x dim size) dim size (cells mx dim) lo hi (cells l dim) (cells u dim) =
      .ok (flatPts (agreeNormalise x dim size mx lo hi l u) dim size) := by
  rw [C114_agree_normalise]
  congr 1
  apply flat_congr
  intro k hk d hd
  cases hm : mx d <;>
    simp [agreeNormalise, normalise, agreeObjectives, flipObjective, minmaxFromBool, AGREE_MINIMISE, AGREE_MAXIMISE, hk, hd, hm, fieldOps, normDiff, ordCmp]

theorem hypeDom_field (p s : ℕ → K) : hypeDom (fieldOps K) p s = isDominator (s 0, s 1) p := by
  unfold hypeDom isDominator fieldOps ordCmp
  by_cases a : s 0 < p 0 <;> by_cases b : s 1 < p 1 <;> simp [a, b]

theorem foldl_add_const (c : K) (l : List ℕ) : ∀ w : K, l.foldl (fun w _ => w + c) w = w + (l.length : K) * c := by
  induction l with
  | nil => intro w; simp
  | cons a l ih => intro w; rw [List.foldl_cons, ih, List.length_cons]; push_cast; ring

theorem hypeLoop_field [IsStrictOrderedRing K] (x : ℕ → ℕ → K) (n : ℕ) (S : ℕ → ℕ → K) (ss : List ℕ) : ∀ w : K,
    estimateWhvLoop x n (ss.map fun s => (S s 0, S s 1)) w = some (ss.foldl (fun w s => hypeTerm (fieldOps K) x n w (S s)) w) := by
  induction ss with
  | nil => intro w; rfl
  | cons s ss ih =>
    intro w
    rw [List.map_cons]
    unfold estimateWhvLoop
    obtain ⟨e1, e2⟩ := countDominators_snd x (S s 0, S s 1) (List.range n)
    simp only [e1, e2]
    rw [addAlpha_eq _ _ _ (fun h => List.count_pos_iff.2 h)]
    simp only
    rw [ih, List.foldl_cons]
    congr 2
    unfold hypeTerm
    simp only [hypeDom_field]
    have hc : ((List.range n).map fun j => isDominator (S s 0, S s 1) (x j)).count true = ((List.range n).filter fun j => isDominator (S s 0, S s 1) (x j)).length := by
      rw [List.count, List.countP_map, List.countP_eq_length_filter]
      congr 2
      funext j
      simp
    rw [hc]
    exact (foldl_add_const _ _ w).symm

/-- **C114.** Without NaN, `whv_hype` in memory computes what `whvHypeSample` of C35 computes. -/
theorem C114_same_whv_hype [IsStrictOrderedRing K] (x : ℕ → ℕ → K) (n : ℕ) (ideal ref : ℕ → K) (S : ℕ → ℕ → K) (ns : ℕ) :
    ∃ v, whvHypeSample x n ideal ref ((List.range ns).map fun s => (S s 0, S s 1)) = some v ∧
      whvHypeSampleM (fieldOps K) (flatPts x 2 n) n (cells ideal 2) (cells ref 2) (flatPts S 2 ns) ns = .ok v := by
  have hx : ∀ (s : ℕ) (w : K), hypeTerm (fieldOps K) (fun k d => normElem (fieldOps K) (-1) (-1) 0 1 (ideal d) (ref d) (x k d)) n w (S s) =
      hypeTerm (fieldOps K) (normalise01 x 2 n ideal ref) n w (S s) := by
    intro s w
    have : ((List.range n).filter fun j => hypeDom (fieldOps K) (fun d => normElem (fieldOps K) (-1) (-1) 0 1 (ideal d) (ref d) (x j d)) (S s)) =
        (List.range n).filter fun j => hypeDom (fieldOps K) (normalise01 x 2 n ideal ref j) (S s) := by
      apply List.filter_congr
      intro j hj
      have hj' := List.mem_range.1 hj
      unfold hypeDom
      simp [normElem, normDiffR, normalise01, normalise, flipObjective, hj', fieldOps, normDiff, ordCmp]
    unfold hypeTerm
    rw [this]
  refine ⟨_, ?_, whvHypeSampleM_ok (fieldOps K) x n ideal ref S ns⟩
  unfold whvHypeSample estimateWhv
  rw [hypeLoop_field]
  simp only [List.length_map, List.length_range]
  have hz : (fieldOps K).zero = 0 := rfl
  have ho : (fieldOps K).one = 1 := rfl
  rw [hz, ho]
  simp only [hx]
  rfl

end

/-! ## NaN -/

section
variable {K : Type} [Field K] [LinearOrder K]

/-- Doubles that may be NaN (`none`): arithmetic with NaN is NaN, every comparison with NaN is false. -/
def ieeeOps (K : Type) [Field K] [LinearOrder K] : FOps (Option K) where
  toFCmp := ieeeCmp K
  add a b := a.bind fun a => b.map fun b => a + b
  sub a b := a.bind fun a => b.map fun b => a - b
  mul a b := a.bind fun a => b.map fun b => a * b
  div a b := a.bind fun a => b.map fun b => a / b
  neg a := a.map Neg.neg
  zero := some 0
  one := some 1
  ofNat n := some (n : K)

/-- **C114.** In the result of `normalise` exactly the elements are NaN that were NaN or one of whose bounds is. -/
theorem C114_normalise_nan (x : ℕ → ℕ → Option K) (dim size : ℕ) (mx : ℕ → Bool) (lo hi : K) (l u : ℕ → Option K) :
    ∃ y, agreeNormaliseM (ieeeOps K) (flatPts x dim size) dim size (cells mx dim) (some lo) (some hi) (cells l dim) (cells u dim) = .ok (flatPts y dim size) ∧
      ∀ k < size, ∀ d < dim, (y k d = none ↔ x k d = none ∨ l d = none ∨ u d = none) := by
  refine ⟨_, C114_agree_normalise (ieeeOps K) x dim size mx (some lo) (some hi) l u, ?_⟩
  intro k _ d _
  cases hx : x k d <;> cases hl : l d <;> cases hu : u d <;> cases hm : mx d <;> simp [ieeeOps, ieeeCmp] <;> split_ifs <;> simp

/-- `c` times `1 / c`. -/
theorem ieee_iter [IsStrictOrderedRing K] (c : ℕ) (hc : 0 < c) (l : List ℕ) (hl : l.length = c) (w : K) :
    l.foldl (fun w _ => (ieeeOps K).add w ((ieeeOps K).div (ieeeOps K).one ((ieeeOps K).ofNat c))) (some w) = some (w + 1) := by
  have : ∀ (l : List ℕ) (w : K), l.foldl (fun w _ => (ieeeOps K).add w ((ieeeOps K).div (ieeeOps K).one ((ieeeOps K).ofNat c))) (some w) =
      some (w + (l.length : K) * (1 / (c : K))) := by
    intro l
    induction l with
    | nil => intro w; simp
    | cons a l ih =>
      intro w
      rw [List.foldl_cons]
      have : (ieeeOps K).add (some w) ((ieeeOps K).div (ieeeOps K).one ((ieeeOps K).ofNat c)) = some (w + 1 / (c : K)) := rfl
      rw [this, ih, List.length_cons]
      push_cast
      congr 1
      ring
  rw [this, hl]
  have : (c : K) ≠ 0 := by exact_mod_cast hc.ne'
  congr 1
  field_simp

/-- **C114, what NaN does to `whv_hype`.** A point both of whose coordinates are NaN counts as dominating every sample: the result is the area of the whole
box, whatever the other points are. -/
theorem C114_hype_nan_point [IsStrictOrderedRing K] (x : ℕ → ℕ → Option K) (n : ℕ) (ideal ref : ℕ → K) (S : ℕ → ℕ → Option K) (ns : ℕ) (hns : 0 < ns)
    (j : ℕ) (hj : j < n) (h0 : x j 0 = none) (h1 : x j 1 = none) :
    whvHypeSampleM (ieeeOps K) (flatPts x 2 n) n (cells (fun d => some (ideal d)) 2) (cells (fun d => some (ref d)) 2) (flatPts S 2 ns) ns =
      .ok (some ((ref 0 - ideal 0) * (ref 1 - ideal 1))) := by
  rw [whvHypeSampleM_ok]
  set X : ℕ → ℕ → Option K := fun k d => normElem (ieeeOps K) (-1) (-1) (ieeeOps K).zero (ieeeOps K).one (some (ideal d)) (some (ref d)) (x k d) with hX
  have hn : ∀ d, x j d = none → X j d = none := by
    intro d hd
    simp only [hX, normElem, hd]
    simp [ieeeOps]
  have hdom : ∀ s, hypeDom (ieeeOps K) (X j) (S s) = true := by
    intro s
    unfold hypeDom
    rw [hn 0 h0, hn 1 h1]
    cases S s 0 <;> cases S s 1 <;> rfl
  have hterm : ∀ (s : ℕ) (w : K), hypeTerm (ieeeOps K) X n (some w) (S s) = some (w + 1) := by
    intro s w
    unfold hypeTerm
    refine ieee_iter _ ?_ _ rfl w
    exact List.length_pos_of_mem (List.mem_filter.2 ⟨List.mem_range.2 hj, hdom s⟩)
  have hsum : ∀ (l : List ℕ) (w : K), l.foldl (fun w s => hypeTerm (ieeeOps K) X n w (S s)) (some w) = some (w + (l.length : K)) := by
    intro l
    induction l with
    | nil => intro w; simp
    | cons s l ih =>
      intro w
      rw [List.foldl_cons, hterm, ih, List.length_cons]
      push_cast
      congr 1
      ring
  have hz : (ieeeOps K).zero = some 0 := rfl
  rw [hz, hsum, List.length_range, zero_add]
  have : (ns : K) ≠ 0 := by exact_mod_cast hns.ne'
  change Except.ok (some ((ns : K) * (1 * (ref 0 - ideal 0) * (ref 1 - ideal 1) / (ns : K)))) = _
  congr 2
  field_simp

/-- **C114, what NaN does to `whv_rect`.** A NaN as the second coordinate of the first point in the order that `qsort` leaves makes the assertion of line 148
fail, whenever a rectangle is left after the preprocessing and the first one is valid. -/
theorem C114_whv_nan_aborts (lowest : Option K) (sortD sortR : Blk (Option K) → List ℕ) (x : ℕ → ℕ → Option K) (n : ℕ) (R : ℕ → ℕ → Option K) (nrow : ℕ) (ref : ℕ → Option K)
    (hD : ∀ b, (sortD b).Perm (List.range n)) (hR : ∀ b : Blk (Option K), (sortR b).Perm (List.range (b.length / 5))) (hn : 0 < n)
    (hkeep : ∃ k < nrow, emptyR (ieeeOps K) (clipR (ieeeOps K) ref (R k)) = false)
    (hnan : x ((sortD (flatPts x 2 n)).getD 0 0) 1 = none) :
    rectWeightedHv2dM (ieeeOps K) lowest sortD sortR (flatPts x 2 n) n (flatPts R 5 nrow) nrow (cells ref 2) = .error .assertion := by
  rw [rectWeightedHv2dM_ok (ieeeOps K) lowest sortD sortR x n R nrow ref hD hR]
  obtain ⟨k, hk, he⟩ := hkeep
  have hm : (fullRows (ieeeOps K) ref R nrow).length ≠ 0 :=
    (List.length_pos_of_mem (List.mem_filter.2 ⟨List.mem_range.2 hk, by simp [he]⟩ : k ∈ fullRows (ieeeOps K) ref R nrow)).ne'
  unfold rectWeightedR
  rw [if_neg (by omega), if_neg hm]
  unfold whvSortedR whvSweepR
  split_ifs with h
  · rfl
  · obtain ⟨n', rfl⟩ : ∃ n', n = n' + 1 := ⟨n - 1, by omega⟩
    rw [List.range_succ_eq_map (n := n')]
    generalize List.map Nat.succ (List.range n') = tl
    unfold whvFirstR
    simp only [hnan]
    have e1 : ∀ a : Option K, (ieeeOps K).le a none = false := by intro a; cases a <;> rfl
    have e2 : ∀ a : Option K, (ieeeOps K).lt none a = false := by intro a; cases a <;> rfl
    simp only [e1, Bool.false_eq_true, if_false]
    unfold whvGoR
    simp only [hnan, e2, Bool.false_and, Bool.false_eq_true, if_false, Bool.not_false, if_true]
    rfl

end

/-- One rectangle from (0, 0) to (4, 4) and the points (NaN, 2) and (0, 1), in the order that `cmp_data_y_desc` determines: the result is 4.  Without the point with the NaN
it is 12: a NaN is neither rejected nor ignored. -/
theorem C114_false_nan_ignored :
    rectWeightedHv2dM (ieeeOps ℚ) (some (-1000)) (fun _ => [0, 1]) (fun _ => [0]) [some none, some (some 2), some (some 0), some (some 1)] 2
        [some (some 0), some (some 0), some (some 4), some (some 4), some (some 1)] 1 [some (some 9), some (some 9)] = .ok (some 4) ∧
      rectWeightedHv2dM (ieeeOps ℚ) (some (-1000)) (fun _ => [0]) (fun _ => [0]) [some (some 0), some (some 1)] 1
        [some (some 0), some (some 0), some (some 4), some (some 4), some (some 1)] 1 [some (some 9), some (some 9)] = .ok (some 12) := by
  constructor <;> decide +kernel

/-- A NaN as a corner of a rectangle is replaced by the coordinate of the reference point: the rectangle from (0, 0) to (NaN, 4) counts as reaching to the reference
point, 9 in the first objective. -/
theorem C114_false_nan_corner :
    rectWeightedHv2dM (ieeeOps ℚ) (some (-1000)) (fun _ => [0]) (fun _ => [0]) [some (some 0), some (some 1)] 1
      [some (some 0), some (some 0), some none, some (some 4), some (some 1)] 1 [some (some 9), some (some 9)] = .ok (some 27) := by
  decide +kernel

/-- **C114.** With the hypotheses of C34, the function in memory returns the sum of the weights of the rectangles times the areas of their dominated parts. -/
theorem C114_whv_rect_value (lowest : ℝ) (sortD sortR : Blk ℝ → List ℕ) (x : ℕ → ℕ → ℝ) (n : ℕ) (R : ℕ → ℕ → ℝ) (nrow : ℕ) (ref : ℕ → ℝ)
    (hD : ∀ b, (sortD b).Perm (List.range n)) (hR : ∀ b : Blk ℝ, (sortR b).Perm (List.range (b.length / 5)))
    (hlow : ∀ k < nrow, lowest ≤ R k 2 ∧ lowest ≤ ref 0)
    (hps : Qsort (cmpDataYDesc x) (List.range n) (sortD (flatPts x 2 n)))
    (hrs : ∀ b m, whvPreprocessM (fieldOps ℝ) (flatPts R 5 nrow) nrow (cells ref 2) = .ok (b, m) →
      Qsort cmpRectYDesc (whvPreprocess ((List.range nrow).map fun k => rowRect (R k)) ref)
        ((sortR b).map fun k => (whvPreprocess ((List.range nrow).map fun k => rowRect (R k)) ref).getD k ⟨0, 0, 0, 0, 0⟩))
    (hnd : ∀ i < n, ∀ j < n, i ≠ j → ¬ (x i 0 ≤ x j 0 ∧ x i 1 ≤ x j 1))
    (hr : ∀ k < nrow, R k 0 < R k 2 ∧ R k 1 < R k 3 ∧ 0 ≤ R k 4) (hstop : NoEarlyStop n x ((List.range nrow).map fun k => rowRect (R k)) ref) :
    rectWeightedHv2dM (fieldOps ℝ) lowest sortD sortR (flatPts x 2 n) n (flatPts R 5 nrow) nrow (cells ref 2) =
      .ok (((List.range nrow).map fun k => R k 4 * vol (rectRegion n x ref (rowRect (R k)))).sum) := by
  obtain ⟨rs, -, h2, h3⟩ := C114_same_whv_rect lowest sortD sortR x n R nrow ref hD hR hlow
  have hq := hrs _ _ (whvPreprocessM_ok (fieldOps ℝ) ref R nrow)
  rw [← h2 _ _ (whvPreprocessM_ok (fieldOps ℝ) ref R nrow)] at hq
  rw [h3, C34_rect_weighted_hv2d_partial n x _ ref _ rs hps hq hnd (by
    intro r hr'
    obtain ⟨k, hk, rfl⟩ := List.mem_map.1 hr'
    exact hr k (List.mem_range.1 hk)) hstop]
  simp only [List.map_map]
  rfl

/-! ## Concrete cases -/

/-- three rectangles, the second empty, the third empty after clipping: one is left -/
example : whvPreprocessM (fieldOps ℚ) ([0, 0, 9, 2, 7, 1, 1, 1, 3, 7, 6, 0, 8, 4, 7].map some) 3 [some 5, some 6] =
    .ok ([some 0, some 0, some 5, some 2, some 7], 1) := by decide +kernel

/-- `C114_whv_rect_safe` with two points, one of them with a NaN, and one rectangle; the order is the identity -/
example : (∃ v, rectWeightedHv2dM (ieeeOps ℚ) (some (-1000)) (fun _ => List.range 2) (fun b => List.range (b.length / 5))
      (flatPts (fun i d => if i = 0 ∧ d = 0 then none else some (i : ℚ)) 2 2) 2 (flatPts (fun _ c => some (c : ℚ)) 5 1) 1 (cells (fun _ => some 9) 2) = .ok v) ∨
    rectWeightedHv2dM (ieeeOps ℚ) (some (-1000)) (fun _ => List.range 2) (fun b => List.range (b.length / 5))
      (flatPts (fun i d => if i = 0 ∧ d = 0 then none else some (i : ℚ)) 2 2) 2 (flatPts (fun _ c => some (c : ℚ)) 5 1) 1 (cells (fun _ => some 9) 2) =
        .error .assertion :=
  C114_whv_rect_safe _ _ _ _ _ _ _ _ _ (fun _ => List.Perm.refl _) (fun _ => List.Perm.refl _)

/-- a point with a NaN as second coordinate aborts -/
example : rectWeightedHv2dM (ieeeOps ℚ) (some (-1000)) (fun _ => List.range 1) (fun b => List.range (b.length / 5))
    (flatPts (fun _ d => if d = 1 then none else some 1) 2 1) 1 (flatPts (fun _ c => some (c : ℚ)) 5 1) 1 (cells (fun _ => some 9) 2) = .error .assertion :=
  C114_whv_nan_aborts _ _ _ _ _ _ _ _ (fun _ => List.Perm.refl _) (fun _ => List.Perm.refl _) one_pos ⟨0, one_pos, by decide +kernel⟩ (by simp)

/-- a valid run: one point, one rectangle, both sides as in C34 -/
example : rectWeightedHv2dM (fieldOps ℚ) (-1000) (fun _ => [0]) (fun _ => [0]) [some 1, some 1] 1 [some 0, some 0, some 4, some 3, some 2] 1 [some 9, some 9] = .ok 12 := by
  decide +kernel

/-- the hypotheses of `C114_whv_rect_value` are met by the point (1, 1) and the rectangle from (0, 0) to (2, 2) -/
example : rectWeightedHv2dM (fieldOps ℝ) (-1000) (fun _ => List.range 1) (fun b => List.range (b.length / 5)) (flatPts (fun _ _ => 1) 2 1) 1
    (flatPts (fun _ c => if c = 4 then 1 else if c < 2 then 0 else 2) 5 1) 1 (cells (fun _ => 5) 2) =
    .ok (((List.range 1).map fun _ => 1 * vol (rectRegion 1 (fun _ _ => 1) (fun _ => 5) squareRect)).sum) := by
  have hrow : ((List.range 1).map fun k => rowRect ((fun _ c => if c = 4 then 1 else if c < 2 then 0 else 2 : ℕ → ℕ → ℝ) k)) = [squareRect] := by
    simp [rowRect, squareRect]
  have h := C114_whv_rect_value (-1000) (fun _ => List.range 1) (fun b => List.range (b.length / 5)) (fun _ _ => 1) 1
    (fun _ c => if c = 4 then 1 else if c < 2 then 0 else 2) 1 (fun _ => 5) (fun _ => List.Perm.refl _) (fun _ => List.Perm.refl _) (by norm_num)
    ⟨List.Perm.refl _, by simp⟩ (by
      intro b m hb
      have hl := congrArg List.length (whvPreprocess_rows (fun _ => (5 : ℝ)) (fun _ c => if c = 4 then 1 else if c < 2 then 0 else 2) 1)
      rw [hrow, pre_square, List.length_map] at hl
      rw [whvPreprocessM_ok, ← hl] at hb
      injection hb with hb
      obtain ⟨rfl, -⟩ := Prod.mk.inj hb
      rw [hrow, pre_square]
      unfold flatPts cells
      rw [length_blk]
      exact ⟨by simp, by simp⟩) (by intro i hi j hj hne; omega) (by norm_num) (by
      rw [hrow]
      rintro i hi ⟨r, hr, _, h, _⟩
      simp only [List.mem_singleton] at hr
      subst hr
      norm_num [squareRect] at h)
  have e : rowRect (fun c => if c = 4 then 1 else if c < 2 then 0 else 2 : ℕ → ℝ) = squareRect := by simp [rowRect, squareRect]
  simp only [e, if_true] at h
  exact h

/-- `whv_hype` with a point of NaNs and one sample in the box from (0, 0) to (2, 3): the area is 6 although no real point is there -/
example : whvHypeSampleM (ieeeOps ℚ) (flatPts (fun _ _ => none) 2 1) 1 (cells (fun _ => some 0) 2) (cells (fun d => some ((d : ℚ) + 2)) 2)
    (flatPts (fun _ _ => some (1 / 2)) 2 1) 1 = .ok (some 6) := by
  have := C114_hype_nan_point (K := ℚ) (fun _ _ => none) 1 (fun _ => 0) (fun d => (d : ℚ) + 2) (fun _ _ => some (1 / 2)) 1 one_pos 0 one_pos rfl rfl
  norm_num at this ⊢
  exact this

/-- two points, two samples: one sample is dominated by both points, the other by none -/
example : estimateWhvM (fieldOps ℚ) ([1/4, 1/4, 1/2, 1/8].map some) 2 ([1/2, 1/2, 1/8, 1/8].map some) 2 = .ok 1 := by decide +kernel

/-- `normalise` of two points, the second objective maximised -/
example : agreeNormaliseM (fieldOps ℚ) ([1, 5, 3, 10].map some) 2 2 [some false, some true] 0 1 [some 1, some 0] [some 5, some 10] =
    .ok ([0, 1/2, 1/2, 0].map some) := by decide +kernel

end Moo
