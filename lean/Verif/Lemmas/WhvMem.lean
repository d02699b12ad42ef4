import Verif.Model.WhvMem
import Verif.Lemmas.NdMem
import Mathlib.Tactic.IntervalCases
import Mathlib.Tactic.Ring
import Mathlib.Data.List.GetD

set_option autoImplicit false
set_option linter.unusedSectionVars false

/-! # Helper lemmas: memory accesses of `normalise`, `rect_weighted_hv2d` and `estimate_whv` -/

namespace Moo

variable {F : Type}

/-! ## `normalise` -/

/-- `diff[d]`. -/
def normDiffR (o : FOps F) (l u : F) : F := if o.eq (o.sub u l) o.zero then o.one else o.sub u l

/-- The new value of an element. -/
def normElem (o : FOps F) (agree m : ℤ) (lo hi l u p : F) : F :=
  if (agree > 0 ∧ m < 0) ∨ (agree < 0 ∧ m > 0) then o.add lo (o.div (o.mul (o.sub hi lo) (o.add u p)) (normDiffR o l u))
  else o.add lo (o.div (o.mul (o.sub hi lo) (o.sub p l)) (normDiffR o l u))

theorem agreeObjectivesM_flat (o : FOps F) {dim size : ℕ} {mm : ℕ → ℤ} (agree : ℤ) : ∀ (ds : List ℕ) (x : ℕ → ℕ → F), ds.Nodup → (∀ d ∈ ds, d < dim) →
    agreeObjectivesM o dim size (cells mm dim) agree ds (flatPts x dim size) =
      .ok (flatPts (fun i e => if e ∈ ds ∧ ((agree > 0 ∧ mm e < 0) ∨ (agree < 0 ∧ mm e > 0)) then o.neg (x i e) else x i e) dim size) := by
  intro ds
  induction ds with
  | nil => intro x _ _; simp [agreeObjectivesM]
  | cons d ds ih =>
    intro x hn hd
    have hd0 := hd d (by simp)
    have hnd := (List.nodup_cons.1 hn).1
    unfold agreeObjectivesM
    rw [ld_cells hd0]
    simp only [bind, Except.bind]
    split_ifs with h
    · rw [negColM_flat o.neg hd0 _ _ List.nodup_range (fun k hk => List.mem_range.1 hk)]
      simp only
      rw [ih _ (List.nodup_cons.1 hn).2 (fun y hy => hd y (by simp [hy]))]
      congr 1
      apply flat_congr
      intro i hi e _
      by_cases he : e = d
      · subst he; simp [hnd, h, hi]
      · simp [he]
    · rw [ih _ (List.nodup_cons.1 hn).2 (fun y hy => hd y (by simp [hy]))]
      congr 1
      apply flat_congr
      intro i hi e _
      by_cases he : e = d
      · subst he; simp [hnd, h]
      · simp [he]

theorem normDiffM_blk (o : FOps F) (l u : ℕ → F) (n : ℕ) : ∀ (ds : List ℕ) (g : ℕ → Option F), (∀ d ∈ ds, d < n) →
    normDiffM o (cells l n) (cells u n) ds (blk g n) = .ok (blk (fun i => if i ∈ ds then some (normDiffR o (l i) (u i)) else g i) n) := by
  intro ds
  induction ds with
  | nil => intro g _; simp [normDiffM]
  | cons d ds ih =>
    intro g hd
    have hd0 := hd d (by simp)
    unfold normDiffM
    rw [ld_cells hd0, ld_cells hd0]
    simp only [bind, Except.bind]
    rw [st_blk hd0]
    simp only
    rw [ld_blk (v := o.sub (u d) (l d)) hd0 (by simp)]
    simp only
    by_cases h : o.eq (o.sub (u d) (l d)) o.zero = true
    · rw [if_pos h, st_blk hd0]
      simp only
      rw [ih _ (fun y hy => hd y (by simp [hy]))]
      congr 1
      apply blk_congr
      intro i _
      simp only [upd_apply, List.mem_cons]
      by_cases h1 : i ∈ ds
      · simp [h1]
      · by_cases h2 : i = d
        · subst h2; simp [h1, normDiffR, h]
        · simp [h1, h2]
    · rw [if_neg h]
      rw [ih _ (fun y hy => hd y (by simp [hy]))]
      congr 1
      apply blk_congr
      intro i _
      simp only [upd_apply, List.mem_cons]
      by_cases h1 : i ∈ ds
      · simp [h1]
      · by_cases h2 : i = d
        · subst h2; simp [h1, normDiffR, h]
        · simp [h1, h2]

theorem normDiffM_alloc (o : FOps F) (l u : ℕ → F) (n : ℕ) :
    normDiffM o (cells l n) (cells u n) (List.range n) (allocBlk n) = .ok (cells (fun i => normDiffR o (l i) (u i)) n) := by
  rw [allocBlk_eq, normDiffM_blk o l u n _ _ (fun k hk => List.mem_range.1 hk)]
  congr 1
  apply blk_congr
  intro i hi
  simp [hi]

theorem normRowM_flat (o : FOps F) {dim size : ℕ} {mm : ℕ → ℤ} (agree : ℤ) (lo hi : F) (l u : ℕ → F) {k : ℕ} (hk : k < size) :
    ∀ (ds : List ℕ) (x : ℕ → ℕ → F), ds.Nodup → (∀ d ∈ ds, d < dim) →
    normRowM o dim (cells mm dim) agree lo (o.sub hi lo) (cells l dim) (cells u dim) (cells (fun i => normDiffR o (l i) (u i)) dim) k ds (flatPts x dim size) =
      .ok (flatPts (fun i e => if i = k ∧ e ∈ ds then normElem o agree (mm e) lo hi (l e) (u e) (x i e) else x i e) dim size) := by
  intro ds
  induction ds with
  | nil => intro x _ _; simp [normRowM]
  | cons d ds ih =>
    intro x hn hd
    have hd0 := hd d (by simp)
    have hnd := (List.nodup_cons.1 hn).1
    have key : flatPts (fun i e => if i = k ∧ e ∈ ds then normElem o agree (mm e) lo hi (l e) (u e)
          ((fun i e => if i = k ∧ e = d then normElem o agree (mm d) lo hi (l d) (u d) (x k d) else x i e) i e)
          else (fun i e => if i = k ∧ e = d then normElem o agree (mm d) lo hi (l d) (u d) (x k d) else x i e) i e) dim size =
        flatPts (fun i e => if i = k ∧ e ∈ d :: ds then normElem o agree (mm e) lo hi (l e) (u e) (x i e) else x i e) dim size := by
      apply flat_congr
      intro i _ e _
      by_cases hik : i = k
      · subst hik
        by_cases he : e = d
        · subst he; simp [hnd]
        · simp [he]
      · simp [hik]
    unfold normRowM
    rw [ld_cells hd0, ld_flat hk hd0, ld_cells hd0]
    simp only [bind, Except.bind]
    by_cases h : (agree > 0 ∧ mm d < 0) ∨ (agree < 0 ∧ mm d > 0)
    · rw [if_pos h, ld_cells hd0]
      simp only
      rw [st_flat hk hd0]
      simp only
      have e : o.add lo (o.div (o.mul (o.sub hi lo) (o.add (u d) (x k d))) (normDiffR o (l d) (u d))) = normElem o agree (mm d) lo hi (l d) (u d) (x k d) := by
        unfold normElem; rw [if_pos h]
      rw [e, ih _ (List.nodup_cons.1 hn).2 (fun y hy => hd y (by simp [hy])), key]
    · rw [if_neg h, ld_cells hd0]
      simp only
      rw [st_flat hk hd0]
      simp only
      have e : o.add lo (o.div (o.mul (o.sub hi lo) (o.sub (x k d) (l d))) (normDiffR o (l d) (u d))) = normElem o agree (mm d) lo hi (l d) (u d) (x k d) := by
        unfold normElem; rw [if_neg h]
      rw [e, ih _ (List.nodup_cons.1 hn).2 (fun y hy => hd y (by simp [hy])), key]

theorem normRowsM_flat (o : FOps F) {dim size : ℕ} {mm : ℕ → ℤ} (agree : ℤ) (lo hi : F) (l u : ℕ → F) :
    ∀ (ks : List ℕ) (x : ℕ → ℕ → F), ks.Nodup → (∀ k ∈ ks, k < size) →
    normRowsM o dim (cells mm dim) agree lo (o.sub hi lo) (cells l dim) (cells u dim) (cells (fun i => normDiffR o (l i) (u i)) dim) ks (flatPts x dim size) =
      .ok (flatPts (fun i e => if i ∈ ks then normElem o agree (mm e) lo hi (l e) (u e) (x i e) else x i e) dim size) := by
  intro ks
  induction ks with
  | nil => intro x _ _; simp [normRowsM]
  | cons k ks ih =>
    intro x hn hk
    have hnk := (List.nodup_cons.1 hn).1
    unfold normRowsM
    rw [normRowM_flat o agree lo hi l u (hk k (by simp)) _ _ List.nodup_range (fun d hd => List.mem_range.1 hd)]
    simp only [bind, Except.bind]
    rw [ih _ (List.nodup_cons.1 hn).2 (fun y hy => hk y (by simp [hy]))]
    congr 1
    apply flat_congr
    intro i _ e he
    by_cases hi : i = k
    · subst hi; simp [hnk, he]
    · simp [hi]

theorem normaliseM_ok (o : FOps F) (x : ℕ → ℕ → F) (dim size : ℕ) (mm : ℕ → ℤ) (agree : ℤ) (lo hi : F) (l u : ℕ → F) :
    normaliseM o (flatPts x dim size) dim size (cells mm dim) agree lo hi (cells l dim) (cells u dim) =
      .ok (flatPts (fun k d => normElem o agree (mm d) lo hi (l d) (u d) (x k d)) dim size) := by
  unfold normaliseM
  rw [normDiffM_alloc]
  simp only [bind, Except.bind]
  rw [normRowsM_flat o agree lo hi l u _ _ List.nodup_range (fun k hk => List.mem_range.1 hk)]
  congr 1
  apply flat_congr
  intro i hi e _
  simp [hi]

/-! ## rectangles -/

/-- A row of rectangles after clipping. -/
def clipR (o : FOps F) (ref : ℕ → F) (x : ℕ → F) (c : ℕ) : F := if c < 4 then o.min (x c) (ref (c % 2)) else x c

theorem clipCellM_flat (o : FOps F) (ref : ℕ → F) {x : ℕ → ℕ → F} {nrow k c d : ℕ} (hk : k < nrow) (hc : c < 5) (hd : d < 2) :
    clipCellM o (cells ref 2) (k * 5 + c) d (flatPts x 5 nrow) =
      .ok (flatPts (fun i e => if i = k ∧ e = c then o.min (x k c) (ref d) else x i e) 5 nrow) := by
  unfold clipCellM
  rw [ld_flat hk hc, ld_cells hd]
  simp only [bind, Except.bind]
  rw [st_flat hk hc]

theorem clipM_flat (o : FOps F) (ref : ℕ → F) {nrow : ℕ} : ∀ (ks : List ℕ) (x : ℕ → ℕ → F), ks.Nodup → (∀ k ∈ ks, k < nrow) →
    clipM o (cells ref 2) ks (flatPts x 5 nrow) = .ok (flatPts (fun i e => if i ∈ ks then clipR o ref (x i) e else x i e) 5 nrow) := by
  intro ks
  induction ks with
  | nil => intro x _ _; simp [clipM]
  | cons k ks ih =>
    intro x hn hk
    have hk0 := hk k (by simp)
    have hnk := (List.nodup_cons.1 hn).1
    unfold clipM
    rw [clipCellM_flat o ref hk0 (by norm_num) (by norm_num)]
    simp only [bind, Except.bind]
    rw [clipCellM_flat o ref hk0 (by norm_num) (by norm_num)]
    simp only
    rw [clipCellM_flat o ref hk0 (by norm_num) (by norm_num)]
    simp only
    rw [clipCellM_flat o ref hk0 (by norm_num) (by norm_num)]
    simp only
    rw [ih _ (List.nodup_cons.1 hn).2 (fun y hy => hk y (by simp [hy]))]
    congr 1
    apply flat_congr
    intro i _ e he
    by_cases hi : i = k
    · subst hi
      interval_cases e <;> simp [hnk, clipR]
    · simp [hi]

/-- The test of empty rectangles. -/
def emptyR (o : FOps F) (x : ℕ → F) : Bool := o.eq (x 0) (x 2) || o.eq (x 1) (x 3)

/-- A block that begins with a list and whose other cells were never written. -/
def listBlk {β : Type} (l : List β) (n : ℕ) : Blk β := blk (fun i => l[i]?) n

theorem st_listBlk {β : Type} {l : List β} {n : ℕ} (h : l.length < n) (v : β) : stBlk (listBlk l n) l.length v = .ok (listBlk (l ++ [v]) n) := by
  unfold listBlk
  rw [st_blk h]
  congr 1
  apply blk_congr
  intro i _
  simp only [upd_apply]
  by_cases hi : i = l.length
  · subst hi; simp
  · rw [if_neg hi]
    rcases lt_or_gt_of_ne hi with h1 | h1
    · rw [List.getElem?_append_left h1]
    · rw [List.getElem?_eq_none h1.le, List.getElem?_eq_none (by simp; omega)]

theorem ld_listBlk {β : Type} {l : List β} {n i : ℕ} (hi : i < l.length) (hn : i < n) : ldBlk (listBlk l n) i = .ok l[i] :=
  ld_blk hn (List.getElem?_eq_getElem hi)

theorem skipM_flat (o : FOps F) (x : ℕ → ℕ → F) {nrow : ℕ} : ∀ (ks : List ℕ) (l : List ℕ), (∀ k ∈ ks, k < nrow) → l.length + ks.length ≤ nrow →
    skipM o (flatPts x 5 nrow) ks (listBlk l nrow, l.length) =
      .ok (listBlk (l ++ ks.filter fun k => emptyR o (x k)) nrow, (l ++ ks.filter fun k => emptyR o (x k)).length) := by
  intro ks
  induction ks with
  | nil => intro l _ _; simp [skipM]
  | cons k ks ih =>
    intro l hk hl
    have hk0 := hk k (by simp)
    rw [List.length_cons] at hl
    unfold skipM
    rw [ld_flat hk0 (by norm_num), ld_flat hk0 (by norm_num), ld_flat hk0 (by norm_num), ld_flat hk0 (by norm_num)]
    simp only [bind, Except.bind]
    rw [show (o.eq (x k 0) (x k 2) || o.eq (x k 1) (x k 3)) = emptyR o (x k) from rfl]
    by_cases h : emptyR o (x k) = true
    · rw [if_pos h, st_listBlk (by omega)]
      simp only
      rw [show l.length + 1 = (l ++ [k]).length by simp, ih (l ++ [k]) (fun y hy => hk y (by simp [hy])) (by simp; omega)]
      simp [h]
    · rw [if_neg h, ih l (fun y hy => hk y (by simp [hy])) (by omega)]
      simp [h]

/-- A block of rows that begins with the given rows of a table and whose other cells were never written. -/
def rowsBlk (x : ℕ → ℕ → F) (l : List ℕ) (n : ℕ) : Blk F := blk (fun i => (l[i / 5]?).map fun k => x k (i % 5)) (5 * n)

theorem copyRowM_flat {x : ℕ → ℕ → F} {nrow k n : ℕ} {l : List ℕ} (hk : k < nrow) (hl : l.length < n) :
    copyRowM (flatPts x 5 nrow) l.length k (List.range 5) (rowsBlk x l n) = .ok (rowsBlk x (l ++ [k]) n) := by
  have hj : ∀ c < 5, l.length * 5 + c < 5 * n := fun c hc => by omega
  rw [show List.range 5 = [0, 1, 2, 3, 4] from rfl]
  simp only [copyRowM, rowsBlk]
  rw [ld_flat hk (by norm_num)]
  simp only [bind, Except.bind]
  rw [st_blk (hj 0 (by norm_num))]
  simp only
  rw [ld_flat hk (by norm_num)]
  simp only
  rw [st_blk (hj 1 (by norm_num))]
  simp only
  rw [ld_flat hk (by norm_num)]
  simp only
  rw [st_blk (hj 2 (by norm_num))]
  simp only
  rw [ld_flat hk (by norm_num)]
  simp only
  rw [st_blk (hj 3 (by norm_num))]
  simp only
  rw [ld_flat hk (by norm_num)]
  simp only
  rw [st_blk (hj 4 (by norm_num))]
  simp only
  congr 1
  apply blk_congr
  intro i _
  simp only [upd_apply]
  rcases lt_trichotomy (i / 5) l.length with h | h | h
  · rw [if_neg (by omega), if_neg (by omega), if_neg (by omega), if_neg (by omega), if_neg (by omega), List.getElem?_append_left h]
  · have e : (l ++ [k])[i / 5]? = some k := by rw [h]; simp
    rw [e]
    have h5 : i % 5 < 5 := Nat.mod_lt _ (by norm_num)
    have hi : i = l.length * 5 + i % 5 := by omega
    generalize i % 5 = c at *
    subst hi
    interval_cases c <;> simp
  · rw [if_neg (by omega), if_neg (by omega), if_neg (by omega), if_neg (by omega), if_neg (by omega), List.getElem?_eq_none h.le,
      List.getElem?_eq_none (by simp; omega)]

theorem copyRunM_flat {x : ℕ → ℕ → F} {nrow n : ℕ} : ∀ (ks l : List ℕ), (∀ k ∈ ks, k < nrow) → l.length + ks.length ≤ n →
    copyRunM (flatPts x 5 nrow) ks l.length (rowsBlk x l n) = .ok ((l ++ ks).length, rowsBlk x (l ++ ks) n) := by
  intro ks
  induction ks with
  | nil => intro l _ _; simp [copyRunM]
  | cons k ks ih =>
    intro l hk hl
    rw [List.length_cons] at hl
    unfold copyRunM
    rw [copyRowM_flat (hk k (by simp)) (by omega)]
    simp only [bind, Except.bind]
    rw [show l.length + 1 = (l ++ [k]).length by simp, ih (l ++ [k]) (fun y hy => hk y (by simp [hy])) (by simp; omega)]
    simp

/-- The rows that are copied. -/
def runRows : ℕ → List ℕ → List ℕ
  | _, [] => []
  | k, e :: es => List.range' k (e - k) ++ runRows (e + 1) es

theorem copyM_flat {x : ℕ → ℕ → F} {nrow n : ℕ} (E : List ℕ) (hE : E.length ≤ nrow) (hlt : ∀ e ∈ E, e ≤ nrow) : ∀ (es : List ℕ) (i k : ℕ) (l : List ℕ), E.drop i = es →
    l.length + (runRows k es).length ≤ n →
    copyM (flatPts x 5 nrow) (listBlk E nrow) (List.range' i es.length) k l.length (rowsBlk x l n) = .ok (rowsBlk x (l ++ runRows k es) n) := by
  intro es
  induction es with
  | nil => intro i k l _ _; simp [copyM, runRows]
  | cons e es ih =>
    intro i k l hi hl
    have hlen : i < E.length := by
      by_contra h
      rw [List.drop_eq_nil_of_le (not_lt.1 h)] at hi
      cases hi
    have hd := List.drop_eq_getElem_cons hlen
    rw [hi] at hd
    obtain ⟨h1, h2⟩ := List.cons.inj hd
    rw [runRows, List.length_append, ← add_assoc] at hl
    rw [List.length_cons, List.range'_succ]
    unfold copyM
    rw [ld_listBlk hlen (by omega), ← h1]
    simp only [bind, Except.bind]
    have hen : e ≤ nrow := hlt e (by rw [h1]; exact List.getElem_mem _)
    rw [copyRunM_flat _ _ (fun q hq => by
      rw [List.mem_range'_1] at hq
      omega) (by omega)]
    simp only
    rw [ih (i + 1) (e + 1) (l ++ List.range' k (e - k)) h2.symm (by rw [List.length_append]; exact hl)]
    rw [runRows, List.append_assoc]

theorem runRows_filter (P : ℕ → Bool) (m : ℕ) : ∀ k, runRows k ((List.range' k m).filter P ++ [k + m]) = (List.range' k m).filter fun i => !P i := by
  induction m with
  | zero => intro k; simp [runRows]
  | succ m ih =>
    intro k
    have h := ih (k + 1)
    rw [show k + 1 + m = k + (m + 1) by ring] at h
    rw [List.range'_succ]
    by_cases hP : P k = true
    · rw [List.filter_cons_of_pos hP, List.filter_cons_of_neg (by simp [hP]), List.cons_append, runRows, h]
      simp
    · rw [List.filter_cons_of_neg hP, List.filter_cons_of_pos (by simp [hP]), ← h]
      have hall : ∀ s ∈ (List.range' (k + 1) m).filter P ++ [k + (m + 1)], k < s := by
        intro s hs
        rcases List.mem_append.1 hs with h' | h'
        · have := (List.mem_range'_1.1 (List.mem_filter.1 h').1).1
          omega
        · simp only [List.mem_singleton] at h'
          omega
      cases hL : (List.range' (k + 1) m).filter P ++ [k + (m + 1)] with
      | nil => simp at hL
      | cons s ss =>
        have hks : k < s := hall s (by rw [hL]; simp)
        rw [runRows, runRows, show s - k = (s - (k + 1)) + 1 by omega, List.range'_succ, List.cons_append]

/-- The rows that are not empty after clipping. -/
def fullRows (o : FOps F) (ref : ℕ → F) (x : ℕ → ℕ → F) (nrow : ℕ) : List ℕ := (List.range nrow).filter fun k => !emptyR o (clipR o ref (x k))

theorem filter_len_add (P : ℕ → Bool) (l : List ℕ) : (l.filter P).length + (l.filter fun i => !P i).length = l.length := by
  induction l with
  | nil => rfl
  | cons a l ih => by_cases h : P a = true <;> simp [h] <;> omega

theorem rowsBlk_full (x : ℕ → ℕ → F) (l : List ℕ) : rowsBlk x l l.length = flatPts (fun j => x (l.getD j 0)) 5 l.length := by
  unfold rowsBlk flatPts cells
  apply blk_congr
  intro i hi
  have : i / 5 < l.length := by omega
  simp only [List.getElem?_eq_getElem this, List.getD_eq_getElem _ _ this, Option.map_some]

theorem whvPreprocessM_ok (o : FOps F) (ref : ℕ → F) (x : ℕ → ℕ → F) (nrow : ℕ) :
    whvPreprocessM o (flatPts x 5 nrow) nrow (cells ref 2) =
      .ok (flatPts (fun j => clipR o ref (x ((fullRows o ref x nrow).getD j 0))) 5 (fullRows o ref x nrow).length, (fullRows o ref x nrow).length) := by
  unfold whvPreprocessM
  rw [clipM_flat o ref _ _ List.nodup_range (fun k hk => List.mem_range.1 hk)]
  simp only [bind, Except.bind]
  have hcl : flatPts (fun i e => if i ∈ List.range nrow then clipR o ref (x i) e else x i e) 5 nrow = flatPts (fun i => clipR o ref (x i)) 5 nrow := by
    apply flat_congr
    intro i hi e _
    simp [hi]
  rw [hcl]
  have hs := skipM_flat o (fun i => clipR o ref (x i)) (nrow := nrow) (List.range nrow) [] (fun k hk => List.mem_range.1 hk) (by simp)
  rw [List.nil_append] at hs
  have ha : (allocBlk nrow : Blk ℕ) = listBlk [] nrow := by rw [allocBlk_eq]; rfl
  rw [ha, show (0 : ℕ) = ([] : List ℕ).length from rfl, hs]
  simp only [List.length_nil]
  set E := (List.range nrow).filter fun k => emptyR o (clipR o ref (x k)) with hEdef
  have hsum := filter_len_add (fun k => emptyR o (clipR o ref (x k))) (List.range nrow)
  rw [← hEdef, List.length_range] at hsum
  change E.length + (fullRows o ref x nrow).length = nrow at hsum
  by_cases h0 : E.length = 0
  · rw [if_pos h0]
    have hfr : fullRows o ref x nrow = List.range nrow := by
      have hE : E = [] := List.length_eq_zero_iff.1 h0
      rw [hEdef, List.filter_eq_nil_iff] at hE
      exact List.filter_eq_self.2 fun a h => by simpa using hE a h
    rw [hfr, List.length_range]
    congr 2
    apply flat_congr
    intro i hi e _
    rw [List.getD_eq_getElem _ _ (by simpa using hi), List.getElem_range]
  · rw [if_neg h0]
    have hnew : nrow - E.length = (fullRows o ref x nrow).length := by omega
    rw [hnew]
    by_cases h1 : (fullRows o ref x nrow).length = 0
    · rw [if_pos h1, h1]
      rfl
    · rw [if_neg h1, st_listBlk (by omega)]
      simp only
      have hkept : runRows 0 (E ++ [nrow]) = fullRows o ref x nrow := by
        have := runRows_filter (fun k => emptyR o (clipR o ref (x k))) nrow 0
        rw [zero_add, ← List.range_eq_range'] at this
        exact this
      have hc := copyM_flat (x := fun i => clipR o ref (x i)) (nrow := nrow) (n := (fullRows o ref x nrow).length) (E ++ [nrow])
        (by rw [List.length_append, List.length_singleton]; omega)
        (by
          intro e he
          rcases List.mem_append.1 he with h' | h'
          · exact (List.mem_range.1 (List.mem_filter.1 h').1).le
          · exact (List.mem_singleton.1 h').le) (E ++ [nrow]) 0 0 [] rfl (by rw [hkept]; simp)
      rw [hkept, List.nil_append, List.length_append, List.length_singleton, ← List.range_eq_range'] at hc
      have hd : (allocBlk (5 * (fullRows o ref x nrow).length) : Blk F) = rowsBlk (fun i => clipR o ref (x i)) [] (fullRows o ref x nrow).length := by
        rw [allocBlk_eq]; rfl
      rw [hd, show (0 : ℕ) = ([] : List ℕ).length from rfl]
      rw [show ([] : List ℕ).length = 0 from rfl] at hc ⊢
      rw [hc]
      simp only
      rw [rowsBlk_full]

theorem permuteRows_flat {x : ℕ → ℕ → F} {w n : ℕ} {perm : List ℕ} (hp : perm.Perm (List.range n)) :
    permuteRows w n (flatPts x w n) perm = flatPts (fun j => x (perm.getD j 0)) w n := by
  unfold permuteRows flatPts cells
  apply List.map_congr_left
  intro i hi
  have hi' : i < w * n := List.mem_range.1 hi
  have hw : 0 < w := by
    rcases Nat.eq_zero_or_pos w with h | h
    · subst h; simp at hi'
    · exact h
  have hdiv : i / w < perm.length := by
    rw [hp.length_eq, List.length_range]
    exact Nat.div_lt_of_lt_mul hi'
  have hr : perm.getD (i / w) 0 < n := by
    rw [List.getD_eq_getElem _ _ hdiv]
    exact List.mem_range.1 (hp.mem_iff.1 (List.getElem_mem _))
  have hm := Nat.mod_lt i hw
  have := flat_idx hr hm
  unfold blk
  rw [List.getElem?_map, List.getElem?_range this, Option.map_some]
  simp only [flat_div hm, flat_mod hm, Option.join_some]

/-! ## the sweep -/

/-- A failed assertion, as an error. -/
def assertM {β : Type} : Option β → Except MemErr β
  | some v => .ok v
  | none => .error .assertion

/-- The assertions of `get_rectangle` for a row. -/
def rectOkR (o : FOps F) (q : ℕ → F) : Bool := o.lt (q 0) (q 2) && o.lt (q 1) (q 3) && o.le o.zero (q 4)

/-- The loop over the rectangles, on rows. -/
def whvInnerR (o : FOps F) (R : ℕ → ℕ → F) (p0 p1 top : F) : Bool → List ℕ → F → Option F
  | _, [], acc => some acc
  | first, r :: rs, acc =>
    if !rectOkR o (R r) then none
    else if !first && !o.lt p1 (R r 3) then some acc
    else if o.lt p0 (R r 2) && o.lt (R r 1) top then
      if !o.lt p1 (R r 3) || !o.lt p1 top then none
      else whvInnerR o R p0 p1 top false rs
        (o.add acc (o.mul (o.mul (o.sub (R r 2) (o.max p0 (R r 0))) (o.sub (o.min top (R r 3)) (o.max p1 (R r 1)))) (R r 4)))
    else whvInnerR o R p0 p1 top false rs acc

/-- The main loop, on rows. -/
def whvGoR (o : FOps F) (D R : ℕ → ℕ → F) (nrow : ℕ) (u1 lastTop lastRight : F) : Bool → F → List ℕ → F → Option F
  | _, _, [], acc => some acc
  | again, top, p :: rest, acc =>
    if again && o.eq top (D p 1) && o.le u1 (D p 1) then
      if o.eq (D p 1) lastTop || o.le lastRight (D p 0) then some acc
      else whvGoR o D R nrow u1 lastTop lastRight true (D p 1) rest acc
    else if !o.lt (D p 1) u1 then none
    else match whvInnerR o R (D p 0) (D p 1) top true (List.range nrow) acc with
      | none => none
      | some acc =>
        if o.eq (D p 1) lastTop || o.le lastRight (D p 0) then some acc
        else whvGoR o D R nrow u1 lastTop lastRight true (D p 1) rest acc

/-- The first loop, on rows. -/
def whvFirstR (o : FOps F) (D R : ℕ → ℕ → F) (nrow : ℕ) (u1 lastTop lastRight : F) : F → List ℕ → Option F
  | _, [] => some o.zero
  | top, p :: rest =>
    if o.le u1 (D p 1) then
      if o.eq (D p 1) lastTop || o.le lastRight (D p 0) then some o.zero
      else whvFirstR o D R nrow u1 lastTop lastRight (D p 1) rest
    else whvGoR o D R nrow u1 lastTop lastRight false top (p :: rest) o.zero

/-- The sweep over sorted points `D` and sorted rectangles `R`. -/
def whvSweepR (o : FOps F) (lowest : F) (D : ℕ → ℕ → F) (n : ℕ) (R : ℕ → ℕ → F) (nrow : ℕ) : Option F :=
  if !rectOkR o (R 0) then none
  else whvFirstR o D R nrow (R 0 3) (R (nrow - 1) 3) ((List.range nrow).foldl (fun m r => o.max m (R r 2)) lowest) (R 0 3) (List.range n)

theorem getRectM_flat (o : FOps F) {R : ℕ → ℕ → F} {nrow r : ℕ} (hr : r < nrow) :
    getRectM o (flatPts R 5 nrow) r = if rectOkR o (R r) then .ok (R r 0, R r 1, R r 2, R r 3, R r 4) else .error .assertion := by
  unfold getRectM
  rw [ld_flat hr (by norm_num), ld_flat hr (by norm_num), ld_flat hr (by norm_num), ld_flat hr (by norm_num), ld_flat hr (by norm_num)]
  simp only [bind, Except.bind, rectOkR]
  by_cases h1 : o.lt (R r 0) (R r 2) = true <;> by_cases h2 : o.lt (R r 1) (R r 3) = true <;> by_cases h3 : o.le o.zero (R r 4) = true <;> simp [h1, h2, h3]

theorem lastRightM_flat (o : FOps F) {R : ℕ → ℕ → F} {nrow : ℕ} : ∀ (rs : List ℕ) (m : F), (∀ r ∈ rs, r < nrow) →
    lastRightM o (flatPts R 5 nrow) rs m = .ok (rs.foldl (fun m r => o.max m (R r 2)) m) := by
  intro rs
  induction rs with
  | nil => intro m _; rfl
  | cons r rs ih =>
    intro m h
    unfold lastRightM
    rw [ld_flat (h r (by simp)) (by norm_num)]
    simp only [bind, Except.bind]
    rw [ih _ (fun y hy => h y (by simp [hy]))]
    rfl

theorem whvInnerM_flat (o : FOps F) {R : ℕ → ℕ → F} {nrow : ℕ} (p0 p1 top : F) : ∀ (rs : List ℕ) (first : Bool) (acc : F), (∀ r ∈ rs, r < nrow) →
    whvInnerM o (flatPts R 5 nrow) p0 p1 top first rs acc = assertM (whvInnerR o R p0 p1 top first rs acc) := by
  intro rs
  induction rs with
  | nil => intro first acc _; rfl
  | cons r rs ih =>
    intro first acc h
    have ih' := fun f a => ih f a (fun y hy => h y (by simp [hy]))
    unfold whvInnerM whvInnerR
    rw [getRectM_flat o (h r (by simp))]
    by_cases h1 : rectOkR o (R r) = true
    · simp only [h1, if_true, bind, Except.bind, ih', Bool.not_true, Bool.false_eq_true, if_false]
      cases first <;> cases o.lt p1 (R r 3) <;> cases o.lt p0 (R r 2) <;> cases o.lt (R r 1) top <;> cases o.lt p1 top <;> simp [assertM]
    · rw [Bool.not_eq_true] at h1
      simp [h1, bind, Except.bind, assertM]

theorem whvGoM_flat (o : FOps F) {D R : ℕ → ℕ → F} {n nrow : ℕ} (u1 lastTop lastRight : F) : ∀ (ps : List ℕ) (again : Bool) (top acc : F), (∀ p ∈ ps, p < n) →
    whvGoM o (flatPts D 2 n) (flatPts R 5 nrow) nrow u1 lastTop lastRight again top ps acc =
      assertM (whvGoR o D R nrow u1 lastTop lastRight again top ps acc) := by
  intro ps
  induction ps with
  | nil => intro again top acc _; rfl
  | cons p ps ih =>
    intro again top acc h
    have ih' := fun a t c => ih a t c (fun y hy => h y (by simp [hy]))
    unfold whvGoM whvGoR
    rw [ld_flat (h p (by simp)) (by norm_num), ld_flat (h p (by simp)) (by norm_num)]
    simp only [bind, Except.bind, ih', whvInnerM_flat o (D p 0) (D p 1) top (List.range nrow) true acc (fun r hr => List.mem_range.1 hr)]
    by_cases h1 : (again && o.eq top (D p 1) && o.le u1 (D p 1)) = true
    · simp only [h1, if_true]
      split_ifs <;> rfl
    · simp only [if_neg h1]
      by_cases h2 : (!o.lt (D p 1) u1) = true
      · simp only [if_pos h2]; rfl
      · simp only [if_neg h2]
        cases whvInnerR o R (D p 0) (D p 1) top true (List.range nrow) acc with
        | none => rfl
        | some a =>
          simp only [assertM]
          split_ifs <;> rfl

theorem whvFirstM_flat (o : FOps F) {D R : ℕ → ℕ → F} {n nrow : ℕ} (u1 lastTop lastRight : F) : ∀ (ps : List ℕ) (top : F), (∀ p ∈ ps, p < n) →
    whvFirstM o (flatPts D 2 n) (flatPts R 5 nrow) nrow u1 lastTop lastRight top ps =
      assertM (whvFirstR o D R nrow u1 lastTop lastRight top ps) := by
  intro ps
  induction ps with
  | nil => intro top _; rfl
  | cons p ps ih =>
    intro top h
    have ih' := fun t => ih t (fun y hy => h y (by simp [hy]))
    unfold whvFirstM whvFirstR
    rw [ld_flat (h p (by simp)) (by norm_num), ld_flat (h p (by simp)) (by norm_num)]
    simp only [bind, Except.bind, ih', whvGoM_flat o u1 lastTop lastRight (p :: ps) false top o.zero h]
    split_ifs <;> rfl

/-- Sorting and the sweep. -/
def whvSortedR (o : FOps F) (lowest : F) (sortD sortR : Blk F → List ℕ) (x : ℕ → ℕ → F) (n : ℕ) (C : ℕ → ℕ → F) (m : ℕ) : Option F :=
  whvSweepR o lowest (fun j => x ((sortD (flatPts x 2 n)).getD j 0)) n (fun j => C ((sortR (flatPts C 5 m)).getD j 0)) m

/-- `rect_weighted_hv2d` on rows. -/
def rectWeightedR (o : FOps F) (lowest : F) (sortD sortR : Blk F → List ℕ) (x : ℕ → ℕ → F) (n : ℕ) (R : ℕ → ℕ → F) (nrow : ℕ) (ref : ℕ → F) : Option F :=
  if nrow = 0 ∨ n = 0 then some o.zero
  else if (fullRows o ref R nrow).length = 0 then some o.zero
  else whvSortedR o lowest sortD sortR x n (fun j => clipR o ref (R ((fullRows o ref R nrow).getD j 0))) (fullRows o ref R nrow).length

theorem rectWeightedHv2dM_ok (o : FOps F) (lowest : F) (sortD sortR : Blk F → List ℕ) (x : ℕ → ℕ → F) (n : ℕ) (R : ℕ → ℕ → F) (nrow : ℕ) (ref : ℕ → F)
    (hD : ∀ b, (sortD b).Perm (List.range n)) (hR : ∀ b : Blk F, (sortR b).Perm (List.range (b.length / 5))) :
    rectWeightedHv2dM o lowest sortD sortR (flatPts x 2 n) n (flatPts R 5 nrow) nrow (cells ref 2) =
      assertM (rectWeightedR o lowest sortD sortR x n R nrow ref) := by
  unfold rectWeightedHv2dM rectWeightedR
  by_cases h0 : nrow = 0 ∨ n = 0
  · rw [if_pos h0, if_pos h0]; rfl
  rw [if_neg h0, if_neg h0, whvPreprocessM_ok]
  simp only [bind, Except.bind]
  by_cases h1 : (fullRows o ref R nrow).length = 0
  · rw [if_pos h1, if_pos h1]; rfl
  rw [if_neg h1, if_neg h1]
  generalize (fun j => clipR o ref (R ((fullRows o ref R nrow).getD j 0))) = C
  have hm : 0 < (fullRows o ref R nrow).length := Nat.pos_of_ne_zero h1
  generalize (fullRows o ref R nrow).length = m at *
  have hlen : (flatPts C 5 m).length / 5 = m := by
    unfold flatPts cells
    rw [length_blk]
    omega
  have hp := hR (flatPts C 5 m)
  rw [hlen] at hp
  rw [permuteRows_flat (hD _), permuteRows_flat hp, getRectM_flat o hm]
  unfold whvSortedR whvSweepR
  by_cases h2 : rectOkR o (C ((sortR (flatPts C 5 m)).getD 0 0)) = true
  · simp only [h2, if_true, Bool.not_true, Bool.false_eq_true, if_false]
    rw [show m * 5 - 2 = (m - 1) * 5 + 3 by omega, ld_flat (by omega) (by norm_num)]
    simp only
    rw [lastRightM_flat o _ _ (fun r hr => List.mem_range.1 hr)]
    simp only
    exact whvFirstM_flat o _ _ _ _ _ (fun p hp => List.mem_range.1 hp)
  · rw [if_neg h2, if_pos (by simpa using h2)]
    rfl

/-! ## samples -/

/-- Whether a point counts as a dominator of a sample. -/
def hypeDom (o : FOps F) (p s : ℕ → F) : Bool := !(o.lt (s 0) (p 0)) && !(o.lt (s 1) (p 1))

theorem hypeCountM_flat (o : FOps F) (x : ℕ → ℕ → F) (n : ℕ) (s : ℕ → F) : ∀ (js : List ℕ) (c : ℕ) (g : ℕ → Option Bool), (∀ j ∈ js, j < n) →
    hypeCountM o (flatPts x 2 n) (s 0) (s 1) js (c, blk g n) =
      .ok (c + (js.filter fun j => hypeDom o (x j) s).length, blk (fun i => if i ∈ js then some (hypeDom o (x i) s) else g i) n) := by
  intro js
  induction js with
  | nil => intro c g _; simp [hypeCountM]
  | cons j js ih =>
    intro c g h
    have hj := h j (by simp)
    unfold hypeCountM
    rw [ld_flat hj (by norm_num), ld_flat hj (by norm_num)]
    simp only [bind, Except.bind]
    rw [st_blk hj]
    simp only
    rw [ih _ _ (fun y hy => h y (by simp [hy]))]
    have e : (!(o.lt (s 0) (x j 0)) && !(o.lt (s 1) (x j 1))) = hypeDom o (x j) s := rfl
    rw [e]
    congr 2
    · by_cases hd : hypeDom o (x j) s = true <;> simp [hd]; omega
    · apply blk_congr
      intro i _
      simp only [upd_apply, List.mem_cons]
      by_cases h1 : i ∈ js
      · simp [h1]
      · by_cases h2 : i = j
        · subst h2; simp [h1]
        · simp [h1, h2]

theorem hypeAddM_cells (o : FOps F) (f : ℕ → Bool) (n c : ℕ) : ∀ (js : List ℕ) (w : F), (∀ j ∈ js, j < n) → (c = 0 → ∀ j ∈ js, f j = false) →
    hypeAddM o c (cells f n) js w = .ok ((js.filter f).foldl (fun w _ => o.add w (o.div o.one (o.ofNat c))) w) := by
  intro js
  induction js with
  | nil => intro w _ _; rfl
  | cons j js ih =>
    intro w h hc
    unfold hypeAddM
    rw [ld_cells (h j (by simp))]
    simp only [bind, Except.bind]
    have ih' := fun w => ih w (fun y hy => h y (by simp [hy])) (fun h0 y hy => hc h0 y (by simp [hy]))
    by_cases hf : f j = true
    · have hc0 : c ≠ 0 := fun h0 => by
        have := hc h0 j (by simp)
        rw [hf] at this
        cases this
      rw [if_pos hf, if_neg hc0, ih', List.filter_cons_of_pos hf, List.foldl_cons]
    · rw [if_neg hf, ih', List.filter_cons_of_neg hf]

/-- The contribution of one sample. -/
def hypeTerm (o : FOps F) (x : ℕ → ℕ → F) (n : ℕ) (w : F) (s : ℕ → F) : F :=
  ((List.range n).filter fun j => hypeDom o (x j) s).foldl (fun w _ => o.add w (o.div o.one (o.ofNat ((List.range n).filter fun j => hypeDom o (x j) s).length))) w

theorem hypeLoopM_flat (o : FOps F) (x : ℕ → ℕ → F) (n : ℕ) (S : ℕ → ℕ → F) (ns : ℕ) : ∀ (ss : List ℕ) (dom : ℕ → ℕ) (g : ℕ → Option Bool) (w : F),
    ss.Nodup → (∀ s ∈ ss, s < ns) → (∀ s ∈ ss, dom s = 0) →
    hypeLoopM o (flatPts x 2 n) n (flatPts S 2 ns) ss (cells dom ns) (blk g n) w = .ok (ss.foldl (fun w s => hypeTerm o x n w (S s)) w) := by
  intro ss
  induction ss with
  | nil => intro dom g w _ _ _; rfl
  | cons s ss ih =>
    intro dom g w hn h h0
    have hs := h s (by simp)
    unfold hypeLoopM
    rw [ld_flat hs (by norm_num), ld_flat hs (by norm_num), ld_cells hs, h0 s (by simp)]
    simp only [bind, Except.bind]
    rw [hypeCountM_flat o x n (S s) _ _ _ (fun j hj => List.mem_range.1 hj)]
    simp only [zero_add]
    rw [st_cells hs]
    simp only
    have hb : blk (fun i => if i ∈ List.range n then some (hypeDom o (x i) (S s)) else g i) n = cells (fun i => hypeDom o (x i) (S s)) n := by
      apply blk_congr
      intro i hi
      simp [hi]
    rw [hb, hypeAddM_cells o _ n _ _ _ (fun j hj => List.mem_range.1 hj) (by
      intro hz j hj
      rw [List.length_eq_zero_iff, List.filter_eq_nil_iff] at hz
      simpa using hz j hj)]
    simp only
    unfold cells
    rw [show blk (fun i => some (upd dom s ((List.range n).filter fun j => hypeDom o (x j) (S s)).length i)) ns =
      cells (upd dom s ((List.range n).filter fun j => hypeDom o (x j) (S s)).length) ns from rfl]
    rw [ih _ _ _ (List.nodup_cons.1 hn).2 (fun y hy => h y (by simp [hy])) (by
      intro y hy
      rw [upd_apply, if_neg]
      · exact h0 y (by simp [hy])
      · rintro rfl
        exact (List.nodup_cons.1 hn).1 hy)]
    rfl

theorem estimateWhvM_ok (o : FOps F) (x : ℕ → ℕ → F) (n : ℕ) (S : ℕ → ℕ → F) (ns : ℕ) :
    estimateWhvM o (flatPts x 2 n) n (flatPts S 2 ns) ns = .ok ((List.range ns).foldl (fun w s => hypeTerm o x n w (S s)) o.zero) := by
  unfold estimateWhvM
  have : (List.replicate ns (some 0) : Blk ℕ) = cells (fun _ => 0) ns := by
    unfold cells blk
    apply List.ext_getElem <;> simp
  rw [this, allocBlk_eq]
  exact hypeLoopM_flat o x n S ns _ _ _ _ List.nodup_range (fun s hs => List.mem_range.1 hs) (fun _ _ => rfl)

end Moo
