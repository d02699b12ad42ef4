import Verif.Model.NdMem
import Verif.Lemmas.Nondominated
import Mathlib.Data.List.Perm.Basic
import Mathlib.Tactic.Linarith
import Mathlib.Tactic.Ring

set_option autoImplicit false
set_option linter.unusedSectionVars false

/-! # Helper lemmas: memory accesses of dominance filtering -/

namespace Moo

/-- A block with contents given by a function. -/
def blk {β : Type} (g : ℕ → Option β) (n : ℕ) : Blk β := (List.range n).map g

/-- A block all of whose cells are written. -/
def cells {β : Type} (f : ℕ → β) (n : ℕ) : Blk β := blk (fun i => some (f i)) n

theorem blk_congr {β : Type} {g g' : ℕ → Option β} {n : ℕ} (h : ∀ i < n, g i = g' i) : blk g n = blk g' n := by
  unfold blk
  apply List.map_congr_left
  intro i hi
  exact h i (List.mem_range.1 hi)

theorem cells_congr {β : Type} {f f' : ℕ → β} {n : ℕ} (h : ∀ i < n, f i = f' i) : cells f n = cells f' n :=
  blk_congr (fun i hi => by rw [h i hi])

theorem length_blk {β : Type} (g : ℕ → Option β) (n : ℕ) : (blk g n).length = n := by simp [blk]

theorem allocBlk_eq {β : Type} (n : ℕ) : (allocBlk n : Blk β) = blk (fun _ => none) n := by
  unfold allocBlk blk
  apply List.ext_getElem <;> simp

theorem ld_blk {β : Type} {g : ℕ → Option β} {n i : ℕ} {v : β} (hi : i < n) (h : g i = some v) : ldBlk (blk g n) i = .ok v := by
  unfold ldBlk blk
  simp [hi, h]

theorem ld_cells {β : Type} {f : ℕ → β} {n i : ℕ} (hi : i < n) : ldBlk (cells f n) i = .ok (f i) := ld_blk hi rfl

theorem st_blk {β : Type} {g : ℕ → Option β} {n i : ℕ} {v : β} (hi : i < n) :
    stBlk (blk g n) i v = .ok (blk (upd g i (some v)) n) := by
  unfold stBlk
  rw [if_pos (by rw [length_blk]; exact hi)]
  congr 1
  unfold blk
  apply List.ext_getElem
  · simp
  · intro m h1 h2
    simp only [List.length_set, List.length_map, List.length_range] at h1
    rw [List.getElem_set]
    simp only [List.getElem_map, List.getElem_range, upd_apply]
    by_cases h : m = i
    · simp [h]
    · rw [if_neg h, if_neg (fun h' => h h'.symm)]

theorem st_cells {β : Type} {f : ℕ → β} {n i : ℕ} {v : β} (hi : i < n) :
    stBlk (cells f n) i v = .ok (cells (upd f i v) n) := by
  unfold cells
  rw [st_blk hi]
  congr 1
  apply blk_congr
  intro m _
  simp only [upd_apply]
  split_ifs <;> rfl

theorem fillM_blk {β : Type} (v : ℕ → β) (n : ℕ) : ∀ (ks : List ℕ) (g : ℕ → Option β), (∀ k ∈ ks, k < n) →
    fillM v ks (blk g n) = .ok (blk (fun i => if i ∈ ks then some (v i) else g i) n) := by
  intro ks
  induction ks with
  | nil => intro g _; simp [fillM]
  | cons k ks ih =>
    intro g hk
    unfold fillM
    rw [st_blk (hk k (by simp))]
    simp only [bind, Except.bind]
    rw [ih _ (fun x hx => hk x (by simp [hx]))]
    congr 1
    apply blk_congr
    intro i _
    simp only [upd_apply, List.mem_cons]
    by_cases h1 : i ∈ ks
    · simp [h1]
    · by_cases h2 : i = k <;> simp [h1, h2]

theorem fillM_alloc {β : Type} (v : ℕ → β) (n : ℕ) : fillM v (List.range n) (allocBlk n) = .ok (cells v n) := by
  rw [allocBlk_eq, fillM_blk v n _ _ (fun k hk => List.mem_range.1 hk)]
  congr 1
  apply blk_congr
  intro i hi
  simp [hi]

theorem nondomInitM_ok (size : ℕ) : nondomInitM size = .ok (cells (fun _ => true) size) := fillM_alloc _ _

theorem minmaxLoopM_blk (mx : ℕ → Bool) (n : ℕ) : ∀ (ks : List ℕ) (g : ℕ → Option ℤ), (∀ k ∈ ks, k < n) →
    minmaxLoopM (cells mx n) ks (blk g n) = .ok (blk (fun i => if i ∈ ks then some (minmaxFromBool mx i) else g i) n) := by
  intro ks
  induction ks with
  | nil => intro g _; simp [minmaxLoopM]
  | cons k ks ih =>
    intro g hk
    unfold minmaxLoopM
    rw [ld_cells (hk k (by simp))]
    simp only [bind, Except.bind]
    rw [st_blk (hk k (by simp))]
    simp only
    rw [ih _ (fun x hx => hk x (by simp [hx]))]
    congr 1
    apply blk_congr
    intro i _
    simp only [upd_apply, List.mem_cons]
    by_cases h1 : i ∈ ks
    · simp [h1]
    · by_cases h2 : i = k
      · subst h2; simp [h1, minmaxFromBool]
      · simp [h1, h2]

theorem minmaxFromBoolM_ok (nobj : ℕ) (mx : ℕ → Bool) :
    minmaxFromBoolM nobj (cells mx nobj) = .ok (cells (minmaxFromBool mx) nobj) := by
  unfold minmaxFromBoolM
  rw [allocBlk_eq, minmaxLoopM_blk mx nobj _ _ (fun k hk => List.mem_range.1 hk)]
  congr 1
  apply blk_congr
  intro i hi
  simp [hi]

/-! ## the table of points -/

/-- The table in row-major order. -/
def flatPts {F : Type} (x : ℕ → ℕ → F) (dim size : ℕ) : Blk F := cells (fun i => x (i / dim) (i % dim)) (dim * size)

theorem flat_idx {dim size k d : ℕ} (hk : k < size) (hd : d < dim) : k * dim + d < dim * size := by
  have : (k + 1) * dim ≤ size * dim := Nat.mul_le_mul_right _ hk
  rw [Nat.mul_comm dim size]
  have h2 : (k + 1) * dim = k * dim + dim := by ring
  omega

theorem flat_div {dim k d : ℕ} (hd : d < dim) : (k * dim + d) / dim = k := by
  rw [Nat.mul_comm, Nat.mul_add_div (by omega), Nat.div_eq_of_lt hd]; rfl

theorem flat_mod {dim k d : ℕ} (hd : d < dim) : (k * dim + d) % dim = d := by
  rw [Nat.mul_comm, Nat.mul_add_mod, Nat.mod_eq_of_lt hd]

theorem ld_flat {F : Type} {x : ℕ → ℕ → F} {dim size k d : ℕ} (hk : k < size) (hd : d < dim) :
    ldBlk (flatPts x dim size) (k * dim + d) = .ok (x k d) := by
  unfold flatPts
  rw [ld_cells (flat_idx hk hd), flat_div hd, flat_mod hd]

theorem ld_flat_x {F : Type} {x : ℕ → ℕ → F} {size k : ℕ} (hk : k < size) : ldBlk (flatPts x 2 size) (2 * k) = .ok (x k 0) := by
  have := ld_flat (x := x) (dim := 2) (d := 0) hk (by omega)
  rwa [Nat.add_zero, Nat.mul_comm] at this

theorem ld_flat_y {F : Type} {x : ℕ → ℕ → F} {size k : ℕ} (hk : k < size) : ldBlk (flatPts x 2 size) (2 * k + 1) = .ok (x k 1) := by
  have := ld_flat (x := x) (dim := 2) (d := 1) hk (by omega)
  rwa [Nat.mul_comm] at this

theorem flat_congr {F : Type} {x x' : ℕ → ℕ → F} {dim size : ℕ} (h : ∀ k < size, ∀ d < dim, x k d = x' k d) :
    flatPts x dim size = flatPts x' dim size := by
  apply cells_congr
  intro i hi
  rcases Nat.eq_zero_or_pos dim with hd | hd
  · subst hd; simp at hi
  · exact h _ (Nat.div_lt_of_lt_mul hi) _ (Nat.mod_lt _ hd)

theorem st_flat {F : Type} {x : ℕ → ℕ → F} {dim size k d : ℕ} {v : F} (hk : k < size) (hd : d < dim) :
    stBlk (flatPts x dim size) (k * dim + d) v =
      .ok (flatPts (fun i e => if i = k ∧ e = d then v else x i e) dim size) := by
  unfold flatPts
  rw [st_cells (flat_idx hk hd)]
  congr 1
  apply cells_congr
  intro i _
  simp only [upd_apply]
  by_cases h : i = k * dim + d
  · subst h
    rw [flat_div hd, flat_mod hd]; simp
  · rw [if_neg h, if_neg]
    rintro ⟨h1, h2⟩
    apply h
    have := Nat.div_add_mod i dim
    rw [h1, h2] at this
    rw [← this]; ring

theorem negColM_flat {F : Type} (neg : F → F) {dim size d : ℕ} (hd : d < dim) : ∀ (ks : List ℕ) (x : ℕ → ℕ → F), ks.Nodup → (∀ k ∈ ks, k < size) →
    negColM neg dim d ks (flatPts x dim size) =
      .ok (flatPts (fun i e => if e = d ∧ i ∈ ks then neg (x i e) else x i e) dim size) := by
  intro ks
  induction ks with
  | nil => intro x _ _; simp [negColM]
  | cons k ks ih =>
    intro x hn hk
    have hk0 := hk k (by simp)
    unfold negColM
    rw [ld_flat hk0 hd]
    simp only [bind, Except.bind]
    rw [st_flat hk0 hd]
    simp only
    rw [ih _ (List.nodup_cons.1 hn).2 (fun y hy => hk y (by simp [hy]))]
    congr 1
    apply flat_congr
    intro i _ e _
    have hnk := (List.nodup_cons.1 hn).1
    by_cases he : e = d
    · subst he
      by_cases hi : i = k
      · subst hi; simp [hnk]
      · simp [hi]
    · simp [he]

theorem negColsM_flat {F : Type} (neg : F → F) {dim size : ℕ} {mm : ℕ → ℤ} (hmm : ∀ d < dim, mm d ≠ 0) : ∀ (ds : List ℕ) (x : ℕ → ℕ → F),
    ds.Nodup → (∀ d ∈ ds, d < dim) →
    negColsM neg dim size (cells mm dim) ds (flatPts x dim size) =
      .ok (flatPts (fun i e => if e ∈ ds ∧ mm e > 0 then neg (x i e) else x i e) dim size) := by
  intro ds
  induction ds with
  | nil => intro x _ _; simp [negColsM]
  | cons d ds ih =>
    intro x hn hd
    have hd0 := hd d (by simp)
    have hnd := (List.nodup_cons.1 hn).1
    have ih' := fun x => ih x (List.nodup_cons.1 hn).2 (fun y hy => hd y (by simp [hy]))
    unfold negColsM
    rw [ld_cells hd0]
    simp only [bind, Except.bind]
    rw [if_neg (hmm d hd0)]
    by_cases hp : mm d > 0
    · rw [if_pos hp, negColM_flat neg hd0 _ _ List.nodup_range (fun k hk => List.mem_range.1 hk)]
      simp only
      rw [ih']
      congr 1
      apply flat_congr
      intro i hi e _
      by_cases he : e = d
      · subst he; simp [hnd, hp, hi]
      · simp [he]
    · rw [if_neg hp, ih']
      congr 1
      apply flat_congr
      intro i hi e _
      by_cases he : e = d
      · subst he; simp [hnd, hp]
      · simp [he]

theorem noCopyM_cells {mm : ℕ → ℤ} {dim : ℕ} : ∀ (ds : List ℕ), (∀ d ∈ ds, d < dim) →
    noCopyM (cells mm dim) ds = .ok (ds.all (fun d => !decide (mm d > 0))) := by
  intro ds
  induction ds with
  | nil => intro _; simp [noCopyM]
  | cons d ds ih =>
    intro hd
    unfold noCopyM
    rw [ld_cells (hd d (by simp))]
    simp only [bind, Except.bind]
    by_cases h : mm d > 0
    · simp [h]
    · rw [if_neg h, ih (fun y hy => hd y (by simp [hy]))]
      simp [h]

theorem cpBlk_blk {β : Type} (g g' : ℕ → Option β) (n : ℕ) : cpBlk (blk g n) (blk g' n) n = .ok (blk g' n) := by
  unfold cpBlk
  rw [if_pos (by simp [length_blk])]
  congr 1
  rw [List.take_of_length_le (by simp [length_blk]), List.drop_of_length_le (by simp [length_blk])]
  simp

/-- The rows after `force_agree_minimize`. -/
def agreeRows {F : Type} (neg : F → F) (mm : ℕ → ℤ) (x : ℕ → ℕ → F) : ℕ → ℕ → F := fun i e => if mm e > 0 then neg (x i e) else x i e

theorem forceAgreeMinimizeM_ok {F : Type} (neg : F → F) (x : ℕ → ℕ → F) (dim size : ℕ) (mm : ℕ → ℤ) (hmm : ∀ d < dim, mm d ≠ 0) (agree : ℤ)
    (ha : agree ≠ AGREE_MINIMISE) :
    forceAgreeMinimizeM neg (flatPts x dim size) dim size (cells mm dim) agree = .ok (flatPts (agreeRows neg mm x) dim size) := by
  unfold forceAgreeMinimizeM
  rw [if_neg ha, noCopyM_cells _ (fun d hd => List.mem_range.1 hd)]
  simp only [bind, Except.bind]
  by_cases hc : (List.range dim).all (fun d => !decide (mm d > 0)) = true
  · rw [if_pos hc]
    congr 1
    apply flat_congr
    intro k _ d hd
    rw [List.all_eq_true] at hc
    have := hc d (List.mem_range.2 hd)
    simp only [Bool.not_eq_true', decide_eq_false_iff_not] at this
    simp [agreeRows, this]
  · rw [if_neg hc, allocBlk_eq]
    have : cpBlk (blk (fun _ => none) (dim * size)) (flatPts x dim size) (dim * size) = .ok (flatPts x dim size) := cpBlk_blk _ _ _
    rw [this]
    simp only
    rw [negColsM_flat neg hmm _ _ List.nodup_range (fun d hd => List.mem_range.1 hd)]
    congr 1
    apply flat_congr
    intro k _ d hd
    simp [agreeRows, hd]

/-! ## the pairwise loop -/

section
variable {F : Type}

/-- `a` is at least as good as `b` in objective `d`, as the code computes it. -/
def leC (c : FCmp F) (mm : ℕ → ℤ) (agree : ℤ) (d : ℕ) (a b : F) : Bool :=
  if agree < 0 then c.le a b else if agree > 0 then c.le b a
  else if mm d < 0 then c.le a b else if mm d > 0 then c.le b a else true

/-- The same for rows. -/
def rowLe (c : FCmp F) (dim : ℕ) (mm : ℕ → ℤ) (agree : ℤ) (x : ℕ → ℕ → F) (j k : ℕ) : Bool :=
  (List.range dim).all (fun d => leC c mm agree d (x j d) (x k d))

theorem leqPairM_ok (c : FCmp F) (x : ℕ → ℕ → F) (dim size : ℕ) (mm : ℕ → ℤ) (agree : ℤ) {j k : ℕ} (hj : j < size) (hk : k < size) :
    ∀ (ds : List ℕ) (s : Bool × Bool), (∀ d ∈ ds, d < dim) →
    leqPairM c (flatPts x dim size) dim (cells mm dim) agree j k ds s =
      .ok (s.1 && ds.all (fun d => leC c mm agree d (x j d) (x k d)), s.2 && ds.all (fun d => leC c mm agree d (x k d) (x j d))) := by
  intro ds
  induction ds with
  | nil => intro s _; simp [leqPairM]
  | cons d ds ih =>
    intro s hd
    have hd0 := hd d (by simp)
    have ih' := fun s => ih s (fun y hy => hd y (by simp [hy]))
    unfold leqPairM
    rw [ld_flat hj hd0, ld_flat hk hd0]
    simp only [bind, Except.bind]
    simp only [ih', ld_cells hd0, List.all_cons]
    have hl : ∀ a b, leC c mm agree d a b = if agree < 0 then c.le a b else if agree > 0 then c.le b a
      else if mm d < 0 then c.le a b else if mm d > 0 then c.le b a else true := fun _ _ => rfl
    rw [hl, hl]
    split_ifs <;> simp [Bool.and_assoc]

/-- The inner loop, as a function of the relation between the rows. -/
def ndInnerR (R : ℕ → ℕ → Bool) (fd kw : Bool) (k : ℕ) : List ℕ → (ℕ → Bool) → Option ℤ × (ℕ → Bool)
  | [], nd => (none, nd)
  | j :: js, nd =>
    if !nd k then (none, nd)
    else if !nd j then ndInnerR R fd kw k js nd
    else
      let ndk := !R j k || (kw && R k j)
      let ndj := !R k j || R j k
      let nd' := upd (upd nd k ndk) j ndj
      if fd && (!ndk || !ndj) then (some (if ndk then (j : ℤ) else (k : ℤ)), nd')
      else ndInnerR R fd kw k js nd'

/-- The outer loop, as a function of the relation between the rows. -/
def ndOuterR (R : ℕ → ℕ → Bool) (size : ℕ) (fd kw : Bool) : List ℕ → (ℕ → Bool) → Option ℤ × (ℕ → Bool)
  | [], nd => (none, nd)
  | k :: ks, nd =>
    match ndInnerR R fd kw k (List.range' (k + 1) (size - (k + 1))) nd with
    | (some v, nd') => (some v, nd')
    | (none, nd') => ndOuterR R size fd kw ks nd'

theorem ndInnerM_ok (c : FCmp F) (x : ℕ → ℕ → F) (dim size : ℕ) (mm : ℕ → ℤ) (agree : ℤ) (fd kw : Bool) {k : ℕ} (hk : k < size) :
    ∀ (js : List ℕ) (nd : ℕ → Bool), (∀ j ∈ js, j < size) →
    ndInnerM c (flatPts x dim size) dim (cells mm dim) agree fd kw k js (cells nd size) =
      .ok ((ndInnerR (rowLe c dim mm agree x) fd kw k js nd).1, cells (ndInnerR (rowLe c dim mm agree x) fd kw k js nd).2 size) := by
  intro js
  induction js with
  | nil => intro nd _; simp [ndInnerM, ndInnerR]
  | cons j js ih =>
    intro nd hjs
    have hj := hjs j (by simp)
    have ih' := fun nd => ih nd (fun y hy => hjs y (by simp [hy]))
    unfold ndInnerM ndInnerR
    rw [ld_cells hk]
    simp only [bind, Except.bind]
    by_cases h1 : nd k = true
    · rw [ld_cells hj]
      simp only [h1, Bool.not_true, Bool.false_eq_true, if_false]
      by_cases h2 : nd j = true
      · simp only [h2, Bool.not_true, Bool.false_eq_true, if_false]
        rw [leqPairM_ok c x dim size mm agree hj hk _ _ (fun d hd => List.mem_range.1 hd)]
        simp only [Bool.true_and]
        have e1 : (List.range dim).all (fun d => leC c mm agree d (x j d) (x k d)) = rowLe c dim mm agree x j k := rfl
        have e2 : (List.range dim).all (fun d => leC c mm agree d (x k d) (x j d)) = rowLe c dim mm agree x k j := rfl
        rw [e1, e2, st_cells hk]
        simp only
        rw [st_cells hj]
        simp only
        rw [ih']
        generalize rowLe c dim mm agree x j k = a
        generalize rowLe c dim mm agree x k j = b
        have : (!(!a || kw && b || (!b || a))) = false := by cases a <;> cases b <;> simp
        rw [this]
        simp only [Bool.false_eq_true, if_false]
        split_ifs <;> rfl
      · simp only [Bool.not_eq_true] at h2
        simp [h2, ih']
    · simp only [Bool.not_eq_true] at h1
      simp [h1]

theorem ndOuterM_ok (c : FCmp F) (x : ℕ → ℕ → F) (dim size : ℕ) (mm : ℕ → ℤ) (agree : ℤ) (fd kw : Bool) :
    ∀ (ks : List ℕ) (nd : ℕ → Bool), (∀ k ∈ ks, k < size) →
    ndOuterM c (flatPts x dim size) dim size (cells mm dim) agree fd kw ks (cells nd size) =
      .ok ((ndOuterR (rowLe c dim mm agree x) size fd kw ks nd).1, cells (ndOuterR (rowLe c dim mm agree x) size fd kw ks nd).2 size) := by
  intro ks
  induction ks with
  | nil => intro nd _; simp [ndOuterM, ndOuterR]
  | cons k ks ih =>
    intro nd hks
    have ih' := fun nd => ih nd (fun y hy => hks y (by simp [hy]))
    unfold ndOuterM ndOuterR
    rw [ndInnerM_ok c x dim size mm agree fd kw (hks k (by simp)) _ _
      (by intro j hj; rw [List.mem_range'_1] at hj; omega)]
    simp only [bind, Except.bind]
    rcases h : ndInnerR (rowLe c dim mm agree x) fd kw k (List.range' (k + 1) (size - (k + 1))) nd with ⟨_ | v, nd'⟩
    · simp only [ih']
    · simp only

theorem countM_ok (nd : ℕ → Bool) (size : ℕ) : ∀ (ks : List ℕ) (n : ℤ), (∀ k ∈ ks, k < size) →
    countM (cells nd size) ks n = .ok (ks.foldl (fun c k => if nd k then c + 1 else c) n) := by
  intro ks
  induction ks with
  | nil => intro n _; simp [countM]
  | cons k ks ih =>
    intro n hk
    unfold countM
    rw [ld_cells (hk k (by simp))]
    simp only [bind, Except.bind]
    rw [ih _ (fun y hy => hk y (by simp [hy]))]
    rfl

/-! ## two objectives -/

/-- The scan, as a function of the comparisons between rows. -/
def nd2dScanR (ge ne : ℕ → ℕ → Bool) (kw : Bool) : ℕ → ℕ → List ℕ → (ℕ → Bool) → ℤ → (ℕ → Bool) × ℤ
  | _, _, [], nd, c => (nd, c)
  | k, pos, j :: js, nd, c =>
    if ge j k then
      if !kw || ne j k then nd2dScanR ge ne kw k (pos + 1) js (upd nd pos false) (c + 1)
      else nd2dScanR ge ne kw k (pos + 1) js nd c
    else nd2dScanR ge ne kw j (pos + 1) js nd c

/-- The search, as a function of the comparisons between rows. -/
def findDom2dR (ge ne : ℕ → ℕ → Bool) (kw : Bool) : ℕ → List ℕ → ℤ
  | _, [] => -1
  | k, j :: js =>
    if ge j k then
      if !kw || ne j k then (j : ℤ) else findDom2dR ge ne kw k js
    else findDom2dR ge ne kw j js

/-- `p[j][1] >= p[k][1]` for rows. -/
def geY (c : FCmp F) (x : ℕ → ℕ → F) (j k : ℕ) : Bool := c.le (x k 1) (x j 1)

/-- `p[j][0] != p[k][0] || p[j][1] != p[k][1]` for rows. -/
def neXY (c : FCmp F) (x : ℕ → ℕ → F) (j k : ℕ) : Bool := !c.eq (x j 0) (x k 0) || !c.eq (x j 1) (x k 1)

theorem ld_map_some {p : List ℕ} {i : ℕ} (h : i < p.length) : ldBlk (p.map some) i = .ok p[i] := by
  unfold ldBlk; simp [h]

theorem nd2dScanM_ok (c : FCmp F) (x : ℕ → ℕ → F) (size : ℕ) (p : List ℕ) (hl : p.length = size) (hp : ∀ r ∈ p, r < size) (kw : Bool) :
    ∀ (fuel k j : ℕ) (nd : ℕ → Bool) (n : ℤ), size - j < fuel → (hk : k < size) →
    nd2dScanM c (flatPts x 2 size) (p.map some) size kw fuel k j (cells nd size) n =
      .ok (cells (nd2dScanR (geY c x) (neXY c x) kw (p[k]'(by omega)) j (p.drop j) nd n).1 size,
        (nd2dScanR (geY c x) (neXY c x) kw (p[k]'(by omega)) j (p.drop j) nd n).2) := by
  intro fuel
  induction fuel with
  | zero => intro k j nd n hf; omega
  | succ fuel ih =>
    intro k j nd n hf hk
    unfold nd2dScanM
    by_cases hj : j < size
    · have hj' : j < p.length := by omega
      have hk' : k < p.length := by omega
      rw [if_pos hj, ld_map_some hj', ld_map_some hk']
      simp only [bind, Except.bind]
      have rj := hp _ (List.getElem_mem hj')
      have rk := hp _ (List.getElem_mem hk')
      rw [ld_flat_y rj, ld_flat_y rk]
      simp only
      rw [ld_flat_x rj, ld_flat_x rk]
      simp only
      rw [st_cells hj]
      simp only
      rw [ih k (j + 1) _ _ (by omega) hk, ih k (j + 1) _ _ (by omega) hk, ih j (j + 1) _ _ (by omega) hj]
      rw [List.drop_eq_getElem_cons hj', nd2dScanR]
      have e1 : c.le (x p[k] 1) (x p[j] 1) = geY c x p[j] p[k] := rfl
      have e2 : (!kw || !c.eq (x p[j] 0) (x p[k] 0) || !c.eq (x p[j] 1) (x p[k] 1)) = (!kw || neXY c x p[j] p[k]) := by
        simp [neXY, Bool.or_assoc]
      rw [e1, e2]
      split_ifs <;> rfl
    · rw [if_neg hj, List.drop_of_length_le (by omega), nd2dScanR]

theorem findDom2dM_ok (c : FCmp F) (x : ℕ → ℕ → F) (size : ℕ) (p : List ℕ) (hl : p.length = size) (hp : ∀ r ∈ p, r < size) (kw : Bool) :
    ∀ (fuel k j : ℕ), size - j < fuel → (hk : k < size) →
    findDom2dM c (flatPts x 2 size) (p.map some) size kw fuel k j =
      .ok (findDom2dR (geY c x) (neXY c x) kw (p[k]'(by omega)) (p.drop j)) := by
  intro fuel
  induction fuel with
  | zero => intro k j hf; omega
  | succ fuel ih =>
    intro k j hf hk
    unfold findDom2dM
    by_cases hj : j < size
    · have hj' : j < p.length := by omega
      have hk' : k < p.length := by omega
      rw [if_pos hj, ld_map_some hj', ld_map_some hk']
      simp only [bind, Except.bind]
      have rj := hp _ (List.getElem_mem hj')
      have rk := hp _ (List.getElem_mem hk')
      rw [ld_flat_y rj, ld_flat_y rk]
      simp only
      rw [ld_flat_x rj, ld_flat_x rk]
      simp only
      rw [ih k (j + 1) (by omega) hk, ih j (j + 1) (by omega) hj]
      rw [List.drop_eq_getElem_cons hj', findDom2dR]
      have e1 : c.le (x p[k] 1) (x p[j] 1) = geY c x p[j] p[k] := rfl
      have e2 : (!kw || !c.eq (x p[j] 0) (x p[k] 0) || !c.eq (x p[j] 1) (x p[k] 1)) = (!kw || neXY c x p[j] p[k]) := by
        simp [neXY, Bool.or_assoc]
      rw [e1, e2]
      split_ifs <;> rfl
    · rw [if_neg hj, List.drop_of_length_le (by omega), findDom2dR]

/-- The blocks after `nondom_new[...] = nondom[k]` for the remaining `k`. -/
theorem ndUnsortM_ok (size : ℕ) (p : List ℕ) (hl : p.length = size) (hp : ∀ r ∈ p, r < size) (nd : ℕ → Bool) :
    ∀ (m k : ℕ) (g : ℕ → Option Bool), k + m = size →
    ∃ g', ndUnsortM (p.map some) (cells nd size) (List.range' k m) (blk g size) = .ok (blk g' size) ∧
      ∀ (new : ℕ → Bool), (∀ i < size, g i = some (new i) ∨ (g i = none ∧ i ∈ p.drop k)) → ∀ i < size, g' i = some (ndUnsort nd k (p.drop k) new i) := by
  intro m
  induction m with
  | zero =>
    intro k g hk
    refine ⟨g, rfl, fun new h i hi => ?_⟩
    rw [List.drop_of_length_le (by omega)]
    rcases h i hi with h | h
    · exact h
    · rw [List.drop_of_length_le (by omega)] at h; simp at h
  | succ m ih =>
    intro k g hk
    have hk' : k < p.length := by omega
    rw [List.range'_succ]
    unfold ndUnsortM
    rw [ld_map_some hk', ld_cells (by omega)]
    simp only [bind, Except.bind]
    rw [st_blk (hp _ (List.getElem_mem hk'))]
    simp only
    obtain ⟨g', e, h⟩ := ih (k + 1) (upd g p[k] (some (nd k))) (by omega)
    refine ⟨g', e, fun new hg i hi0 => ?_⟩
    rw [List.drop_eq_getElem_cons hk', ndUnsort]
    refine h _ ?_ i hi0
    clear hi0 i
    intro i hi0
    simp only [upd_apply]
    by_cases hi : i = p[k]
    · simp [hi]
    · rcases hg i hi0 with h' | ⟨h', hm⟩
      · left; simp [hi, h']
      · right
        rw [List.drop_eq_getElem_cons hk'] at hm
        rcases List.mem_cons.1 hm with rfl | hm
        · exact absurd rfl hi
        · simp [hi, h', hm]

/-- The flags of two-objective filtering, as a function of the comparisons between rows. -/
def nd2dR (ge ne : ℕ → ℕ → Bool) (kw : Bool) (garbage nd : ℕ → Bool) : List ℕ → ℤ × (ℕ → Bool)
  | [] => (0, garbage)
  | k :: js =>
    let r := nd2dScanR ge ne kw k 1 js nd 0
    (r.2, ndUnsort r.1 0 (k :: js) garbage)

theorem sortedPPM_ok (sortFn : Blk F → List ℕ → List ℕ) (pts : Blk F) (size : ℕ) :
    sortedPPM sortFn pts size = .ok ((sortFn pts (List.range size)).map some) := by
  unfold sortedPPM
  rw [fillM_alloc]
  rfl

theorem findNd2dM_ok (c : FCmp F) (sortFn : Blk F → List ℕ → List ℕ) (x : ℕ → ℕ → F) (size : ℕ) (h2 : 0 < size) (nd : ℕ → Bool) (kw : Bool)
    (garbage : ℕ → Bool)
    (hs : (sortFn (flatPts x 2 size) (List.range size)).Perm (List.range size)) :
    findNd2dM c sortFn (flatPts x 2 size) size (cells nd size) kw =
      .ok ((nd2dR (geY c x) (neXY c x) kw garbage nd (sortFn (flatPts x 2 size) (List.range size))).1,
        cells (nd2dR (geY c x) (neXY c x) kw garbage nd (sortFn (flatPts x 2 size) (List.range size))).2 size) := by
  unfold findNd2dM
  rw [sortedPPM_ok]
  generalize sortFn (flatPts x 2 size) (List.range size) = p at hs
  have hl : p.length = size := by rw [hs.length_eq]; simp
  have hp : ∀ r ∈ p, r < size := fun r hr => List.mem_range.1 (hs.mem_iff.1 hr)
  simp only [bind, Except.bind]
  rw [nd2dScanM_ok c x size p hl hp kw (size + 1) 0 1 nd 0 (by omega) (by omega)]
  simp only
  rw [allocBlk_eq, List.range_eq_range']
  obtain ⟨g', e, h⟩ := ndUnsortM_ok size p hl hp (nd2dScanR (geY c x) (neXY c x) kw (p[0]'(by omega)) 1 (p.drop 1) nd 0).1 size 0 (fun _ => none) (by omega)
  rw [e]
  simp only
  obtain ⟨k, js, rfl⟩ : ∃ k js, p = k :: js := by
    cases p with
    | nil => simp at hl; omega
    | cons k js => exact ⟨k, js, rfl⟩
  rw [show cpBlk (cells (nd2dScanR (geY c x) (neXY c x) kw ((k :: js)[0]'(by simp)) 1 ((k :: js).drop 1) nd 0).1 size) (blk g' size) size
    = .ok (blk g' size) from cpBlk_blk _ _ _]
  simp only [nd2dR, List.getElem_cons_zero, List.drop_succ_cons, List.drop_zero]
  congr 2
  apply blk_congr
  intro i hi
  exact h garbage (fun i hi => Or.inr ⟨rfl, hs.mem_iff.2 (List.mem_range.2 hi)⟩) i hi

/-- The flags of `is_nondominated`, as a function of the comparisons between rows; `p` is the array left by `qsort`. -/
def flagsR (c : FCmp F) (neg : F → F) (p : List ℕ) (x : ℕ → ℕ → F) (dim size : ℕ) (mm : ℕ → ℤ) (kw : Bool) (garbage : ℕ → Bool) : ℕ → Bool :=
  if size < 2 then fun _ => true
  else if dim = 2 then (nd2dR (geY c (agreeRows neg mm x)) (neXY c (agreeRows neg mm x)) kw garbage (fun _ => true) p).2
  else (ndOuterR (rowLe c dim mm AGREE_NONE x) size false kw (List.range (size - 1)) (fun _ => true)).2

theorem ndInnerR_none (R : ℕ → ℕ → Bool) (kw : Bool) (k : ℕ) : ∀ (js : List ℕ) (nd : ℕ → Bool), (ndInnerR R false kw k js nd).1 = none := by
  intro js
  induction js with
  | nil => intro nd; rfl
  | cons j js ih =>
    intro nd
    unfold ndInnerR
    split_ifs with h1 h2
    · rfl
    · exact ih _
    · simp [ih]

theorem ndOuterR_none (R : ℕ → ℕ → Bool) (size : ℕ) (kw : Bool) : ∀ (ks : List ℕ) (nd : ℕ → Bool), (ndOuterR R size false kw ks nd).1 = none := by
  intro ks
  induction ks with
  | nil => intro nd; rfl
  | cons k ks ih =>
    intro nd
    unfold ndOuterR
    have := ndInnerR_none R kw k (List.range' (k + 1) (size - (k + 1))) nd
    rcases h : ndInnerR R false kw k (List.range' (k + 1) (size - (k + 1))) nd with ⟨_ | v, nd'⟩
    · exact ih _
    · rw [h] at this; simp at this

theorem findNdSetM_ok (c : FCmp F) (neg : F → F) (sortFn : Blk F → List ℕ → List ℕ) (x : ℕ → ℕ → F) (dim size : ℕ) (mm : ℕ → ℤ)
    (hmm : dim = 2 → ∀ d < 2, mm d ≠ 0) (kw : Bool) (garbage : ℕ → Bool)
    (hs : ∀ b, (sortFn b (List.range size)).Perm (List.range size)) :
    ∃ r, findNdSetM c neg sortFn (flatPts x dim size) dim size (cells mm dim) AGREE_NONE (cells (fun _ => true) size) false kw =
      .ok (r, cells (flagsR c neg (sortFn (flatPts (agreeRows neg mm x) 2 size) (List.range size)) x dim size mm kw garbage) size) := by
  unfold findNdSetM flagsR
  by_cases h2 : size < 2
  · exact ⟨size, by simp [h2]⟩
  · rw [if_neg h2, if_neg h2]
    by_cases hd : dim = 2
    · subst hd
      rw [if_pos rfl, if_pos rfl, forceAgreeMinimizeM_ok neg x 2 size mm (hmm rfl) AGREE_NONE (by decide)]
      simp only [bind, Except.bind, Bool.false_eq_true, if_false]
      rw [findNd2dM_ok c sortFn _ size (by omega) _ kw garbage (hs _)]
      exact ⟨_, rfl⟩
    · rw [if_neg hd, if_neg hd]
      rw [ndOuterM_ok c x dim size mm AGREE_NONE false kw _ _ (fun k hk => by rw [List.mem_range] at hk; omega)]
      simp only [bind, Except.bind]
      rw [ndOuterR_none]
      simp only [Bool.false_eq_true, if_false]
      rw [countM_ok _ size _ _ (fun k hk => List.mem_range.1 hk)]
      exact ⟨_, rfl⟩

theorem minmaxFromBool_ne (mx : ℕ → Bool) (d : ℕ) : minmaxFromBool mx d ≠ 0 := by
  unfold minmaxFromBool AGREE_MAXIMISE AGREE_MINIMISE
  split_ifs <;> decide

theorem isNondominatedM_ok (c : FCmp F) (neg : F → F) (sortFn : Blk F → List ℕ → List ℕ) (x : ℕ → ℕ → F) (dim size : ℕ) (mx : ℕ → Bool)
    (kw : Bool) (garbage : ℕ → Bool) (hs : ∀ b, (sortFn b (List.range size)).Perm (List.range size)) :
    isNondominatedM c neg sortFn (flatPts x dim size) dim size (cells mx dim) kw =
      .ok (cells (flagsR c neg (sortFn (flatPts (agreeRows neg (minmaxFromBool mx) x) 2 size) (List.range size)) x dim size
        (minmaxFromBool mx) kw garbage) size) := by
  unfold isNondominatedM
  rw [nondomInitM_ok, minmaxFromBoolM_ok]
  simp only [bind, Except.bind]
  obtain ⟨r, e⟩ := findNdSetM_ok c neg sortFn x dim size (minmaxFromBool mx) (fun _ d _ => minmaxFromBool_ne mx d) kw garbage hs
  rw [e]

theorem ndInnerR_range (R : ℕ → ℕ → Bool) (kw : Bool) {k size : ℕ} (hk : k < size) : ∀ (js : List ℕ) (nd : ℕ → Bool), (∀ j ∈ js, j < size) →
    ∀ v, (ndInnerR R true kw k js nd).1 = some v → ∃ i < size, v = i := by
  intro js
  induction js with
  | nil => intro nd _ v h; simp [ndInnerR] at h
  | cons j js ih =>
    intro nd hjs v
    unfold ndInnerR
    have ih' := fun nd => ih nd (fun y hy => hjs y (by simp [hy]))
    have hj := hjs j (by simp)
    simp only [Bool.true_and]
    split_ifs with h1 h2 h3 h4
    · intro h; simp at h
    · exact ih' _ v
    · intro h
      simp only [Option.some.injEq] at h
      exact ⟨j, hj, h.symm⟩
    · intro h
      simp only [Option.some.injEq] at h
      exact ⟨k, hk, h.symm⟩
    · exact ih' _ v

theorem ndOuterR_range (R : ℕ → ℕ → Bool) (kw : Bool) {size : ℕ} : ∀ (ks : List ℕ) (nd : ℕ → Bool), (∀ k ∈ ks, k < size) →
    ∀ v, (ndOuterR R size true kw ks nd).1 = some v → ∃ i < size, v = i := by
  intro ks
  induction ks with
  | nil => intro nd _ v h; simp [ndOuterR] at h
  | cons k ks ih =>
    intro nd hks v
    unfold ndOuterR
    have hr := ndInnerR_range R kw (hks k (by simp)) (List.range' (k + 1) (size - (k + 1))) nd
      (by intro j hj; rw [List.mem_range'_1] at hj; omega)
    rcases h : ndInnerR R true kw k (List.range' (k + 1) (size - (k + 1))) nd with ⟨_ | w, nd'⟩
    · exact ih nd' (fun y hy => hks y (by simp [hy])) v
    · intro hv
      rw [h] at hr
      simp only [Option.some.injEq] at hv
      subst hv
      exact hr w rfl

theorem findDom2dR_range (ge ne : ℕ → ℕ → Bool) (kw : Bool) {size : ℕ} : ∀ (js : List ℕ) (k : ℕ), (∀ j ∈ js, j < size) →
    findDom2dR ge ne kw k js = -1 ∨ ∃ i < size, findDom2dR ge ne kw k js = i := by
  intro js
  induction js with
  | nil => intro k _; left; rfl
  | cons j js ih =>
    intro k hj
    unfold findDom2dR
    have ih' := fun k => ih k (fun y hy => hj y (by simp [hy]))
    split_ifs
    · exact Or.inr ⟨j, hj j (by simp), rfl⟩
    · exact ih' _
    · exact ih' _

theorem findDominatedPointM_ok (c : FCmp F) (neg : F → F) (sortFn : Blk F → List ℕ → List ℕ) (x : ℕ → ℕ → F) (dim size : ℕ) (mm : ℕ → ℤ)
    (hmm : dim = 2 → ∀ d < 2, mm d ≠ 0) (hs : ∀ b, (sortFn b (List.range size)).Perm (List.range size)) :
    ∃ r : ℤ, findDominatedPointM c neg sortFn (flatPts x dim size) dim size (cells mm dim) = .ok r ∧
      (2 ≤ size → r = -1 ∨ ∃ i < size, r = i) := by
  unfold findDominatedPointM
  rw [nondomInitM_ok]
  simp only [bind, Except.bind]
  unfold findNdSetM
  by_cases h2 : size < 2
  · exact ⟨size, by simp [h2], fun h => by omega⟩
  · rw [if_neg h2]
    by_cases hd : dim = 2
    · subst hd
      rw [if_pos rfl, forceAgreeMinimizeM_ok neg x 2 size mm (hmm rfl) AGREE_NONE (by decide)]
      simp only [bind, Except.bind, if_true]
      rw [sortedPPM_ok]
      have hs' := hs (flatPts (agreeRows neg mm x) 2 size)
      generalize sortFn (flatPts (agreeRows neg mm x) 2 size) (List.range size) = p at hs'
      have hl : p.length = size := by rw [hs'.length_eq]; simp
      have hp : ∀ r ∈ p, r < size := fun r hr => List.mem_range.1 (hs'.mem_iff.1 hr)
      simp only
      rw [findDom2dM_ok c _ size p hl hp false (size + 1) 0 1 (by omega) (by omega)]
      exact ⟨_, rfl, fun _ => findDom2dR_range _ _ _ _ _ (fun j hj => hp j (List.mem_of_mem_drop hj))⟩
    · rw [if_neg hd]
      rw [ndOuterM_ok c x dim size mm AGREE_NONE true false _ _ (fun k hk => by rw [List.mem_range] at hk; omega)]
      simp only [bind, Except.bind]
      have hr := ndOuterR_range (rowLe c dim mm AGREE_NONE x) false (size := size) (List.range (size - 1)) (fun _ => true)
        (fun k hk => by rw [List.mem_range] at hk; omega)
      rcases h : ndOuterR (rowLe c dim mm AGREE_NONE x) size true false (List.range (size - 1)) (fun _ => true) with ⟨_ | v, nd'⟩
      · exact ⟨-1, by simp, fun _ => Or.inl rfl⟩
      · rw [h] at hr
        exact ⟨v, rfl, fun _ => Or.inr (hr v rfl)⟩

end

end Moo
