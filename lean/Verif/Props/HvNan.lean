import Verif.Lemmas.HvNan
import Verif.Lemmas.HvNan2
import Verif.Lemmas.HvNan3
import Mathlib.Algebra.Order.Ring.Rat
import Mathlib.Algebra.Order.Field.Basic
import Mathlib.Tactic.IntervalCases
import Mathlib.Tactic.NormNum

/-!
# C115: the hypervolume for arbitrary doubles, and what NaN does to it

Doubles are elements of any type `F` with any operations `+`, `-`, `*`, `<` and `≤`; `NDouble K` are the numbers of `K` and NaN.
-/

set_option autoImplicit false
set_option linter.unusedSectionVars false

namespace Moo

section
variable {F : Type} [Zero F] [Add F] [Sub F] [Mul F] [LT F] [DecidableLT F] [LE F] [DecidableLE F]

/-- **C115, two objectives.** Whatever the doubles are and in whatever order `qsort` leaves the pointers, `hv2d` stays inside its blocks, reads only what was written and ends:
its result is the value of the loop on the rows in that order. -/
theorem C115_hv2d_safe (l : List F) (n : ℕ) (hl : l.length = 2 * n) (r0 r1 : F) (sorted : Blk ℕ → Blk ℕ) (hs : ∀ b, (sorted b).Perm b) :
    ∃ ord : List ℕ, ord.Perm (List.range n) ∧ sorted ((List.range n).map fun k => some (2 * k)) = ord.map (fun k => some (2 * k)) ∧
      hv2dM (l.map some) n [some r0, some r1] sorted =
        .ok (hv2d (fun k c => (l[2 * k + c]?).getD 0) ord (fun c => if c = 0 then r0 else r1)) := by
  have hp := hs ((List.range n).map fun k => some (2 * k))
  have hinv : ((sorted ((List.range n).map fun k => some (2 * k))).map (fun o => o.getD 0 / 2)).map (fun k => some (2 * k)) =
      sorted ((List.range n).map fun k => some (2 * k)) := by
    rw [List.map_map]
    conv_rhs => rw [← List.map_id (sorted ((List.range n).map fun k => some (2 * k)))]
    apply List.map_congr_left
    intro o ho
    rw [hp.mem_iff, List.mem_map] at ho
    obtain ⟨k, _, rfl⟩ := ho
    simp
  have hperm : ((sorted ((List.range n).map fun k => some (2 * k))).map (fun o => o.getD 0 / 2)).Perm (List.range n) := by
    have := hp.map (fun o => o.getD 0 / 2)
    rw [List.map_map] at this
    simpa [Function.comp_def] using this
  refine ⟨_, hperm, hinv.symm, ?_⟩
  have hptr := hv2dPtrsM_ok n 0 (by omega)
  simp only [List.range_zero, List.map_nil, List.nil_append, Nat.sub_zero] at hptr
  rw [← List.range_eq_range'] at hptr
  have hlen := hperm.length_eq
  rw [List.length_range] at hlen
  have h1 : ldBlk [some r0, some r1] 1 = .ok r1 := rfl
  have := hv2dLoopM_ok (fun k c => (l[2 * k + c]?).getD 0) (fun c => if c = 0 then r0 else r1) (l.map some) [some r0, some r1] _
    (fun k hk => by
      have hk' : k < n := List.mem_range.1 (hperm.mem_iff.1 hk)
      constructor
      · rw [ldBlk_map_some l _ (by omega)]; simp [show 2 * k < l.length by omega]
      · rw [ldBlk_map_some l _ (by omega)]; simp [show 2 * k + 1 < l.length by omega])
    rfl (n + 1) 0 r1 0 (by omega) (by omega)
  rw [hlen, hinv, List.drop_zero] at this
  simp only [hv2dM, allocBlk, hptr, bind, Except.bind, h1]
  rw [this]
  simp [hv2d]

/-- **C115, contributions.** For every function `hv` of the block of points that returns `total` for the points and `w i` for the points with row `i` replaced by the
reference point, `hv_contributions` stays inside its blocks, leaves the points as they were, and stores the differences `total - w i`, with `0` instead of those that
are smaller than the tolerance or not comparable to it; it aborts exactly if one of these is not at least `0`. -/
theorem C115_contributions (hv : Blk F → Except MemErr F) (fabs : F → F) (tol total : F) (w : ℕ → F) (dim size : ℕ) (ref l : List F) (hvc : Blk F)
    (hlen : l.length = size * dim) (href : ref.length = dim) (hhvc : hvc.length = size) (htotal : hv (l.map some) = .ok total)
    (hw : ∀ i < size, hv ((l.take (i * dim) ++ ref ++ l.drop (i * dim + dim)).map some) = .ok (w i)) :
    contributionsM hv fabs tol dim size (ref.map some) hvc (l.map some) =
      if ∀ i < size, (if fabs (total - w i) ≥ tol then total - w i else 0) ≥ 0 then
        .ok ((List.range size).map (fun i => some (if fabs (total - w i) ≥ tol then total - w i else 0)), l.map some)
      else .error .assertion := by
  have h1 := onePointLoopM_ok hv w dim size ref l hlen href none (by simp) (fun i hi _ => hw i hi) size le_rfl (allocBlk dim) hvc (by simp [allocBlk]) hhvc
    (by simp)
  simp only [Nat.sub_self, Option.map_none] at h1
  rw [← List.range_eq_range'] at h1
  have h2 := contribLoopM_ok fabs tol total w size size le_rfl ((List.range size).map (fun i => some (w i))) (by simp) (by
    intro i hi; simp [hi])
  simp only [Nat.sub_self, Nat.zero_le, forall_const] at h2
  rw [← List.range_eq_range'] at h2
  simp only [contributionsM, htotal, onePointDiffsM, Option.getD_some, h1, bind, Except.bind]
  simp only [Option.not_mem_none, false_and, exists_false, if_false]
  rw [h2]
  by_cases h : ∀ i < size, clipped fabs tol (total - w i) ≥ 0
  · rw [if_pos h]
    exact (if_pos (show ∀ i < size, (if fabs (total - w i) ≥ tol then total - w i else 0) ≥ 0 from h)).symm
  · rw [if_neg h]
    exact (if_neg (show ¬ ∀ i < size, (if fabs (total - w i) ≥ tol then total - w i else 0) ≥ 0 from h)).symm

/-- **C115, the variant that keeps some points** (`uev`): no hypervolume is computed for the marked rows, `0` is stored for them, and the points are as before. -/
theorem C115_one_point_diffs (hv : Blk F → Except MemErr F) (w : ℕ → F) (dim size : ℕ) (ref l : List F) (uev : List Bool)
    (hlen : l.length = size * dim) (href : ref.length = dim) (huev : uev.length = size)
    (hw : ∀ i < size, uev[i]? = some false → hv ((l.take (i * dim) ++ ref ++ l.drop (i * dim + dim)).map some) = .ok (w i)) :
    onePointDiffsM hv dim size (ref.map some) (some (uev.map some)) none (l.map some) =
      .ok ((List.range size).map (fun i => some (if uev[i]? = some true then 0 else w i)), l.map some) := by
  have h1 := onePointLoopM_ok hv w dim size ref l hlen href (some uev) (by simp [huev]) (fun i hi h => hw i hi (h uev rfl)) size le_rfl (allocBlk dim)
    (allocBlk size) (by simp [allocBlk]) (by simp [allocBlk]) (by simp)
  simp only [Nat.sub_self, Option.map_some] at h1
  rw [← List.range_eq_range'] at h1
  simp only [onePointDiffsM, Option.getD_none, h1]
  simp

end

section
variable {F : Type} [Zero F] [One F] [Add F] [Sub F] [Mul F] [LT F] [DecidableLT F] [LE F] [DecidableLE F]

/-- **C115, three or more objectives: the points that are taken into account.** Whatever the doubles are and in whatever order `qsort` leaves the nodes, the program
gets through the set-up and the filter without a wrong access.  Some rows `A` remain: all rows that are below the reference point in every objective are among them,
and none remains if in some objective no row is below it.  If no row remains the result is `0`, and if one row remains it is the product of its sides. -/
theorem C115_filter (x : ℕ → ℕ → F) (d n : ℕ) (hd : 0 < d) (ref : ℕ → F) (ords : ℕ → List ℕ) (b0 : F)
    (hords : ∀ i < d, (ords i).Perm (List.range' 1 n)) :
    ∃ A : List ℕ, A.Nodup ∧ A ⊆ List.range' 1 n ∧ (∀ p, 1 ≤ p → p ≤ n → (∀ k < d, x p k < ref k) → p ∈ A) ∧
      (∀ k < d, (∀ p, 1 ≤ p → p ≤ n → ¬ x p k < ref k) → A = []) ∧
      (A = [] → fpliHvMem x d n ref ords b0 = some 0) ∧
      ∀ p, A = [p] → fpliHvMem x d n ref ords b0 = some ((List.range d).foldl (fun a k => a * (ref k - x p k)) 1) :=
  fpliHvMem_filter x d n hd ref ords b0 hords

/-- **C115, one point.** The hypervolume of one point is the product of its sides if it is below the reference point in every objective, and `0` otherwise, in particular if one
of its coordinates is NaN. -/
theorem C115_one_point (x : ℕ → ℕ → F) (d : ℕ) (hd : 0 < d) (ref : ℕ → F) (ords : ℕ → List ℕ) (b0 : F) (hords : ∀ i < d, ords i = [1]) :
    fpliHvMem x d 1 ref ords b0 =
      if ∀ k < d, x 1 k < ref k then some ((List.range d).foldl (fun a k => a * (ref k - x 1 k)) 1) else some 0 := by
  obtain ⟨A, hnd, hsub, hkeep, hnone, h0, h1⟩ := fpliHvMem_filter x d 1 hd ref ords b0 (fun i hi => by rw [hords i hi]; exact List.Perm.refl _)
  by_cases h : ∀ k < d, x 1 k < ref k
  · rw [if_pos h]
    apply h1
    have h1A := hkeep 1 le_rfl le_rfl h
    have : A.Perm [1] := by
      rw [List.perm_ext_iff_of_nodup hnd (by simp)]
      intro p
      constructor
      · intro hp; simpa using hsub hp
      · intro hp; simp at hp; subst hp; exact h1A
    exact List.perm_singleton.1 this
  · rw [if_neg h]
    push Not at h
    obtain ⟨k, hk, hlt⟩ := h
    exact h0 (hnone k hk (fun p hp hp' => by rwa [show p = 1 by omega]))

/-- **C115, no point below the reference point in one objective.** Then the result is `0`. -/
theorem C115_zero (x : ℕ → ℕ → F) (d n : ℕ) (ref : ℕ → F) (ords : ℕ → List ℕ) (b0 : F) (hords : ∀ i < d, (ords i).Perm (List.range' 1 n))
    (k : ℕ) (hk : k < d) (hnone : ∀ p, 1 ≤ p → p ≤ n → ¬ x p k < ref k) : fpliHvMem x d n ref ords b0 = some 0 := by
  obtain ⟨A, _, _, _, h, h0, _⟩ := fpliHvMem_filter x d n (by omega) ref ords b0 hords
  exact h0 (h k hk hnone)

/-- **C115, three objectives.** Whatever the doubles are, in whatever order `qsort` leaves the nodes and wherever the searches in the tree end, the program stays inside its arrays,
reads only what was written, follows no null pointer, and ends with a value. -/
theorem C115_hv3d_safe (pos : ℕ → List ℕ → ℕ) (x : ℕ → ℕ → F) (n : ℕ) (ref : ℕ → F) (ords : ℕ → List ℕ) (b0 : F)
    (hords : ∀ i < 3, (ords i).Perm (List.range' 1 n)) : ∃ v, fpliHv3MemAt pos x n ref ords b0 = some v :=
  fpliHv3MemAt_ok pos x n ref ords b0 hords

/-- **C115, three objectives**, with the search of the model in `HvMem.lean`. -/
theorem C115_hv3d_safe_list (x : ℕ → ℕ → F) (n : ℕ) (ref : ℕ → F) (ords : ℕ → List ℕ) (b0 : F) (hords : ∀ i < 3, (ords i).Perm (List.range' 1 n)) :
    ∃ v, fpliHvMem x 3 n ref ords b0 = some v ∧
      fpliHv3MemAt (fun pp T => (T.takeWhile (fun t => decide (0 < compareTreeAsc (x pp) (x t)))).length) x n ref ords b0 = some v := by
  obtain ⟨v, hv⟩ := fpliHv3MemAt_ok (firstNotSmaller x) x n ref ords b0 hords
  exact ⟨v, fpliHvMem_three x n ref ords b0 v hv, hv⟩

end

/-! ## NaN -/

namespace NDouble
variable {K : Type}

@[simp] theorem nan_add [Add K] (a : NDouble K) : nan + a = nan := rfl
@[simp] theorem add_nan [Add K] (a : NDouble K) : a + nan = nan := by cases a <;> rfl
@[simp] theorem nan_sub [Sub K] (a : NDouble K) : nan - a = nan := rfl
@[simp] theorem sub_nan [Sub K] (a : NDouble K) : a - nan = nan := by cases a <;> rfl
@[simp] theorem nan_mul [Mul K] (a : NDouble K) : nan * a = nan := rfl
@[simp] theorem mul_nan [Mul K] (a : NDouble K) : a * nan = nan := by cases a <;> rfl
@[simp] theorem not_lt_nan [LinearOrder K] (a : NDouble K) : ¬ a < nan := by cases a <;> exact Bool.false_ne_true
@[simp] theorem not_nan_lt [LinearOrder K] (a : NDouble K) : ¬ nan < a := by cases a <;> exact Bool.false_ne_true
@[simp] theorem not_le_nan [LinearOrder K] (a : NDouble K) : ¬ a ≤ nan := by cases a <;> exact Bool.false_ne_true
@[simp] theorem not_nan_le [LinearOrder K] (a : NDouble K) : ¬ nan ≤ a := by cases a <;> exact Bool.false_ne_true
theorem val_lt [LinearOrder K] (a b : K) : val a < val b ↔ a < b := decide_eq_true_iff
theorem val_le [LinearOrder K] (a b : K) : val a ≤ val b ↔ a ≤ b := decide_eq_true_iff
theorem val_add [Add K] (a b : K) : val a + val b = val (a + b) := rfl
theorem val_sub [Sub K] (a b : K) : val a - val b = val (a - b) := rfl
theorem val_mul [Mul K] (a b : K) : val a * val b = val (a * b) := rfl

end NDouble

open NDouble

section
variable {K : Type} [CommRing K] [LinearOrder K]

/-- **C115, a NaN in the reference point, three or more objectives.** The result is `0`, whatever the points are. -/
theorem C115_nan_ref (x : ℕ → ℕ → NDouble K) (d n : ℕ) (ref : ℕ → NDouble K) (ords : ℕ → List ℕ) (b0 : NDouble K)
    (hords : ∀ i < d, (ords i).Perm (List.range' 1 n)) (k : ℕ) (hk : k < d) (hnan : ref k = nan) : fpliHvMem x d n ref ords b0 = some 0 :=
  C115_zero x d n ref ords b0 hords k hk (fun p _ _ => by rw [hnan]; exact not_lt_nan _)

/-- **C115, an objective that is NaN in all points, three or more objectives.** The result is `0`. -/
theorem C115_nan_objective (x : ℕ → ℕ → NDouble K) (d n : ℕ) (ref : ℕ → NDouble K) (ords : ℕ → List ℕ) (b0 : NDouble K)
    (hords : ∀ i < d, (ords i).Perm (List.range' 1 n)) (k : ℕ) (hk : k < d) (hnan : ∀ p, 1 ≤ p → p ≤ n → x p k = nan) : fpliHvMem x d n ref ords b0 = some 0 :=
  C115_zero x d n ref ords b0 hords k hk (fun p h h' => by rw [hnan p h h']; exact not_nan_lt _)

theorem hv2dLoop_nan (pts : ℕ → ℕ → NDouble K) (ref : ℕ → NDouble K) : ∀ (ps : List ℕ) (b : Bool) (prevJ : NDouble K), hv2dLoop pts ref b ps prevJ nan = nan := by
  intro ps
  induction ps with
  | nil => intro b prevJ; rfl
  | cons p ps ih =>
    intro b prevJ
    rw [hv2dLoop]
    split
    · rfl
    · split
      · exact ih _ _
      · split
        · rfl
        · rw [nan_add]; exact ih _ _

/-- **C115, a NaN in the reference point, two objectives.** The result is NaN or `0`: NaN exactly if the loop uses a point. -/
theorem C115_nan_ref_2d (pts : ℕ → ℕ → NDouble K) (ps : List ℕ) (ref : ℕ → NDouble K) (hnan : ref 0 = nan ∨ ref 1 = nan) :
    hv2d pts ps ref = nan ∨ hv2d pts ps ref = 0 := by
  unfold hv2d
  induction ps with
  | nil => right; rfl
  | cons p ps ih =>
    rw [hv2dLoop, if_neg (by simp)]
    split
    · exact ih
    · split
      · right; rfl
      · left
        rcases hnan with h | h
        · rw [h, nan_sub, nan_mul, add_nan]; exact hv2dLoop_nan _ _ _ _ _
        · rw [h, nan_sub, mul_nan, add_nan]; exact hv2dLoop_nan _ _ _ _ _

/-- **C115, a NaN in the point that comes first, two objectives.** If it is not excluded by its other coordinate, the result is NaN. -/
theorem C115_nan_point_2d (pts : ℕ → ℕ → NDouble K) (p : ℕ) (ps : List ℕ) (ref : ℕ → NDouble K)
    (hnan : (pts p 0 = nan ∧ ¬ pts p 1 ≥ ref 1) ∨ (pts p 1 = nan ∧ ¬ pts p 0 ≥ ref 0)) : hv2d pts (p :: ps) ref = nan := by
  unfold hv2d
  rw [hv2dLoop, if_neg (by simp)]
  rcases hnan with ⟨h, h'⟩ | ⟨h, h'⟩
  · rw [if_neg h', if_neg (by rw [h]; exact not_le_nan _), h, sub_nan, nan_mul, add_nan]
    exact hv2dLoop_nan _ _ _ _ _
  · rw [if_neg (by rw [h]; exact not_le_nan _), if_neg h', h, sub_nan, mul_nan, add_nan]
    exact hv2dLoop_nan _ _ _ _ _

/-- **C115, without NaN.** Two objectives: the result is that of the model on numbers. -/
theorem C115_same_hv2d (pts : ℕ → ℕ → K) (ps : List ℕ) (ref : ℕ → K) :
    hv2d (fun p c => val (pts p c)) ps (fun c => val (ref c)) = val (hv2d pts ps ref) := by
  have key : ∀ (ps : List ℕ) (b : Bool) (prevJ hv : K),
      hv2dLoop (fun p c => val (pts p c)) (fun c => val (ref c)) b ps (val prevJ) (val hv) = val (hv2dLoop pts ref b ps prevJ hv) := by
    intro ps
    induction ps with
    | nil => intro b prevJ hv; rfl
    | cons p ps ih =>
      intro b prevJ hv
      simp only [hv2dLoop, val_lt, ge_iff_le, val_le, val_sub, val_mul, val_add]
      split
      · rfl
      · split
        · exact ih _ _ _
        · split
          · rfl
          · exact ih _ _ _
  exact key ps false (ref 1) 0

/-- **C115, contributions of a set whose hypervolume is NaN.** They are all reported as `0`, and no assertion fails. -/
theorem C115_contrib_nan (hv : Blk (NDouble K) → Except MemErr (NDouble K)) (abs : K → K) (tol : NDouble K) (w : ℕ → NDouble K) (dim size : ℕ)
    (ref l : List (NDouble K)) (hvc : Blk (NDouble K)) (hlen : l.length = size * dim) (href : ref.length = dim) (hhvc : hvc.length = size)
    (htotal : hv (l.map some) = .ok nan) (hw : ∀ i < size, hv ((l.take (i * dim) ++ ref ++ l.drop (i * dim + dim)).map some) = .ok (w i)) :
    contributionsM hv (fabs abs) tol dim size (ref.map some) hvc (l.map some) = .ok (List.replicate size (some 0), l.map some) := by
  rw [C115_contributions hv (fabs abs) tol nan w dim size ref l hvc hlen href hhvc htotal hw]
  have h0 : ∀ i, (if fabs abs (nan - w i) ≥ tol then nan - w i else 0) = (0 : NDouble K) := by
    intro i
    rw [if_neg]
    rw [nan_sub]
    exact not_le_nan tol
  simp only [h0]
  rw [if_pos (show ∀ i < size, (0 : NDouble K) ≥ 0 from fun i _ => (val_le (0 : K) 0).2 le_rfl)]
  congr 2
  apply List.ext_getElem
  · simp
  · intro i h1 h2; simp

end

/-! ## What fails -/

/-- The rows of the table `l`, counted from `1`. -/
def nanTable (l : List (List (Option ℚ))) (p k : ℕ) : NDouble ℚ := ((l.getD (p - 1) []).getD k none)

/-- **C115, what fails, two objectives: a NaN is not seen and hides area.** The rows (2,1), (1,3), (NaN,2), in an order in which each is at most its successor for the
comparison function; the result is 6, although (2,1) and (1,3) alone have 7. -/
theorem C115_false_hv2d_nan :
    List.Perm [1, 3, 2] (List.range' 1 3) ∧
    List.IsChain (fun a b => compareXAscYAsc (nanTable [[some 2, some 1], [some 1, some 3], [none, some 2]]) a b ≤ 0) [1, 3, 2] ∧
    hv2d (nanTable [[some 2, some 1], [some 1, some 3], [none, some 2]]) [1, 3, 2] (fun _ => val 4) = val 6 ∧
    hv2d (nanTable [[some 2, some 1], [some 1, some 3]]) [2, 1] (fun _ => val 4) = val 7 := by
  refine ⟨by decide, by decide +kernel, by decide +kernel, by decide +kernel⟩

/-- **C115, what fails, three objectives: a NaN hides volume.** -/
theorem C115_false_hv3d_nan :
    HvOrders (nanTable [[some 1, some 1, some 0], [some 2, some 0, some 1], [some 2, some 2, none], [some 0, some 2, some 2]]) 3 4 (fun i => [[4, 1, 2, 3], [2, 1, 3, 4], [1, 2, 3, 4]].getD i []) ∧
    fpliHvMem (nanTable [[some 1, some 1, some 0], [some 2, some 0, some 1], [some 2, some 2, none], [some 0, some 2, some 2]]) 3 4 (fun _ => val 3) (fun i => [[4, 1, 2, 3], [2, 1, 3, 4], [1, 2, 3, 4]].getD i []) (val 0) =
      some (val 10) ∧
    fpliHvMem (nanTable [[some 1, some 1, some 0], [some 2, some 0, some 1], [some 0, some 2, some 2]]) 3 3 (fun _ => val 3) (fun i => [[3, 1, 2], [2, 1, 3], [1, 2, 3]].getD i []) (val 0) =
      some (val 15) := by
  refine ⟨⟨⟨by decide +kernel, by decide +kernel⟩, fun j hj => ?_⟩, by decide +kernel, by decide +kernel⟩
  have : j < 2 := by omega
  interval_cases j <;> exact ⟨by decide +kernel, by decide +kernel⟩

/-- Four objectives, NaN in the last one of two rows. -/
def nanTable4 : ℕ → ℕ → NDouble ℚ := nanTable [[some 1, some 2, some 0, none], [some 2, some 1, some 0, none], [some 0, some 0, some 3, some 1]]

/-- An order of the rows of `nanTable4` in each objective. -/
def nanOrds4 (i : ℕ) : List ℕ := [[3, 1, 2], [3, 2, 1], [1, 2, 3], [1, 2, 3]].getD i []

/-- **C115, what fails, four objectives: with NaN the program reads memory that was never written.** The orders are those of `qsort`, for which NaN is equal to everything.
When the loop that deletes nodes (c/hv.c:1037-1048) stops, two nodes are left, so that the program goes on with `vol[3]` of the predecessor of the last one (c/hv.c:1050-1052), to
which nothing was assigned. -/
theorem C115_false_hv4d_nan :
    HvOrders nanTable4 4 3 nanOrds4 ∧ fpliHvMem nanTable4 4 3 (fun _ => val 4) nanOrds4 (val 0) = none ∧
    (do
      let M ← memSetup 3 4 nanOrds4 (val (0 : ℚ))
      let r ← memFilterRef nanTable4 (fun _ => val 4) 3 4 4 3 M
      let p ← r.2.prev 3 0
      let M ← memReset 3 3 r.1 p r.2
      let s ← memDelLoop nanTable4 3 4 3 r.1 0 p M
      let q ← s.2.2.2.prev 3 s.2.2.1
      some (s.1, q, s.2.2.2.vol 3 q)) = some (2, 1, none) := by
  refine ⟨⟨⟨by decide +kernel, by decide +kernel⟩, fun j hj => ?_⟩, by decide +kernel, by decide +kernel⟩
  have : j < 3 := by omega
  interval_cases j <;> exact ⟨by decide +kernel, by decide +kernel⟩

/-! ## The hypotheses can be met -/

/-- Three rows in the order 2, 0, 1. -/
example : hv2dM ([2, 1, 3, 3, 1, 2].map (fun a : ℚ => some (val a))) 3 [some (val 4), some (val 4)] (fun b => b.drop 2 ++ b.take 2) = .ok (val 8) := by decide +kernel

/-- The order that `qsort` leaves may be any permutation. -/
example : ∀ b : Blk ℕ, (b.drop 2 ++ b.take 2).Perm b := fun b => by
  have := List.perm_append_comm (l₁ := b.drop 2) (l₂ := b.take 2)
  rwa [List.take_append_drop] at this

/-- Two points, of which the first has a NaN: the hypervolume is NaN and both contributions are reported as `0`. -/
example : hv2dM [some nan, some (val (1 : ℚ)), some (val 1), some (val 2)] 2 [some (val 4), some (val 4)] id = .ok nan ∧
    contributionsM (fun b => hv2dM b 2 [some (val 4), some (val 4)] id) (fabs abs) (val (1 / 2 ^ 26)) 2 2 [some (val 4), some (val 4)] [none, none]
      [some nan, some (val (1 : ℚ)), some (val 1), some (val 2)] = .ok ([some 0, some 0], [some nan, some (val 1), some (val 1), some (val 2)]) := by
  refine ⟨by decide +kernel, by decide +kernel⟩

/-- Two points without NaN: the contributions. -/
example : contributionsM (fun b => hv2dM b 2 [some (val 4), some (val 4)] id) (fabs abs) (val (1 / 2 ^ 26)) 2 2 [some (val 4), some (val 4)] [none, none]
      [some (val 1), some (val (3 : ℚ)), some (val 2), some (val 1)] =
        .ok ([some (val 1), some (val 4)], [some (val 1), some (val 3), some (val 2), some (val 1)]) := by
  decide +kernel

/-- One row is kept. -/
example : onePointDiffsM (fun b => hv2dM b 2 [some (val 4), some (val 4)] id) 2 2 [some (val 4), some (val 4)] (some [some true, some false]) none
      [some (val 1), some (val (3 : ℚ)), some (val 2), some (val 1)] =
        .ok ([some 0, some (val 3)], [some (val 1), some (val 3), some (val 2), some (val 1)]) := by
  decide +kernel

/-- Three objectives, NaN in the second one, two positions at which the search may end: two results. -/
example : fpliHv3MemAt (fun _ _ => 0) (nanTable [[some 1, some 1, some 0], [some 2, none, some 1]]) 2 (fun _ => val 3)
      (fun i => [[1, 2], [2, 1], [1, 2]].getD i []) (val 0) = some (val 12) ∧
    fpliHv3MemAt (fun _ T => T.length) (nanTable [[some 1, some 1, some 0], [some 2, none, some 1]]) 2 (fun _ => val 3)
      (fun i => [[1, 2], [2, 1], [1, 2]].getD i []) (val 0) = some nan := by
  refine ⟨by decide +kernel, by decide +kernel⟩

/-- A NaN in the reference point. -/
example : fpliHvMem (nanTable [[some 1, some 1, some 0], [some 2, some 0, some 1]]) 3 2 (fun k => if k = 1 then nan else val 3)
    (fun i => [[1, 2], [2, 1], [1, 2]].getD i []) (val 0) = some 0 :=
  C115_nan_ref _ 3 2 _ _ _ (fun i hi => by interval_cases i <;> decide) 1 (by omega) rfl

end Moo
