import Verif.Model.LargestEafdiff
import Verif.Props.EafDiff
import Verif.Props.Whv
import Verif.Lemmas.Qsort

/-!
# C62: `largest_eafdiff`
-/

set_option autoImplicit false
set_option linter.unusedSectionVars false

namespace Moo

open MeasureTheory

section area

variable {L : Type*} [LinearOrder L]

/-- The points of a row that lie between `ideal` and `ref`. -/
def rowRegion (ideal ref : ℕ → ℝ) (row : List ℝ) : Set (Fin 2 → ℝ) :=
  {q | InBox (fun _ => false) row (vec2 (q 0) (q 1)) ∧ (∀ d : Fin 2, ideal d ≤ q d ∧ q d ≤ ref d)}

theorem rowRegion_eq (ideal ref : ℕ → ℝ) (a b c d v : ℝ) : rowRegion ideal ref [a, b, c, d, v] =
    {q | a ≤ q 0 ∧ q 0 < c ∧ b ≤ q 1 ∧ q 1 < d ∧ ideal 0 ≤ q 0 ∧ q 0 ≤ ref 0 ∧ ideal 1 ≤ q 1 ∧ q 1 ≤ ref 1} := by
  ext q
  simp only [rowRegion, Set.mem_ofPred_eq, Fin.forall_fin_two]
  constructor
  · rintro ⟨⟨a', b', c', d', v', he, h1, h2, h3, h4⟩, h5, h6⟩
    simp only [List.cons.injEq, and_true] at he
    obtain ⟨rfl, rfl, rfl, rfl, rfl⟩ := he
    simp only [AsGood, vec2, Bool.false_eq_true, if_false, if_true, one_ne_zero, not_le] at h1 h2 h3 h4
    exact ⟨h1, h3, h2, h4, h5.1, h5.2, h6.1, h6.2⟩
  · rintro ⟨h1, h2, h3, h4, h5, h6, h7, h8⟩
    refine ⟨⟨a, b, c, d, v, rfl, ?_, ?_, ?_, ?_⟩, ⟨h5, h6⟩, ⟨h7, h8⟩⟩ <;>
      simp only [AsGood, vec2, Bool.false_eq_true, if_false, if_true, one_ne_zero, not_le] <;> assumption

theorem rowRegion_measurable (ideal ref : ℕ → ℝ) (row : List ℝ) : MeasurableSet (rowRegion ideal ref row) := by
  by_cases h : ∃ a b c d v, row = [a, b, c, d, v]
  · obtain ⟨a, b, c, d, v, rfl⟩ := h
    rw [rowRegion_eq]
    have m0 : Measurable (fun q : Fin 2 → ℝ => q 0) := measurable_pi_apply 0
    have m1 : Measurable (fun q : Fin 2 → ℝ => q 1) := measurable_pi_apply 1
    refine (measurableSet_le measurable_const m0).inter ((measurableSet_lt m0 measurable_const).inter ((measurableSet_le measurable_const m1).inter
      ((measurableSet_lt m1 measurable_const).inter ((measurableSet_le measurable_const m0).inter ((measurableSet_le m0 measurable_const).inter
        ((measurableSet_le measurable_const m1).inter (measurableSet_le m1 measurable_const)))))))
  · have : rowRegion ideal ref row = ∅ := by
      rw [Set.eq_empty_iff_forall_notMem]
      rintro q ⟨⟨a, b, c, d, v, he, -⟩, -⟩
      exact h ⟨a, b, c, d, v, he⟩
    rw [this]; exact MeasurableSet.empty

/-- A rectangle with its upper sides has the same area as without them. -/
theorem vol_rectRegion_row (ideal ref : ℕ → ℝ) (a b c d v : ℝ) :
    vol (rectRegion 1 (fun _ => ideal) ref (unitRect [a, b, c, d, v])) = vol (rowRegion ideal ref [a, b, c, d, v]) := by
  unfold vol
  congr 1
  apply measure_congr
  have h0 : volume {q : Fin 2 → ℝ | q 0 = c} = 0 := Measure.pi_hyperplane (fun _ : Fin 2 => (volume : Measure ℝ)) (0 : Fin 2) c
  have h1 : volume {q : Fin 2 → ℝ | q 1 = d} = 0 := Measure.pi_hyperplane (fun _ : Fin 2 => (volume : Measure ℝ)) (1 : Fin 2) d
  have hn : ∀ᵐ q : Fin 2 → ℝ, q 0 ≠ c ∧ q 1 ≠ d := by
    rw [ae_iff]
    refine measure_mono_null ?_ (measure_union_null h0 h1)
    intro q hq
    simp only [Set.mem_ofPred_eq, Set.mem_union] at hq ⊢
    tauto
  filter_upwards [hn] with q hq
  rw [rowRegion_eq]
  apply propext
  show q ∈ rectRegion 1 (fun _ => ideal) ref (unitRect [a, b, c, d, v]) ↔ _
  simp only [rectRegion, unitRect, List.getD_cons_zero, List.getD_cons_succ, Set.mem_ofPred_eq]
  constructor
  · rintro ⟨⟨g1, g2⟩, ⟨g3, g4⟩, ⟨g5, g6⟩, i, hi, g7, g8⟩
    exact ⟨g1, lt_of_le_of_ne g2 hq.1, g3, lt_of_le_of_ne g4 hq.2, g7, g5, g8, g6⟩
  · rintro ⟨g1, g2, g3, g4, g5, g6, g7, g8⟩
    exact ⟨⟨g1, g2.le⟩, ⟨g3, g4.le⟩, ⟨g6, g8⟩, 0, by omega, g5, g7⟩

theorem rowRegion_finite (ideal ref : ℕ → ℝ) (row : List ℝ) : volume (rowRegion ideal ref row) ≠ ⊤ := by
  refine ne_of_lt (lt_of_le_of_lt (measure_mono (t := Set.Icc (fun d : Fin 2 => ideal d) (fun d => ref d)) ?_) ?_)
  · rintro q ⟨-, h⟩
    exact ⟨fun d => (h d).1, fun d => (h d).2⟩
  · exact isCompact_Icc.measure_lt_top

/-- The area of disjoint rows. -/
theorem vol_rows (ideal ref : ℕ → ℝ) (rows : List (List ℝ)) (hnd : rows.Nodup) (hdis : ∀ r ∈ rows, ∀ r' ∈ rows, ∀ q, q ∈ rowRegion ideal ref r → q ∈ rowRegion ideal ref r' → r = r') :
    (rows.map (fun r => vol (rowRegion ideal ref r))).sum = vol {q | ∃ r ∈ rows, q ∈ rowRegion ideal ref r} := by
  have hset : {q | ∃ r ∈ rows, q ∈ rowRegion ideal ref r} = ⋃ r ∈ rows.toFinset, rowRegion ideal ref r := by
    ext q; simp
  rw [hset]
  unfold vol
  rw [measure_biUnion_finset]
  · rw [ENNReal.toReal_sum (fun r _ => rowRegion_finite ideal ref r), List.sum_toFinset _ hnd]
  · intro r hr r' hr' hne
    rw [Function.onFun, Set.disjoint_left]
    intro q h1 h2
    exact hne (hdis r (by simpa using hr) r' (by simpa using hr') q h1 h2)
  · exact fun r _ => rowRegion_measurable ideal ref r

variable {mx : ℝ} {x y : Labelled L ℝ} {n s : ℕ} {rows : List (List ℝ)} {ideal ref : ℕ → ℝ}

theorem rows_disjoint (h : IsRectTable (fun _ => false) mx x.pts x.labels y.pts y.labels n rows) :
    ∀ r ∈ rows, ∀ r' ∈ rows, ∀ q, q ∈ rowRegion ideal ref r → q ∈ rowRegion ideal ref r' → r = r' := by
  intro r hr r' hr' q h1 h2
  obtain ⟨-, -, h3, h4⟩ := h
  obtain ⟨g1, g2, g3, -⟩ := h4 _ r hr h1.1
  obtain ⟨w, -, hw⟩ := h3 _ g1 g2 g3
  rw [hw r ⟨hr, h1.1⟩, hw r' ⟨hr', h2.1⟩]

theorem labelCount_le_card {K' : Type*} [LinearOrder K'] (m : ℕ → Bool) (data : ℕ → ℕ → K') (labels : List L) (dim : ℕ) (z : ℕ → K') : labelCount m data labels dim z ≤ labels.toFinset.card := by
  classical
  exact Finset.card_filter_le _ _

/-- Where the difference is not zero, some but not all sets attain the point. -/
theorem pairCount_of_difference (z : ℕ → ℝ) (h : eafDifference (fun _ => false) x.pts x.labels y.pts y.labels 2 n z ≠ 0) :
    1 ≤ pairCount (fun _ => false) x.pts x.labels y.pts y.labels 2 z ∧
      pairCount (fun _ => false) x.pts x.labels y.pts y.labels 2 z < x.labels.toFinset.card + y.labels.toFinset.card ∨
      x.labels.toFinset.card = 0 ∨ y.labels.toFinset.card = 0 := by
  by_cases h1 : x.labels.toFinset.card = 0
  · exact Or.inr (Or.inl h1)
  by_cases h2 : y.labels.toFinset.card = 0
  · exact Or.inr (Or.inr h2)
  left
  have lx := labelCount_le_card (fun _ => false) x.pts x.labels 2 z
  have ly := labelCount_le_card (fun _ => false) y.pts y.labels 2 z
  unfold pairCount
  unfold eafDifference at h
  by_contra hc
  apply h
  rcases (by omega : labelCount (fun _ => false) x.pts x.labels 2 z = 0 ∧ labelCount (fun _ => false) y.pts y.labels 2 z = 0 ∨
    labelCount (fun _ => false) x.pts x.labels 2 z = x.labels.toFinset.card ∧ labelCount (fun _ => false) y.pts y.labels 2 z = y.labels.toFinset.card) with ⟨e1, e2⟩ | ⟨e1, e2⟩
  · rw [e1, e2]; simp
  · rw [e1, e2, div_self (by exact_mod_cast h1), div_self (by exact_mod_cast h2)]; simp

theorem eafDifference_swap (z : ℕ → ℝ) : eafDifference (fun _ => false) y.pts y.labels x.pts x.labels 2 n z = -eafDifference (fun _ => false) x.pts x.labels y.pts y.labels 2 n z := by
  unfold eafDifference; ring

/-- The sum of the areas of the rows that a test of the value selects. -/
theorem selected_area (h : IsRectTable (fun _ => false) mx x.pts x.labels y.pts y.labels n rows) (hx : x.labels.toFinset.card ≠ 0) (hy : y.labels.toFinset.card ≠ 0)
    (href : ∀ d < 2, ref d < mx) (p : ℝ → Bool) (hp0 : p 0 = false) :
    (((rows.filter (fun r => p (r.getD 4 0))).map unitRect).map (fun r => r.color * vol (rectRegion 1 (fun _ => ideal) ref r))).sum =
      vol {q : Fin 2 → ℝ | (∀ d : Fin 2, ideal d ≤ q d ∧ q d ≤ ref d) ∧ p (eafDifference (fun _ => false) x.pts x.labels y.pts y.labels 2 n (vec2 (q 0) (q 1))) = true} := by
  have hdis := rows_disjoint (ideal := ideal) (ref := ref) h
  have e1 : ((rows.filter (fun r => p (r.getD 4 0))).map unitRect).map (fun r => r.color * vol (rectRegion 1 (fun _ => ideal) ref r)) =
      (rows.filter (fun r => p (r.getD 4 0))).map (fun r => vol (rowRegion ideal ref r)) := by
    rw [List.map_map]
    apply List.map_congr_left
    intro r hr
    obtain ⟨a, b, c, d, v, rfl, -⟩ := h.2.1 r (List.mem_filter.1 hr).1
    simp only [Function.comp]
    rw [vol_rectRegion_row]
    simp [unitRect]
  rw [e1, vol_rows ideal ref _ (h.1.filter _) (fun r hr r' hr' q => hdis r (List.mem_filter.1 hr).1 r' (List.mem_filter.1 hr').1 q)]
  congr 1
  ext q
  simp only [Set.mem_ofPred_eq]
  constructor
  · rintro ⟨r, hr, hq⟩
    obtain ⟨hr1, hr2⟩ := List.mem_filter.1 hr
    obtain ⟨-, -, -, hv⟩ := h.2.2.2 _ r hr1 hq.1
    refine ⟨hq.2, ?_⟩
    rw [List.getD_eq_getElem?_getD, hv] at hr2
    exact hr2
  · rintro ⟨hbox, hpq⟩
    have hne : eafDifference (fun _ => false) x.pts x.labels y.pts y.labels 2 n (vec2 (q 0) (q 1)) ≠ 0 := by
      intro he
      rw [he, hp0] at hpq
      exact absurd hpq (by decide)
    rcases pairCount_of_difference _ hne with ⟨c1, c2⟩ | hc | hc
    · obtain ⟨r, ⟨hr, hin⟩, -⟩ := h.2.2.1 (vec2 (q 0) (q 1)) (by
        intro d hd
        rw [if_neg (by simp)]
        rcases (by omega : d = 0 ∨ d = 1) with rfl | rfl
        · exact lt_of_le_of_lt (hbox 0).2 (href 0 (by omega))
        · exact lt_of_le_of_lt (hbox 1).2 (href 1 (by omega))) c1 c2
      obtain ⟨-, -, -, hv⟩ := h.2.2.2 _ r hr hin
      refine ⟨r, List.mem_filter.2 ⟨hr, ?_⟩, hin, hbox⟩
      rw [List.getD_eq_getElem?_getD, hv]
      exact hpq
    · exact absurd hc hx
    · exact absurd hc hy

end area

/-! ## The loops -/

theorem mem_dataPairs (n a b : ℕ) : (a, b) ∈ dataPairs n ↔ a < b ∧ b < n := by
  unfold dataPairs
  simp only [List.mem_flatMap, List.mem_range, List.mem_map, List.mem_range'_1, Prod.mk.injEq]
  constructor
  · rintro ⟨a', h1, b', h2, rfl, rfl⟩; omega
  · rintro ⟨h1, h2⟩; exact ⟨a, by omega, b, by omega, rfl, rfl⟩

theorem dataPairs_sorted (n : ℕ) : (dataPairs n).Pairwise (fun p q => p.1 < q.1 ∨ p.1 = q.1 ∧ p.2 < q.2) := by
  unfold dataPairs
  rw [List.pairwise_flatMap]
  refine ⟨fun a _ => ?_, ?_⟩
  · rw [List.pairwise_map]
    exact (List.pairwise_lt_range' (s := a + 1) (n := n - (a + 1))).imp (fun h => Or.inr ⟨rfl, h⟩)
  · refine (List.pairwise_lt_range (n := n - 1)).imp ?_
    intro a a' h p hp q hq
    obtain ⟨b, -, rfl⟩ := List.mem_map.1 hp
    obtain ⟨b', -, rfl⟩ := List.mem_map.1 hq
    exact Or.inl h

/-- The best of the first pairs of the list. -/
def BestOf (value : ℕ → ℕ → ℝ) (done : List (ℕ × ℕ)) (best : Option (ℕ × ℕ)) (v : ℝ) : Prop :=
  (best = none ∧ v = 0 ∧ ∀ p ∈ done, value p.1 p.2 ≤ 0) ∨
  ∃ pre p post, done = pre ++ p :: post ∧ best = some p ∧ v = value p.1 p.2 ∧ 0 < v ∧ (∀ q ∈ pre, value q.1 q.2 < v) ∧ ∀ q ∈ post, value q.1 q.2 ≤ v

theorem largestLoop_spec {f : ℕ → ℕ → Option ℝ} {value : ℕ → ℕ → ℝ} : ∀ (ps done : List (ℕ × ℕ)) (best : Option (ℕ × ℕ)) (v : ℝ),
    (∀ p ∈ ps, f p.1 p.2 = some (value p.1 p.2)) → BestOf value done best v →
    ∃ best' v', largestLoop f ps best v = some (best', v') ∧ BestOf value (done ++ ps) best' v'
  | [], done, best, v, _, h => ⟨best, v, rfl, by rwa [List.append_nil]⟩
  | p :: ps, done, best, v, hf, h => by
    have hp := hf p (by simp)
    have hrec : ∀ b w, BestOf value (done ++ [p]) b w → ∃ best' v', largestLoop f ps b w = some (best', v') ∧ BestOf value (done ++ p :: ps) best' v' := by
      intro b w hb
      have := largestLoop_spec ps (done ++ [p]) b w (fun q hq => hf q (by simp [hq])) hb
      rwa [List.append_assoc, List.singleton_append] at this
    obtain ⟨a, b⟩ := p
    dsimp only at hp
    rw [largestLoop, hp]
    dsimp only
    by_cases hw : value a b > v
    · rw [if_pos hw]
      refine hrec _ _ (Or.inr ⟨done, (a, b), [], rfl, rfl, rfl, ?_, ?_, by simp⟩)
      · rcases h with ⟨-, rfl, -⟩ | ⟨_, _, _, -, -, -, h, -⟩
        · exact hw
        · exact h.trans hw
      · intro q hq
        rcases h with ⟨-, rfl, h⟩ | ⟨pre, p', post, rfl, -, hv, h, h1, h2⟩
        · exact lt_of_le_of_lt (h q hq) hw
        · rcases List.mem_append.1 hq with hq | hq
          · exact (h1 q hq).trans hw
          · rcases List.mem_cons.1 hq with rfl | hq
            · exact hv ▸ hw
            · exact lt_of_le_of_lt (h2 q hq) hw
    · rw [if_neg hw]
      refine hrec _ _ ?_
      rw [gt_iff_lt, not_lt] at hw
      rcases h with ⟨h0, h1, h⟩ | ⟨pre, p', post, rfl, h3, hv, h, h1, h2⟩
      · left
        refine ⟨h0, h1, fun q hq => ?_⟩
        rcases List.mem_append.1 hq with hq | hq
        · exact h q hq
        · rw [List.mem_singleton] at hq; subst hq; rw [← h1]; exact hw
      · right
        refine ⟨pre, p', post ++ [(a, b)], by simp, h3, hv, h, h1, fun q hq => ?_⟩
        rcases List.mem_append.1 hq with hq | hq
        · exact h2 q hq
        · rw [List.mem_singleton] at hq; subst hq; exact hw

theorem isLargestPair_of_bestOf {value : ℕ → ℕ → ℝ} {n : ℕ} {best : Option (ℕ × ℕ)} {v : ℝ} (h : BestOf value (dataPairs n) best v) : IsLargestPair n value best v := by
  rcases h with ⟨h0, h1, h⟩ | ⟨pre, p, post, he, h3, hv, h, h1, h2⟩
  · exact Or.inl ⟨h0, h1, fun a b hab hb => h (a, b) ((mem_dataPairs n a b).2 ⟨hab, hb⟩)⟩
  · right
    have hm : (p.1, p.2) ∈ dataPairs n := by rw [he]; simp
    rw [mem_dataPairs] at hm
    refine ⟨p.1, p.2, h3, hm.1, hm.2, hv, h, ?_⟩
    intro a' b' hab hb
    have hm' : (a', b') ∈ dataPairs n := (mem_dataPairs n a' b').2 ⟨hab, hb⟩
    have hs := dataPairs_sorted n
    rw [he] at hm' hs
    rw [List.pairwise_append, List.pairwise_cons] at hs
    rcases List.mem_append.1 hm' with hq | hq
    · exact ⟨(h1 _ hq).le, fun _ => h1 _ hq⟩
    · rcases List.mem_cons.1 hq with rfl | hq
      · refine ⟨hv.ge, ?_⟩
        dsimp only
        omega
      · refine ⟨h2 _ hq, fun hlt => ?_⟩
        have := hs.2.1.1 _ hq
        dsimp only at this
        omega

theorem isLargestPair_congr {n : ℕ} {f g : ℕ → ℕ → ℝ} (he : ∀ a b, a < b → b < n → f a b = g a b) {pair : Option (ℕ × ℕ)} {v : ℝ} (h : IsLargestPair n f pair v) : IsLargestPair n g pair v := by
  rcases h with ⟨g1, g2, g3⟩ | ⟨a, b, g1, g2, g3, g4, g5, g6⟩
  · exact Or.inl ⟨g1, g2, fun a b hab hb => by rw [← he a b hab hb]; exact g3 a b hab hb⟩
  · refine Or.inr ⟨a, b, g1, g2, g3, by rw [← he a b g2 g3]; exact g4, g5, fun a' b' hab hb => ?_⟩
    rw [← he a' b' hab hb]
    exact g6 a' b' hab hb

/-! ## The function -/

section main

variable {L : Type*} [LinearOrder L] [Inhabited L]

/-- What the sorting functions return for one pair is sorted. -/
structure PairSortsOk (V : EafEnv ℝ) (mx : ℝ) (intervals : ℕ) (ref : ℕ → ℝ) (x y : Labelled L ℝ) (fuel : ℕ) (S : PairSorts ℝ) : Prop where
  ox : IsOrder x.labels S.ox
  oy : IsOrder y.labels S.oy
  sx : EafSortedX (diffData (fun _ => false) x.pts y.pts x.labels S.ox S.oy) (x.labels.length + y.labels.length) S.sx
  sy : EafSortedY (diffData (fun _ => false) x.pts y.pts x.labels S.ox S.oy) (x.labels.length + y.labels.length) S.sy
  rects : ∀ rows, rEafdiffRects V mx (fun _ => false) x.pts y.pts x.labels y.labels (some intervals) S.ox S.oy S.sx S.sy fuel = some (RValue.matrix rows) →
    Qsort cmpRectYDesc (whvPreprocess (leftRects rows) ref) S.ra ∧ Qsort cmpRectYDesc (whvPreprocess (rightRects rows) ref) S.rb

theorem diffData_lt {x y : Labelled L ℝ} {ox oy : List ℕ} {mx : ℝ} (hox : IsOrder x.labels ox) (hoy : IsOrder y.labels oy) (hx : ∀ k < x.labels.length, ∀ d < 2, x.pts k d < mx)
    (hy : ∀ k < y.labels.length, ∀ d < 2, y.pts k d < mx) :
    ∀ p < x.labels.length + y.labels.length, ∀ d < 2, diffData (fun _ => false) x.pts y.pts x.labels ox oy p d < mx := by
  intro p hp d hd
  have hget : ∀ (ord : List ℕ) (n i : ℕ), ord.Perm (List.range n) → i < n → ord.getD i 0 < n := by
    intro ord n i hperm hi
    have hl : i < ord.length := by rw [hperm.length_eq, List.length_range]; exact hi
    rw [List.getD_eq_getElem _ _ hl]
    exact List.mem_range.1 (hperm.mem_iff.1 (List.getElem_mem hl))
  unfold diffData stackRows
  split_ifs with h
  · simp only [orderRows, transformMax, Bool.false_eq_true, if_false]
    exact hx _ (hget _ _ _ hox.1 h) d hd
  · simp only [orderRows, transformMax, Bool.false_eq_true, if_false]
    exact hy _ (hget _ _ _ hoy.1 (by omega)) d hd

theorem single_nondominated (ideal : ℕ → ℝ) : ∀ i < 1, ∀ j < 1, i ≠ j → ¬ ((fun _ => ideal) i 0 ≤ (fun _ => ideal) j 0 ∧ (fun _ => ideal) i 1 ≤ (fun _ => ideal) j 1) := by
  intro i hi j hj hne
  omega

/-- The value of one pair. -/
theorem rPairValue_spec {V : EafEnv ℝ} (hV : GrowOk V) {mx : ℝ} {intervals s fuel : ℕ} {ideal ref : ℕ → ℝ} {x y : Labelled L ℝ} {S : PairSorts ℝ} (hnx : x.labels ≠ []) (hny : y.labels ≠ [])
    (hcx : x.labels.toFinset.card = s) (hcy : y.labels.toFinset.card = s) (hS : PairSortsOk V mx intervals ref x y fuel S)
    (hf : 2 * (x.labels.length + y.labels.length) < fuel) (hsize : x.labels.length + y.labels.length ≤ 1073741823)
    (hx : ∀ k < x.labels.length, ∀ d < 2, x.pts k d < mx) (hy : ∀ k < y.labels.length, ∀ d < 2, y.pts k d < mx) (href : ∀ d < 2, ref d < mx)
    (hmat : ∀ r, rEafdiffRects V mx (fun _ => false) x.pts y.pts x.labels y.labels (some intervals) S.ox S.oy S.sx S.sy fuel ≠ some (RValue.vector r)) :
    rPairValue V mx intervals ideal ref x y S fuel = some (pairDifference (cornerBox ideal ref) (min intervals s) x y) := by
  obtain ⟨rows, h1, h2, h3⟩ := C61_r_eafdiff_rectangles_partial (s := s) hnx hny hcx hcy hS.ox hS.oy hS.sx hS.sy hf hsize V hV mx (diffData_lt hS.ox hS.oy hx hy) (some intervals)
  have hs0 : s ≠ 0 := by
    rw [← hcx]
    simpa [Finset.card_eq_zero, List.toFinset_eq_empty_iff] using hnx
  have hm : rEafdiffRects V mx (fun _ => false) x.pts y.pts x.labels y.labels (some intervals) S.ox S.oy S.sx S.sy fuel = some (RValue.matrix rows) := by
    apply h2
    intro hl
    obtain ⟨r, rfl⟩ := List.length_eq_one_iff.1 hl
    have := h3 r rfl
    rw [if_neg (by decide)] at this
    exact hmat r this
  obtain ⟨q1, q2⟩ := hS.rects rows hm
  have hq : Qsort (cmpDataYDesc (fun _ => ideal)) (List.range 1) [0] := ⟨by decide, by simp⟩
  have hok : ∀ (p : List ℝ → Bool), ∀ r ∈ (rows.filter p).map unitRect, r.l0 < r.u0 ∧ r.l1 < r.u1 ∧ 0 ≤ r.color := by
    intro p r hr
    obtain ⟨row, hrow, rfl⟩ := List.mem_map.1 hr
    obtain ⟨a, b, c, d, v, rfl, g1, g2⟩ := h1.2.1 row (List.mem_filter.1 hrow).1
    simp only [AsGood, Bool.false_eq_true, if_false, not_le] at g1 g2
    exact ⟨by simpa [unitRect] using g1, by simpa [unitRect] using g2, by simp [unitRect]⟩
  have hstop : ∀ rects, NoEarlyStop 1 (fun _ => ideal) rects ref := by
    intro rects i hi _ j hj
    exact le_rfl
  have ha := C34_rect_weighted_hv2d_partial 1 (fun _ => ideal) (leftRects rows) ref [0] S.ra hq q1 (single_nondominated ideal) (hok _) (hstop _)
  have hb := C34_rect_weighted_hv2d_partial 1 (fun _ => ideal) (rightRects rows) ref [0] S.rb hq q2 (single_nondominated ideal) (hok _) (hstop _)
  have ea := selected_area (ideal := ideal) (ref := ref) h1 (by rw [hcx]; exact hs0) (by rw [hcy]; exact hs0) href (fun v => decide (1 ≤ v)) (by norm_num)
  have eb := selected_area (ideal := ideal) (ref := ref) h1 (by rw [hcx]; exact hs0) (by rw [hcy]; exact hs0) href (fun v => decide (v ≤ -1)) (by norm_num)
  unfold leftRects at ha
  unfold rightRects at hb
  rw [ea] at ha
  rw [eb] at hb
  unfold rPairValue
  rw [hm]
  dsimp only
  unfold leftRects rightRects
  rw [ha, hb]
  dsimp only
  congr 1
  unfold pairDifference betterArea cornerBox
  simp only [decide_eq_true_eq, Option.getD_some, Set.mem_ofPred_eq]
  congr 2
  ext q
  simp only [Set.mem_ofPred_eq]
  rw [eafDifference_swap (x := x) (y := y)]
  apply and_congr_right
  intro _
  constructor <;> intro h <;> linarith

/-- **C62, partial**: `largest_eafdiff(x, intervals, reference, ideal)` with a given ideal point, for data sets with the same number `s` of sets and objectives to be minimised, when `eafdiff` returns a
matrix for every pair. -/
theorem C62_largest_eafdiff_ideal_partial {V : EafEnv ℝ} (hV : GrowOk V) {mx : ℝ} {intervals s fuel : ℕ} {ideal ref : ℕ → ℝ} {xs : List (Labelled L ℝ)} {S : ℕ → ℕ → PairSorts ℝ} (hn : 2 ≤ xs.length)
    (hne : ∀ x ∈ xs, x.labels ≠ [] ∧ x.labels.toFinset.card = s ∧ x.labels.length ≤ 536870911 ∧ 4 * x.labels.length < fuel ∧ ∀ k < x.labels.length, ∀ d < 2, x.pts k d < mx)
    (href : ∀ d < 2, ref d < mx)
    (hS : ∀ a b (hab : a < b) (hb : b < xs.length), PairSortsOk V mx intervals ref xs[a] xs[b] fuel (S a b) ∧
      ∀ r, rEafdiffRects V mx (fun _ => false) xs[a].pts xs[b].pts xs[a].labels xs[b].labels (some intervals) (S a b).ox (S a b).oy (S a b).sx (S a b).sy fuel ≠ some (RValue.vector r)) :
    ∃ pair v, rLargestEafdiff V mx false intervals (some ideal) ref xs S fuel = some (pair, v) ∧
      IsLargestPair xs.length (fun a b => pairDifference (cornerBox ideal ref) (min intervals s) (xs.getD a ⟨[], fun _ _ => 0⟩) (xs.getD b ⟨[], fun _ _ => 0⟩)) pair v := by
  unfold rLargestEafdiff
  rw [if_neg (by omega), if_neg (by decide)]
  dsimp only
  obtain ⟨pair, v, h1, h2⟩ := largestLoop_spec (value := fun a b => pairDifference (cornerBox ideal ref) (min intervals s) (xs.getD a ⟨[], fun _ _ => 0⟩) (xs.getD b ⟨[], fun _ _ => 0⟩))
    (f := fun a b => rPairValue V mx intervals ideal ref (xs.getD a ⟨[], fun _ _ => 0⟩) (xs.getD b ⟨[], fun _ _ => 0⟩) (S a b) fuel)
    (dataPairs xs.length) [] none 0 (by
      rintro ⟨a, b⟩ hp
      rw [mem_dataPairs] at hp
      have ha : a < xs.length := by omega
      have hb := hp.2
      obtain ⟨hS1, hS2⟩ := hS a b hp.1 hb
      obtain ⟨a1, a2, a3, a4, a5⟩ := hne xs[a] (List.getElem_mem ha)
      obtain ⟨b1, b2, b3, b4, b5⟩ := hne xs[b] (List.getElem_mem hb)
      dsimp only
      rw [List.getD_eq_getElem _ _ ha, List.getD_eq_getElem _ _ hb]
      exact rPairValue_spec hV a1 b1 a2 b2 hS1 (by omega) (by omega) a5 b5 href hS2) (Or.inl ⟨rfl, rfl, by simp⟩)
  exact ⟨pair, v, h1, isLargestPair_of_bestOf (by simpa using h2)⟩

theorem foldl_min_le : ∀ (l : List ℝ) (a : ℝ), l.foldl min a ≤ a ∧ ∀ b ∈ l, l.foldl min a ≤ b
  | [], a => ⟨le_rfl, by simp⟩
  | c :: l, a => by
    obtain ⟨h1, h2⟩ := foldl_min_le l (min a c)
    rw [List.foldl_cons]
    refine ⟨h1.trans (min_le_left _ _), fun b hb => ?_⟩
    rcases List.mem_cons.1 hb with rfl | hb
    · exact h1.trans (min_le_right _ _)
    · exact h2 b hb

theorem lowestOf_le {xs : List (Labelled L ℝ)} {x : Labelled L ℝ} (hx : x ∈ xs) (d : ℕ) {k : ℕ} (hk : k < x.labels.length) : lowestOf xs d ≤ x.pts k d := by
  have hm : x.pts k d ∈ xs.flatMap (fun x => (List.range x.labels.length).map (fun k => x.pts k d)) := by
    rw [List.mem_flatMap]
    exact ⟨x, hx, List.mem_map.2 ⟨k, List.mem_range.2 hk, rfl⟩⟩
  unfold lowestOf
  revert hm
  generalize xs.flatMap (fun x => (List.range x.labels.length).map (fun k => x.pts k d)) = l
  intro hm
  cases l with
  | nil => simp at hm
  | cons v vs =>
    obtain ⟨h1, h2⟩ := foldl_min_le vs v
    rcases List.mem_cons.1 hm with h | h
    · dsimp only; rw [h]; exact h1
    · exact h2 _ h

/-- The default ideal point cuts off nothing. -/
theorem betterArea_lowest {xs : List (Labelled L ℝ)} {x y : Labelled L ℝ} (hx : x ∈ xs) (ref : ℕ → ℝ) (n : ℕ) :
    betterArea (cornerBox (lowestOf xs) ref) n x y = betterArea (belowRef ref) n x y := by
  unfold betterArea
  congr 1
  ext q
  simp only [Set.mem_ofPred_eq]
  apply and_congr_left
  intro h
  unfold cornerBox belowRef
  simp only [Set.mem_ofPred_eq]
  refine ⟨fun g d => (g d).2, fun g d => ⟨?_, g d⟩⟩
  have hc : labelCount (fun _ => false) x.pts x.labels 2 (vec2 (q 0) (q 1)) ≠ 0 := by
    intro h0
    unfold eafDifference at h
    rw [h0] at h
    have h1 : (0 : ℝ) ≤ (labelCount (fun _ => false) y.pts y.labels 2 (vec2 (q 0) (q 1)) : ℝ) / (y.labels.toFinset.card : ℝ) := by positivity
    have h2 : (0 : ℝ) ≤ (n : ℝ) * ((labelCount (fun _ => false) y.pts y.labels 2 (vec2 (q 0) (q 1)) : ℝ) / (y.labels.toFinset.card : ℝ)) := by positivity
    simp only [Nat.cast_zero, zero_div, zero_sub, mul_neg] at h
    linarith
  classical
  unfold labelCount at hc
  obtain ⟨u, hu⟩ := Finset.card_ne_zero.1 hc
  obtain ⟨-, k, hk, hle⟩ := Finset.mem_filter.1 hu
  have hkl : k < x.labels.length := (List.getElem?_eq_some_iff.1 hk).1
  have := hle d d.2
  simp only [AsGood, Bool.false_eq_true, if_false] at this
  refine (lowestOf_le hx d hkl).trans (this.trans (le_of_eq ?_))
  match d with
  | 0 => rfl
  | 1 => rfl

/-- **C62, partial**: `largest_eafdiff(x, intervals, reference)` with the default ideal point: the first pair of data sets for which the smaller of the two areas, where one or the other is better by at
least one interval, is largest. -/
theorem C62_largest_eafdiff_partial {V : EafEnv ℝ} (hV : GrowOk V) {mx : ℝ} {intervals s fuel : ℕ} {ref : ℕ → ℝ} {xs : List (Labelled L ℝ)} {S : ℕ → ℕ → PairSorts ℝ} (hn : 2 ≤ xs.length)
    (hne : ∀ x ∈ xs, x.labels ≠ [] ∧ x.labels.toFinset.card = s ∧ x.labels.length ≤ 536870911 ∧ 4 * x.labels.length < fuel ∧ ∀ k < x.labels.length, ∀ d < 2, x.pts k d < mx)
    (href : ∀ d < 2, ref d < mx)
    (hS : ∀ a b (hab : a < b) (hb : b < xs.length), PairSortsOk V mx intervals ref xs[a] xs[b] fuel (S a b) ∧
      ∀ r, rEafdiffRects V mx (fun _ => false) xs[a].pts xs[b].pts xs[a].labels xs[b].labels (some intervals) (S a b).ox (S a b).oy (S a b).sx (S a b).sy fuel ≠ some (RValue.vector r)) :
    ∃ pair v, rLargestEafdiff V mx false intervals none ref xs S fuel = some (pair, v) ∧
      IsLargestPair xs.length (fun a b => pairDifference (belowRef ref) (min intervals s) (xs.getD a ⟨[], fun _ _ => 0⟩) (xs.getD b ⟨[], fun _ _ => 0⟩)) pair v := by
  obtain ⟨pair, v, h1, h2⟩ := C62_largest_eafdiff_ideal_partial (ideal := lowestOf xs) hV hn hne href hS
  refine ⟨pair, v, h1, ?_⟩
  have he : ∀ a b, a < b → b < xs.length → pairDifference (cornerBox (lowestOf xs) ref) (min intervals s) (xs.getD a ⟨[], fun _ _ => 0⟩) (xs.getD b ⟨[], fun _ _ => 0⟩) =
      pairDifference (belowRef ref) (min intervals s) (xs.getD a ⟨[], fun _ _ => 0⟩) (xs.getD b ⟨[], fun _ _ => 0⟩) := by
    intro a b hab hb
    have ha : a < xs.length := by omega
    unfold pairDifference
    rw [List.getD_eq_getElem _ _ ha, List.getD_eq_getElem _ _ hb, betterArea_lowest (List.getElem_mem ha), betterArea_lowest (List.getElem_mem hb)]
  exact isLargestPair_congr he h2

/-- If `eafdiff` returns a vector for a pair, `largest_eafdiff` stops with an error, and also if an objective is maximised. -/
theorem C62_errors (V : EafEnv ℝ) (mx : ℝ) (intervals fuel : ℕ) (ideal : Option (ℕ → ℝ)) (ref : ℕ → ℝ) (xs : List (Labelled L ℝ)) (S : ℕ → ℕ → PairSorts ℝ) :
    rLargestEafdiff V mx true intervals ideal ref xs S fuel = none ∧
    ∀ a b (_ : a < b) (hb : b < xs.length) r,
      rEafdiffRects V mx (fun _ => false) (xs[a]).pts xs[b].pts xs[a].labels xs[b].labels (some intervals) (S a b).ox (S a b).oy (S a b).sx (S a b).sy fuel = some (RValue.vector r) →
      rLargestEafdiff V mx false intervals ideal ref xs S fuel = none := by
  have hloop : ∀ (f : ℕ → ℕ → Option ℝ) (ps : List (ℕ × ℕ)) (best : Option (ℕ × ℕ)) (v : ℝ), (∃ p ∈ ps, f p.1 p.2 = none) → largestLoop f ps best v = none := by
    intro f ps
    induction ps with
    | nil => rintro best v ⟨p, hp, -⟩; simp at hp
    | cons q ps ih =>
      rintro best v ⟨p, hp, h⟩
      obtain ⟨a, b⟩ := q
      rw [largestLoop]
      cases hq : f a b with
      | none => rfl
      | some w =>
        dsimp only
        have : ∃ p ∈ ps, f p.1 p.2 = none := by
          rcases List.mem_cons.1 hp with rfl | hp
          · rw [hq] at h; exact absurd h (by simp)
          · exact ⟨p, hp, h⟩
        split_ifs <;> exact ih _ _ this
  refine ⟨by unfold rLargestEafdiff; rw [if_pos rfl, ite_self], ?_⟩
  intro a b hab hb r hr
  unfold rLargestEafdiff
  rw [if_neg (by omega), if_neg (by decide)]
  dsimp only
  refine hloop _ _ _ _ ⟨(a, b), (mem_dataPairs _ _ _).2 ⟨hab, hb⟩, ?_⟩
  have ha : a < xs.length := by omega
  dsimp only
  rw [List.getD_eq_getElem _ _ ha, List.getD_eq_getElem _ _ hb]
  unfold rPairValue
  rw [hr]

end main

/-! ## Example: two data sets of one set each, `{(1,2)}` and `{(2,1)}` -/

/-- The first data set. -/
def largeExX : Labelled ℤ ℝ := ⟨[1], fun _ d => if d = 0 then 1 else 2⟩
/-- The second data set. -/
def largeExY : Labelled ℤ ℝ := ⟨[1], fun _ d => if d = 0 then 2 else 1⟩

open Classical in
theorem labelCount_single (a b : ℝ) (z : ℕ → ℝ) : labelCount (fun _ => false) (fun _ d => if d = 0 then a else b) [(1 : ℤ)] 2 z = if a ≤ z 0 ∧ b ≤ z 1 then 1 else 0 := by
  unfold labelCount
  split_ifs with h
  · rw [Finset.filter_true_of_mem]
    · rfl
    · intro u hu
      simp only [List.toFinset_cons, List.toFinset_nil, insert_empty_eq, Finset.mem_singleton] at hu
      subst hu
      refine ⟨0, rfl, fun d hd => ?_⟩
      rcases (by omega : d = 0 ∨ d = 1) with rfl | rfl
      · simpa [AsGood] using h.1
      · simpa [AsGood] using h.2
  · rw [Finset.card_eq_zero, Finset.filter_eq_empty_iff]
    rintro u - ⟨k, -, g⟩
    apply h
    have g0 := g 0 (by omega)
    have g1 := g 1 (by omega)
    simp only [AsGood, Bool.false_eq_true, if_false, if_true, one_ne_zero] at g0 g1
    exact ⟨g0, g1⟩

open Classical in
theorem largeEx_diff (z : ℕ → ℝ) : eafDifference (fun _ => false) largeExX.pts largeExX.labels largeExY.pts largeExY.labels 2 1 z =
    (if 1 ≤ z 0 ∧ 2 ≤ z 1 then 1 else 0) - (if 2 ≤ z 0 ∧ 1 ≤ z 1 then 1 else 0) := by
  unfold eafDifference largeExX largeExY
  dsimp only
  rw [labelCount_single, labelCount_single]
  simp only [List.toFinset_cons, List.toFinset_nil, insert_empty_eq, Finset.card_singleton, Nat.cast_one, div_one, one_mul, Nat.cast_ite, Nat.cast_zero]

/-- A growth policy. -/
def largeExEnv : EafEnv ℝ := ⟨fun _ => 0, fun _ => 0, fun k m => m + m / 2 ^ k⟩

theorem cmpRectYDesc_le_iff {a b : WRect ℝ} : cmpRectYDesc a b ≤ 0 ↔ b.u1 < a.u1 ∨ b.u1 = a.u1 ∧ a.u0 ≤ b.u0 := by
  unfold cmpRectYDesc
  split_ifs with h1 h2 h3 h4
  · simp [h1]
  · simp only [Int.reduceLE, false_iff]; push Not; exact ⟨h2.le, fun e => absurd e (ne_of_gt h2)⟩
  · have : b.u1 = a.u1 := le_antisymm (not_lt.1 h2) (not_lt.1 h1)
    simp [this, h3.le]
  · simp only [Int.reduceLE, false_iff]; push Not; exact ⟨not_lt.1 h1, fun _ => h4⟩
  · have : b.u1 = a.u1 := le_antisymm (not_lt.1 h2) (not_lt.1 h1)
    simp [this, not_lt.1 h4]

theorem exists_rectSort (l : List (WRect ℝ)) : ∃ out, Qsort cmpRectYDesc l out := by
  refine exists_qsort _ ?_ ?_ l
  · intro a b c h1 h2
    rw [cmpRectYDesc_le_iff] at *
    rcases h1 with h1 | ⟨h1, h1'⟩ <;> rcases h2 with h2 | ⟨h2, h2'⟩
    · exact Or.inl (h2.trans h1)
    · exact Or.inl (h2 ▸ h1)
    · exact Or.inl (h1 ▸ h2)
    · exact Or.inr ⟨h2.trans h1, h1'.trans h2'⟩
  · intro a b
    rw [cmpRectYDesc_le_iff, cmpRectYDesc_le_iff]
    rcases lt_trichotomy a.u1 b.u1 with h | h | h
    · exact Or.inr (Or.inl h)
    · rcases le_total a.u0 b.u0 with g | g
      · exact Or.inl (Or.inr ⟨h.symm, g⟩)
      · exact Or.inr (Or.inr ⟨h, g⟩)
    · exact Or.inl (Or.inl h)

/-- Non-vacuity: all the hypotheses of `C62_largest_eafdiff_partial` are met, and the result is the pair of the two data sets with a positive value. -/
example : ∃ (S : ℕ → ℕ → PairSorts ℝ) (v : ℝ), 0 < v ∧
    rLargestEafdiff largeExEnv 100 false 5 none (fun _ => 3) [largeExX, largeExY] S 9 = some (some (0, 1), v) := by
  have hox : IsOrder largeExX.labels [0] := ⟨by decide, by decide⟩
  have hoy : IsOrder largeExY.labels [0] := ⟨by decide, by decide⟩
  have hsx : EafSortedX (diffData (fun _ => false) largeExX.pts largeExY.pts largeExX.labels [0] [0]) (largeExX.labels.length + largeExY.labels.length) [0, 1] := by
    refine ⟨by decide, ?_⟩
    simp [compareXasc, diffData, stackRows, orderRows, transformMax, largeExX, largeExY]
  have hsy : EafSortedY (diffData (fun _ => false) largeExX.pts largeExY.pts largeExX.labels [0] [0]) (largeExX.labels.length + largeExY.labels.length) [0, 1] := by
    refine ⟨by decide, ?_⟩
    simp [compareYdesc, diffData, stackRows, orderRows, transformMax, largeExX, largeExY]
  have hV : GrowOk largeExEnv := fun _ _ => Nat.le_add_right _ _
  have hlx : ∀ k < largeExX.labels.length, ∀ d < 2, largeExX.pts k d < 100 := by
    intro k _ d _
    unfold largeExX
    dsimp only
    split_ifs <;> norm_num
  have hly : ∀ k < largeExY.labels.length, ∀ d < 2, largeExY.pts k d < 100 := by
    intro k _ d _
    unfold largeExY
    dsimp only
    split_ifs <;> norm_num
  obtain ⟨rows, h1, h2, h3⟩ := C61_r_eafdiff_rectangles_partial (s := 1) (fuel := 9) (lx := largeExX.labels) (ly := largeExY.labels) (by decide) (by decide) (by decide) (by decide) hox hoy hsx hsy (by decide) (by decide) largeExEnv hV 100
    (diffData_lt hox hoy hlx hly) (some 5)
  have hlen : rows.length ≠ 1 := by
    intro hl
    obtain ⟨r, rfl⟩ := List.length_eq_one_iff.1 hl
    have hd : ∀ z : ℕ → ℝ, (∀ d < 2, z d < 100) → eafDifference (fun _ => false) largeExX.pts largeExX.labels largeExY.pts largeExY.labels 2 1 z ≠ 0 →
        r[4]? = some (eafDifference (fun _ => false) largeExX.pts largeExX.labels largeExY.pts largeExY.labels 2 1 z) := by
      intro z hz hne
      rcases pairCount_of_difference z hne with ⟨c1, c2⟩ | hc | hc
      · obtain ⟨r', ⟨hr, hin⟩, -⟩ := h1.2.2.1 z (by simpa using hz) c1 c2
        have := (h1.2.2.2 z r' hr hin).2.2.2
        rw [List.mem_singleton] at hr
        rw [← hr]
        exact this
      · exact absurd hc (by decide)
      · exact absurd hc (by decide)
    have e1 := hd (vec2 1 2) (by intro d _; unfold vec2; split_ifs <;> norm_num) (by rw [largeEx_diff]; norm_num [vec2])
    have e2 := hd (vec2 2 1) (by intro d _; unfold vec2; split_ifs <;> norm_num) (by rw [largeEx_diff]; norm_num [vec2])
    rw [e1, largeEx_diff, largeEx_diff] at e2
    norm_num [vec2] at e2
  have hm := h2 hlen
  obtain ⟨ra, hra⟩ := exists_rectSort (whvPreprocess (leftRects rows) (fun _ => 3))
  obtain ⟨rb, hrb⟩ := exists_rectSort (whvPreprocess (rightRects rows) (fun _ => 3))
  let S : ℕ → ℕ → PairSorts ℝ := fun _ _ => ⟨[0], [0], [0, 1], [0, 1], ra, rb⟩
  obtain ⟨pair, v, g1, g2⟩ := C62_largest_eafdiff_partial (s := 1) (intervals := 5) (mx := 100) (fuel := 9) (ref := fun _ => 3) (xs := [largeExX, largeExY]) (S := S) hV (by simp)
    (by
      intro x hx
      simp only [List.mem_cons, List.not_mem_nil, or_false] at hx
      rcases hx with rfl | rfl
      · exact ⟨by decide, by decide, by decide, by decide, hlx⟩
      · exact ⟨by decide, by decide, by decide, by decide, hly⟩)
    (by intro d _; norm_num)
    (by
      intro a b hab hb
      simp only [List.length_cons, List.length_nil, zero_add] at hb
      obtain ⟨rfl, rfl⟩ : a = 0 ∧ b = 1 := by omega
      refine ⟨⟨hox, hoy, hsx, hsy, ?_⟩, ?_⟩
      · intro rows' hr
        have he : rows' = rows := by
          have := hm.symm.trans hr
          simpa using this.symm
        rw [he]
        exact ⟨hra, hrb⟩
      · intro r hr
        have := hm.symm.trans hr
        simp at this)
  have harea : ∀ (x y : Labelled ℤ ℝ) (lo : Fin 2 → ℝ), (∀ d, 1 ≤ lo d ∧ lo d ≤ 2) →
      (∀ q : Fin 2 → ℝ, (∀ d, lo d ≤ q d ∧ q d < lo d + 1) → 1 ≤ eafDifference (fun _ => false) x.pts x.labels y.pts y.labels 2 1 (vec2 (q 0) (q 1))) →
      (∀ q : Fin 2 → ℝ, 1 ≤ eafDifference (fun _ => false) x.pts x.labels y.pts y.labels 2 1 (vec2 (q 0) (q 1)) → ∀ d, 1 ≤ q d) → 0 < betterArea (belowRef (fun _ => 3)) 1 x y := by
    intro x y lo hlo h1 h2
    unfold betterArea vol
    rw [ENNReal.toReal_pos_iff]
    constructor
    · refine lt_of_lt_of_le ?_ (measure_mono (s := Set.pi Set.univ (fun d : Fin 2 => Set.Ico (lo d) (lo d + 1))) ?_)
      · rw [volume_pi_pi]
        simp
      · intro q hq
        have hq' : ∀ d, lo d ≤ q d ∧ q d < lo d + 1 := fun d => hq d (Set.mem_univ d)
        exact ⟨fun d => by have := hq' d; have := hlo d; dsimp only; linarith, h1 q hq'⟩
    · refine lt_of_le_of_lt (measure_mono (t := Set.Icc (fun _ : Fin 2 => (1 : ℝ)) (fun _ => 3)) ?_) isCompact_Icc.measure_lt_top
      rintro q ⟨hq1, hq2⟩
      exact ⟨fun d => h2 q hq2 d, fun d => hq1 d⟩
  have hpos : 0 < pairDifference (belowRef (fun _ => 3)) 1 largeExX largeExY := by
    unfold pairDifference
    refine lt_min (harea _ _ (fun d => if d = 0 then 1 else 2) ?_ ?_ ?_) (harea _ _ (fun d => if d = 0 then 2 else 1) ?_ ?_ ?_)
    · intro d; split_ifs <;> norm_num
    · intro q hq
      have h0 := hq 0
      have h1 := hq 1
      simp only [if_true, one_ne_zero, if_false] at h0 h1
      rw [largeEx_diff, if_pos, if_neg]
      · norm_num
      · rintro ⟨k1, -⟩; simp only [vec2, if_true] at k1; linarith
      · exact ⟨by simpa [vec2] using h0.1, by simpa [vec2] using h1.1⟩
    · intro q hq
      rw [largeEx_diff] at hq
      have hc : (1 : ℝ) ≤ vec2 (q 0) (q 1) 0 ∧ 2 ≤ vec2 (q 0) (q 1) 1 := by
        by_contra hc
        rw [if_neg hc] at hq
        split_ifs at hq <;> norm_num at hq
      simp only [vec2, if_true, one_ne_zero, if_false] at hc
      rw [Fin.forall_fin_two]
      exact ⟨hc.1, by linarith [hc.2]⟩
    · intro d; split_ifs <;> norm_num
    · intro q hq
      have h0 := hq 0
      have h1 := hq 1
      simp only [if_true, one_ne_zero, if_false] at h0 h1
      rw [eafDifference_swap, largeEx_diff, if_neg, if_pos]
      · norm_num
      · exact ⟨by simpa [vec2] using h0.1, by simpa [vec2] using h1.1⟩
      · rintro ⟨-, k1⟩; simp only [vec2, one_ne_zero, if_false] at k1; linarith
    · intro q hq
      rw [eafDifference_swap, largeEx_diff] at hq
      have hc : (2 : ℝ) ≤ vec2 (q 0) (q 1) 0 ∧ 1 ≤ vec2 (q 0) (q 1) 1 := by
        by_contra hc
        rw [if_neg hc] at hq
        split_ifs at hq <;> norm_num at hq
      simp only [vec2, if_true, one_ne_zero, if_false] at hc
      rw [Fin.forall_fin_two]
      exact ⟨by linarith [hc.1], hc.2⟩
  rcases g2 with ⟨-, -, g2⟩ | ⟨a, b, rfl, hab, hb, -, hv, -⟩
  · have := g2 0 1 (by omega) (by simp)
    simp only [List.getD_cons_zero, List.getD_cons_succ] at this
    exact absurd this (not_le.2 (by simpa using hpos))
  · simp only [List.length_cons, List.length_nil, zero_add] at hb
    obtain ⟨rfl, rfl⟩ : a = 0 ∧ b = 1 := by omega
    exact ⟨S, v, hv, g1⟩

end Moo
