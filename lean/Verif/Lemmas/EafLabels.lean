import Verif.Spec.EafLabels
import Verif.Spec.Eaf
import Verif.Model.EafLabels
import Verif.Lemmas.WithinSets
import Verif.Props.Percentile

/-!
# Lemmas: labelled data sets and their runs
-/

set_option autoImplicit false
set_option linter.unusedSectionVars false

namespace Moo

section runs

variable {L : Type*} [LinearOrder L]

theorem npUnique_strict (l : List L) : (npUnique l).Pairwise (fun a b => a < b) := by
  have h1 : (npUnique l).Pairwise (fun a b => a ≤ b) := by
    unfold npUnique
    exact List.pairwise_insertionSort _ _
  have h2 : (npUnique l).Pairwise (fun a b => a ≠ b) := npUnique_nodup l
  exact (h1.and h2).imp (fun h => lt_of_le_of_ne h.1 h.2)

theorem npUnique_perm {l m : List L} (h : l.Perm m) : npUnique l = npUnique m := by
  refine List.Perm.eq_of_pairwise (le := fun a b => a ≤ b) (fun a b _ _ h1 h2 => le_antisymm h1 h2) ((npUnique_strict l).imp le_of_lt) ((npUnique_strict m).imp le_of_lt) ?_
  rw [List.perm_ext_iff_of_nodup (npUnique_nodup l) (npUnique_nodup m)]
  intro a
  rw [npUnique_mem, npUnique_mem, h.mem_iff]

theorem nSets_eq_card (l : List L) : nSets l = l.toFinset.card := by
  unfold nSets
  rw [← List.toFinset_card_of_nodup (npUnique_nodup l)]
  congr 1
  ext x
  simp [npUnique_mem]

theorem nSets_perm {l m : List L} (h : l.Perm m) : nSets l = nSets m := by rw [nSets, nSets, npUnique_perm h]

theorem nSets_pos {l : List L} (h : l ≠ []) : 0 < nSets l := by
  obtain ⟨x, hx⟩ := List.exists_mem_of_ne_nil l h
  exact List.length_pos_of_mem ((npUnique_mem l x).2 hx)

theorem sum_count_eq_countP (ls : List L) : ∀ us : List L, us.Nodup → (us.map (fun u => ls.count u)).sum = ls.countP (fun x => decide (x ∈ us))
  | [], _ => by simp
  | u :: us, h => by
    rw [List.map_cons, List.sum_cons, sum_count_eq_countP ls us (List.nodup_cons.1 h).2]
    have hu := (List.nodup_cons.1 h).1
    clear h
    induction ls with
    | nil => simp
    | cons a ls ih =>
      rw [List.count_cons, List.countP_cons, List.countP_cons, ← ih]
      by_cases h1 : a = u
      · subst h1; simp [hu]; omega
      · have : ¬ (a == u) = true := by simpa using h1
        by_cases h2 : a ∈ us <;> simp [h1, h2]; omega

theorem mem_take_unique {us : List L} (h : us.Pairwise (fun a b => a < b)) {r : ℕ} (hr : r < us.length) {x : L} (hx : x ∈ us) :
    x ∈ us.take (r + 1) ↔ x ≤ us[r] := by
  obtain ⟨j, hj, rfl⟩ := List.getElem_of_mem hx
  rw [List.pairwise_iff_getElem] at h
  constructor
  · intro hm
    obtain ⟨i, hi, he⟩ := List.getElem_of_mem hm
    rw [List.getElem_take] at he
    rw [← he]
    rw [List.length_take] at hi
    rcases Nat.lt_or_ge i r with hir | hir
    · exact (h i r (by omega) hr hir).le
    · have : i = r := by omega
      subst this; exact le_rfl
  · intro hle
    have hjr : j ≤ r := by
      by_contra hc
      exact absurd (h r j hr hj (by omega)) (not_lt.2 hle)
    rw [List.mem_take_iff_getElem]
    exact ⟨j, by omega, rfl⟩

theorem cumSizes_eq (ls : List L) {r : ℕ} (hr : r < nSets ls) : cumSizes ls r = ls.countP (fun x => decide (x ≤ (npUnique ls)[r]'hr)) := by
  unfold cumSizes
  rw [← List.map_take, sum_count_eq_countP ls _ ((npUnique_nodup ls).sublist (List.take_sublist _ _))]
  refine List.countP_congr ?_
  intro x hx
  have := mem_take_unique (npUnique_strict ls) hr ((npUnique_mem ls x).2 hx)
  simpa using this

theorem lt_countP_sorted (u : L) : ∀ (ls : List L), ls.Pairwise (fun a b => a ≤ b) → ∀ k, (k < ls.countP (fun x => decide (x ≤ u)) ↔ ∃ x, ls[k]? = some x ∧ x ≤ u)
  | [], _, k => by simp
  | a :: ls, h, k => by
    rw [List.pairwise_cons] at h
    have ih := lt_countP_sorted u ls h.2
    rw [List.countP_cons]
    by_cases hau : a ≤ u
    · rw [if_pos (by simpa using hau)]
      rcases k with _ | k
      · simp [hau]
      · rw [List.getElem?_cons_succ, ← ih k]; omega
    · rw [if_neg (by simpa using hau)]
      have h0 : ls.countP (fun x => decide (x ≤ u)) = 0 := by
        rw [List.countP_eq_zero]
        intro x hx hxu
        exact hau ((h.1 x hx).trans (by simpa using hxu))
      rw [h0]
      refine ⟨fun hc => absurd hc (by omega), ?_⟩
      rintro ⟨x, hx, hxu⟩
      rcases k with _ | k
      · simp at hx; subst hx; exact absurd hxu hau
      · rw [List.getElem?_cons_succ] at hx
        exact absurd ((h.1 x (List.mem_of_getElem? hx)).trans hxu) hau

theorem lt_cumSizes {ls : List L} (hs : ls.Pairwise (fun a b => a ≤ b)) {r : ℕ} (hr : r < nSets ls) (k : ℕ) :
    k < cumSizes ls r ↔ ∃ x, ls[k]? = some x ∧ x ≤ (npUnique ls)[r]'hr := by
  rw [cumSizes_eq ls hr, lt_countP_sorted _ ls hs k]

theorem inRun_labels {ls : List L} (hs : ls.Pairwise (fun a b => a ≤ b)) {r : ℕ} (hr : r < nSets ls) (k : ℕ) :
    InRun (cumSizes ls) r k ↔ ls[k]? = some ((npUnique ls)[r]'hr) := by
  have hmono := npUnique_strict ls
  rw [List.pairwise_iff_getElem] at hmono
  unfold InRun
  rw [lt_cumSizes hs hr]
  constructor
  · rintro ⟨h1, x, hx, hle⟩
    obtain ⟨j, hj, he⟩ := List.getElem_of_mem ((npUnique_mem ls x).2 (List.mem_of_getElem? hx))
    have hjr : j = r := by
      rcases Nat.lt_trichotomy j r with h | h | h
      · exfalso
        have := h1 j h
        rw [← not_lt, lt_cumSizes hs hj] at this
        exact this ⟨x, hx, he.symm.le⟩
      · exact h
      · have := hmono r j hr hj h
        rw [he] at this
        exact absurd this (not_lt.2 hle)
    subst hjr
    rw [hx]
    exact congrArg some he.symm
  · intro hk
    refine ⟨?_, _, hk, le_rfl⟩
    intro s hsr
    rw [← not_lt, lt_cumSizes hs (hsr.trans hr)]
    rintro ⟨x, hx, hle⟩
    rw [hk, Option.some.injEq] at hx
    subst hx
    exact absurd (hmono s r (hsr.trans hr) hr hsr) (not_lt.2 hle)

theorem cumSizes_last (ls : List L) : cumSizes ls (nSets ls - 1) = ls.length := by
  unfold cumSizes
  rw [List.take_of_length_le (by rw [List.length_map]; unfold nSets; omega), sum_count_eq_countP ls _ (npUnique_nodup ls), List.countP_eq_length]
  intro x hx
  simpa [npUnique_mem] using hx

theorem cumSizes_runsOk {ls : List L} (hn : ls ≠ []) (hs : ls.Pairwise (fun a b => a ≤ b)) : RunsOk (cumSizes ls) (nSets ls) ∧ 0 < cumSizes ls 0 := by
  have hpos := nSets_pos hn
  have hmono := npUnique_strict ls
  rw [List.pairwise_iff_getElem] at hmono
  have hex : ∀ r (hr : r < nSets ls), ∃ k : ℕ, ls[k]? = some ((npUnique ls)[r]'hr) := by
    intro r hr
    have : (npUnique ls)[r]'hr ∈ ls := (npUnique_mem ls _).1 (List.getElem_mem _)
    exact List.mem_iff_getElem?.1 this
  refine ⟨⟨hpos, ?_, ?_⟩, ?_⟩
  · intro r hr
    obtain ⟨k, hk⟩ := hex (r + 1) hr
    have h := (inRun_labels hs hr k).2 hk
    exact (h.1 r (by omega)).trans_lt h.2
  · rw [cumSizes_last]; exact List.length_pos_iff.2 hn
  · obtain ⟨k, hk⟩ := hex 0 hpos
    exact Nat.zero_lt_of_lt ((inRun_labels hs hpos k).2 hk).2

theorem cumSizes_perm {l m : List L} (h : l.Perm m) : cumSizes l = cumSizes m := by
  funext r
  unfold cumSizes
  rw [npUnique_perm h]
  simp only [h.count_eq]

end runs

section attain

variable {K : Type*} [LinearOrder K] {L : Type*} [LinearOrder L]

theorem labelCount_runs {ls : List L} (hs : ls.Pairwise (fun a b => a ≤ b)) (data : ℕ → ℕ → K) (dim : ℕ) (z : ℕ → K) :
    labelCount (fun _ => false) data ls dim z = attainCount data (cumSizes ls) (nSets ls) dim z := by
  classical
  unfold labelCount attainCount
  symm
  refine Finset.card_bij (fun r hr => (npUnique ls)[r]'(Finset.mem_range.1 (Finset.mem_filter.1 hr).1)) ?_ ?_ ?_
  · intro r hr
    have hr' := Finset.mem_range.1 (Finset.mem_filter.1 hr).1
    obtain ⟨k, hk, hd⟩ := (Finset.mem_filter.1 hr).2
    rw [inRun_labels hs hr'] at hk
    rw [Finset.mem_filter]
    refine ⟨List.mem_toFinset.2 (List.mem_of_getElem? hk), k, hk, fun d hd' => ?_⟩
    simpa [AsGood] using hd d hd'
  · intro a ha b hb he
    exact ((npUnique_nodup ls).getElem_inj_iff).1 he
  · intro u hu
    rw [Finset.mem_filter, List.mem_toFinset] at hu
    obtain ⟨hu, k, hk, hd⟩ := hu
    obtain ⟨r, hr, he⟩ := List.getElem_of_mem ((npUnique_mem ls u).2 hu)
    refine ⟨r, ?_, he⟩
    rw [Finset.mem_filter, Finset.mem_range]
    refine ⟨hr, k, (inRun_labels hs hr k).2 (by rw [hk, he]), fun d hd' => ?_⟩
    simpa [AsGood] using hd d hd'

theorem bestForLabels_runs {ls : List L} (hs : ls.Pairwise (fun a b => a ≤ b)) (data : ℕ → ℕ → K) (dim k : ℕ) (z : ℕ → K) :
    BestForLabels (fun _ => false) data ls dim k z ↔ MinimalAttained data (cumSizes ls) (nSets ls) dim k z := by
  unfold BestForLabels MinimalAttained
  simp only [labelCount_runs hs, AsGood, Bool.false_eq_true, if_false]

theorem labelAttains_order [Inhabited L] (m : ℕ → Bool) (data : ℕ → ℕ → K) {labels : List L} {ord : List ℕ} (ho : ord.Perm (List.range labels.length)) (dim : ℕ) (u : L) (z : ℕ → K) :
    LabelAttains m (orderRows data ord) (orderLabels labels ord) dim u z ↔ LabelAttains m data labels dim u z := by
  unfold LabelAttains orderRows orderLabels
  constructor
  · rintro ⟨i, hi, hd⟩
    rw [List.getElem?_map, Option.map_eq_some_iff] at hi
    obtain ⟨k, hk, he⟩ := hi
    have hkl : k < labels.length := List.mem_range.1 (ho.mem_iff.1 (List.mem_of_getElem? hk))
    refine ⟨k, ?_, ?_⟩
    · rw [List.getElem?_eq_getElem hkl, ← he, List.getD_eq_getElem _ _ hkl]
    · rw [show ord.getD i 0 = k by rw [List.getD_eq_getElem?_getD, hk]; rfl] at hd
      exact hd
  · rintro ⟨k, hk, hd⟩
    have hkl : k < labels.length := (List.getElem?_eq_some_iff.1 hk).1
    obtain ⟨i, hi⟩ := List.mem_iff_getElem?.1 (ho.mem_iff.2 (List.mem_range.2 hkl))
    refine ⟨i, ?_, ?_⟩
    · rw [List.getElem?_map, hi, Option.map_some, List.getD_eq_getElem?_getD, hk]; rfl
    · rw [show ord.getD i 0 = k by rw [List.getD_eq_getElem?_getD, hi]; rfl]
      exact hd

theorem orderLabels_perm [Inhabited L] {labels : List L} {ord : List ℕ} (ho : ord.Perm (List.range labels.length)) : (orderLabels labels ord).Perm labels := by
  unfold orderLabels
  refine (ho.map _).trans (List.Perm.of_eq ?_)
  apply List.ext_getElem
  · simp
  · intro i h1 h2
    simp [List.getElem?_eq_getElem h2]

theorem labelCount_order [Inhabited L] (m : ℕ → Bool) (data : ℕ → ℕ → K) {labels : List L} {ord : List ℕ} (ho : ord.Perm (List.range labels.length)) (dim : ℕ) (w : ℕ → K) :
    labelCount m (orderRows data ord) (orderLabels labels ord) dim w = labelCount m data labels dim w := by
  classical
  unfold labelCount
  congr 1
  ext u
  simp [labelAttains_order m data ho, (orderLabels_perm ho).mem_iff]

theorem bestForLabels_order [Inhabited L] (m : ℕ → Bool) (data : ℕ → ℕ → K) {labels : List L} {ord : List ℕ} (ho : ord.Perm (List.range labels.length)) (dim k : ℕ) (z : ℕ → K) :
    BestForLabels m (orderRows data ord) (orderLabels labels ord) dim k z ↔ BestForLabels m data labels dim k z := by
  unfold BestForLabels
  simp only [labelCount_order m data ho]

end attain

section maximise

variable {K : Type*} [Field K] [LinearOrder K] [IsStrictOrderedRing K] {L : Type*} [LinearOrder L]

theorem labelAttains_maximise (m : ℕ → Bool) (data : ℕ → ℕ → K) (labels : List L) (dim : ℕ) (u : L) (z : ℕ → K) :
    LabelAttains (fun _ => false) (transformMax m data) labels dim u z ↔ LabelAttains m data labels dim u (fun d => if m d then -z d else z d) := by
  unfold LabelAttains
  refine exists_congr fun k => and_congr_right fun _ => forall_congr' fun d => imp_congr_right fun _ => ?_
  unfold AsGood transformMax
  by_cases h : m d <;> simp [h]
  rw [neg_le]

theorem labelCount_maximise (m : ℕ → Bool) (data : ℕ → ℕ → K) (labels : List L) (dim : ℕ) (w : ℕ → K) :
    labelCount (fun _ => false) (transformMax m data) labels dim w = labelCount m data labels dim (fun d => if m d then -w d else w d) := by
  classical
  unfold labelCount
  congr 1
  ext u
  rw [Finset.mem_filter, Finset.mem_filter, labelAttains_maximise]

theorem labelCount_congr (m : ℕ → Bool) (data : ℕ → ℕ → K) (labels : List L) (dim : ℕ) {z z' : ℕ → K} (h : ∀ d < dim, z d = z' d) :
    labelCount m data labels dim z = labelCount m data labels dim z' := by
  classical
  unfold labelCount
  congr 1
  ext u
  rw [Finset.mem_filter, Finset.mem_filter]
  unfold LabelAttains
  refine and_congr_right fun _ => exists_congr fun k => and_congr_right fun _ => forall_congr' fun d => forall_congr' fun hd => ?_
  rw [h d hd]

theorem bestForLabels_maximise (m : ℕ → Bool) (data : ℕ → ℕ → K) (labels : List L) (dim k : ℕ) (z : ℕ → K) :
    BestForLabels (fun _ => false) (transformMax m data) labels dim k z ↔ BestForLabels m data labels dim k (fun d => if m d then -z d else z d) := by
  have h := labelCount_maximise m data labels dim
  have hinv : ∀ w : ℕ → K, (fun d => if m d then -(if m d then -w d else w d) else (if m d then -w d else w d)) = w := by
    intro w; funext d; by_cases hd : m d <;> simp [hd]
  unfold BestForLabels
  simp only [h]
  refine and_congr_right fun _ => ⟨fun hw w h1 h2 d hd => ?_, fun hw w h1 h2 d hd => ?_⟩
  · have := hw (fun d => if m d then -w d else w d) (by rw [hinv w]; exact h1) (fun d hd => ?_) d hd
    · by_cases hm : m d <;> simp [hm] at this ⊢ <;> [rw [← this, neg_neg]; exact this]
    · have := h2 d hd
      unfold AsGood at this ⊢
      by_cases hm : m d <;> simp [hm] at this ⊢ <;> linarith
  · have := hw (fun d => if m d then -w d else w d) h1 (fun d hd => ?_) d hd
    · by_cases hm : m d <;> simp [hm] at this <;> exact this
    · have := h2 d hd
      unfold AsGood at this ⊢
      by_cases hm : m d <;> simp [hm] at this ⊢ <;> exact this

theorem bestForLabels_congr (m : ℕ → Bool) (data : ℕ → ℕ → K) (labels : List L) (dim k : ℕ) {z z' : ℕ → K} (h : ∀ d < dim, z d = z' d) :
    BestForLabels m data labels dim k z ↔ BestForLabels m data labels dim k z' := by
  have h1 := labelCount_congr m data labels dim h
  unfold BestForLabels
  rw [h1]
  refine and_congr_right fun _ => forall_congr' fun w => imp_congr_right fun _ => ⟨fun a b d hd => ?_, fun a b d hd => ?_⟩
  · rw [← h d hd]; exact a (fun d hd => by rw [h d hd]; exact b d hd) d hd
  · rw [h d hd]; exact a (fun d hd => by rw [← h d hd]; exact b d hd) d hd

end maximise

section levels

variable {K : Type*} [Field K] [LinearOrder K] [IsStrictOrderedRing K] [FloorRing K]

theorem levels_least (tol : K) (h0 : 0 ≤ tol) (h1 : tol < 1) (n nl : ℕ) (hn : 1 ≤ n) : ∀ ps : List K, (∀ p ∈ ps, 0 ≤ p ∧ p ≤ 100) →
    ∃ ks : List ℕ, levelsFromPercentiles tol (some ps) nl n = some (ks.map Int.ofNat) ∧ List.Forall₂ (LeastLevel tol n) ps ks := by
  intro ps hp
  unfold levelsFromPercentiles
  dsimp only
  induction ps with
  | nil => exact ⟨[], rfl, List.Forall₂.nil⟩
  | cons p ps ih =>
    obtain ⟨ks, g1, g2⟩ := ih (fun q hq => hp q (by simp [hq]))
    obtain ⟨k, e1, e2, e3, e4, e5⟩ := C26_percentile2level_least tol p (n : ℤ) h0 h1 (by exact_mod_cast hn) (hp p (by simp)).1 (hp p (by simp)).2
    obtain ⟨k', rfl⟩ := Int.eq_ofNat_of_zero_le (by omega : 0 ≤ k)
    refine ⟨k' :: ks, ?_, List.Forall₂.cons ⟨by exact_mod_cast e2, by exact_mod_cast e3, ?_, ?_⟩ g2⟩
    · rw [List.mapM_cons, e1, g1]; rfl
    · push_cast at e4; exact e4
    · intro m hm hle
      have := e5 (m : ℤ) (by exact_mod_cast hm) (by push_cast; exact hle)
      exact_mod_cast this

theorem leastLevel_default (tol : K) (h0 : 0 ≤ tol) (h1 : tol < 1) (n i : ℕ) (hi : i < n) : LeastLevel tol n ((100 : K) * ((i : K) + 1) / n) (i + 1) := by
  have hn : (0 : K) < n := by exact_mod_cast (by omega : 0 < n)
  refine ⟨by omega, by omega, ?_, ?_⟩
  · push_cast
    rw [div_le_div_iff_of_pos_right hn]
    linarith
  · intro m _ hle
    rw [div_le_div_iff_of_pos_right hn] at hle
    have : ((i : K) + 1) < m + 1 := by linarith
    have : ((i + 1 : ℕ) : K) < ((m + 1 : ℕ) : K) := by push_cast; exact this
    have := Nat.cast_lt.1 this
    omega

theorem leastLevel_unique {tol : K} {n : ℕ} {p : K} {k l : ℕ} (hk : LeastLevel tol n p k) (hl : LeastLevel tol n p l) : k = l :=
  le_antisymm (hk.2.2.2 l hl.1 hl.2.2.1) (hl.2.2.2 k hk.1 hk.2.2.1)

end levels

section tables

theorem zipIdx_zip {β K : Type*} [Zero K] {γ : Type*} (f : β → K → γ) (blocks : List β) (ps : List K) (hl : blocks.length = ps.length) (perc : ℕ → K)
    (hp : ∀ i (h : i < ps.length), perc i = ps[i]) :
    (blocks.zipIdx 0).map (fun bl => f bl.1 (perc bl.2)) = (blocks.zip ps).map (fun bp => f bp.1 bp.2) := by
  apply List.ext_getElem
  · simp [hl]
  · intro i h1 h2
    have hi : i < ps.length := by simpa [hl] using h1
    simp [hp i hi]

end tables

end Moo
