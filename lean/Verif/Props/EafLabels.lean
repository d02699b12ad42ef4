import Verif.Lemmas.EafLabels
import Verif.Props.Eaf2d
import Verif.Props.Eaf3d

/-!
# C59, C60: `eaf` of a labelled data set

R's `eaf` returns, for every percentile, exactly the best points attained by the number of sets that the percentile asks for, whatever the order of the rows.  Python's `eaf`
does so if the labels are in nondecreasing order; otherwise it assigns rows to the wrong sets.
-/

set_option autoImplicit false
set_option linter.unusedSectionVars false

namespace Moo

section main

variable {K : Type*} [Field K] [LinearOrder K] [IsStrictOrderedRing K] [FloorRing K] {L : Type*} [LinearOrder L]

theorem eafLabels_core2 {ls : List L} (hn : ls ≠ []) (hs : ls.Pairwise (fun a b => a ≤ b)) {data : ℕ → ℕ → K} {sx sy : List ℕ} {fuel : ℕ}
    (hx : EafSortedX data ls.length sx) (hy : EafSortedY data ls.length sy) (hf : 2 * ls.length < fuel) (hsize : ls.length ≤ 1073741823)
    (V : EafEnv K) (hV : GrowOk V) (ks : List ℕ) (hk : ∀ k ∈ ks, 1 ≤ k ∧ k ≤ nSets ls) (ps : List K) (hl : ks.length = ps.length) (perc : ℕ → K)
    (hp : ∀ i (h : i < ps.length), perc i = ps[i]) :
    ∃ blocks : List (List (K × K)), eafComputeMatrix2d V data (cumSizes ls) (nSets ls) (ks.map Int.ofNat) perc sx sy fuel = some (eafTable2 blocks ps) ∧
      blocks.length = ks.length ∧ ∀ i (hi : i < ks.length) (hi' : i < blocks.length), blocks[i] ≠ [] ∧ blocks[i].Nodup ∧
        ∀ x y, (x, y) ∈ blocks[i] ↔ BestForLabels (fun _ => false) data ls 2 ks[i] (vec2 x y) := by
  obtain ⟨hr, h0⟩ := cumSizes_runsOk hn hs
  rw [← cumSizes_last ls] at hx hy hf hsize
  obtain ⟨blocks, h1, h2, h3⟩ := C25_eaf_matrix hr h0 hx hy hf ks hk hsize V hV perc
  refine ⟨blocks, ?_, h2, ?_⟩
  · rw [h1, eafTable2, ← zipIdx_zip (fun (b : List (K × K)) p => b.map (fun q => [q.1, q.2, p])) blocks ps (h2.trans hl) perc hp]
  · intro i hi hi'
    obtain ⟨g1, g2, g3⟩ := h3 i hi hi'
    refine ⟨g1, ?_, fun x y => by rw [g3, bestForLabels_runs hs]⟩
    exact g2.imp (fun {p q} h e => by rw [e] at h; exact lt_irrefl _ h.1)

theorem eafLabels_core3 {ls : List L} (hn : ls ≠ []) (hs : ls.Pairwise (fun a b => a ≤ b)) {data : ℕ → ℕ → K} {sz : List ℕ} {fuel : ℕ} {mn mx : K}
    (hz : EafSortedZ data ls.length sz) (hb : ∀ i < ls.length, ∀ d < 2, mn < data i d ∧ data i d < mx) (hf : ls.length + 3 ≤ fuel) (junk : K)
    (hsize : ls.length ≤ 32767) (V : EafEnv K) (hV : GrowOk V) :
    ∃ N, ∀ fuelP, N ≤ fuelP → ∀ (perc : ℕ → K) (ks : List ℕ), (∀ k ∈ ks, 1 ≤ k ∧ k ≤ nSets ls) → ∀ ps : List K, ks.length = ps.length →
      (∀ i (h : i < ps.length), perc i = ps[i]) →
      ∃ blocks : List (List (K × K × K)), eafComputeMatrix3d V mn mx junk data (cumSizes ls) (nSets ls) (ks.map Int.ofNat) perc sz fuel fuelP =
          some (eafTable3 blocks ps) ∧
        blocks.length = ks.length ∧ ∀ i (hi : i < ks.length) (hi' : i < blocks.length), blocks[i].Nodup ∧
          ∀ x y z, (x, y, z) ∈ blocks[i] ↔ BestForLabels (fun _ => false) data ls 3 ks[i] (vec3 x y z) := by
  obtain ⟨hr, -⟩ := cumSizes_runsOk hn hs
  rw [← cumSizes_last ls] at hz hb hf hsize
  obtain ⟨N, h⟩ := C42_eaf_matrix hr hz hb hf junk hsize V hV
  refine ⟨N, fun fuelP hfP perc ks hk ps hl hp => ?_⟩
  obtain ⟨blocks, h1, h2, h3⟩ := h fuelP hfP perc ks hk
  refine ⟨blocks, ?_, h2, ?_⟩
  · rw [h1, eafTable3, ← zipIdx_zip (fun (b : List (K × K × K)) p => b.map (fun q => [q.1, q.2.1, q.2.2, p])) blocks ps (h2.trans hl) perc hp]
  · intro i hi hi'
    obtain ⟨g1, g2⟩ := h3 i hi hi'
    exact ⟨g1, fun x y z => by rw [g2, bestForLabels_runs hs]⟩

/-! ## The percentiles -/

/-- The percentiles of the result: those given, without repetitions and in increasing order; by default one for each number of sets. -/
def ResultPercentiles (given : Option (List K)) (n : ℕ) (ps : List K) : Prop :=
  match given with
  | some l => ps.Pairwise (fun a b => a < b) ∧ ∀ p, p ∈ ps ↔ p ∈ l
  | none => ps = (List.range n).map (fun i : ℕ => (100 : K) * ((i : K) + 1) / (n : K))

theorem level2percentile_eq {i n : ℕ} (hi : i < n) : (level2percentile ((i : ℤ) + 1) (n : ℤ) : K) = 100 * ((i : K) + 1) / n := by
  have hn : (n : K) ≠ 0 := by exact_mod_cast (by omega : n ≠ 0)
  unfold level2percentile
  split_ifs with h
  · have : (n : K) = (i : K) + 1 := by exact_mod_cast h.symm
    rw [← this, mul_div_assoc, div_self hn, mul_one]
  · push_cast; ring

theorem forall₂_mem_right {β γ : Type*} {R : β → γ → Prop} {l : List β} {m : List γ} (h : List.Forall₂ R l m) : ∀ c ∈ m, ∃ b ∈ l, R b c := by
  induction h with
  | nil => simp
  | cons h _ ih =>
    intro c hc
    rcases List.mem_cons.1 hc with rfl | hc
    · exact ⟨_, by simp, h⟩
    · obtain ⟨b, h1, h2⟩ := ih c hc; exact ⟨b, by simp [h1], h2⟩

/-- The percentiles and levels of the R code. -/
theorem rLevels (tol : K) (h0 : 0 ≤ tol) (h1 : tol < 1) (given : Option (List K)) (hg : ∀ l ∈ given, ∀ p ∈ l, 0 ≤ p ∧ p ≤ 100) (n : ℕ) (hn : 1 ≤ n) :
    ∃ (ps : List K) (ks : List ℕ), ResultPercentiles given n ps ∧
      levelsFromPercentiles tol (given.map npUnique) (rNLevels (given.map npUnique) n) n = some (ks.map Int.ofNat) ∧
      ps.length = ks.length ∧ (∀ i (h : i < ps.length), rPerc (given.map npUnique) (rNLevels (given.map npUnique) n) i = ps[i]) ∧
      List.Forall₂ (LeastLevel tol n) ps ks := by
  cases given with
  | none =>
    refine ⟨(List.range n).map (fun i : ℕ => (100 : K) * ((i : K) + 1) / (n : K)), (List.range n).map (· + 1), rfl, ?_, by simp, ?_, ?_⟩
    · simp only [Option.map_none, levelsFromPercentiles, rNLevels]
      rw [if_pos trivial, List.map_map]
      rfl
    · intro i hi
      rw [List.length_map, List.length_range] at hi
      simp only [Option.map_none, rPerc, rNLevels]
      rw [level2percentile_eq hi]
      simp
    · rw [List.forall₂_map_left_iff, List.forall₂_map_right_iff, List.forall₂_same]
      intro i hi
      exact leastLevel_default tol h0 h1 n i (List.mem_range.1 hi)
  | some l =>
    obtain ⟨ks, g1, g2⟩ := levels_least tol h0 h1 n (npUnique l).length hn (npUnique l) (fun p hp => hg l rfl p ((npUnique_mem l p).1 hp))
    refine ⟨npUnique l, ks, ⟨npUnique_strict l, npUnique_mem l⟩, g1, g2.length_eq, ?_, g2⟩
    intro i hi
    simp only [Option.map_some, rPerc]
    exact List.getD_eq_getElem _ _ hi

/-- The percentiles and levels of the Python code. -/
theorem pyLevels (tol : K) (h0 : 0 ≤ tol) (h1 : tol < 1) (given : List K) (hg : ∀ p ∈ given, 0 ≤ p ∧ p ≤ 100) (n : ℕ) (hn : 1 ≤ n) :
    ∃ ks : List ℕ, ResultPercentiles (if given = [] then none else some given) n (pyPercentiles given n) ∧
      levelsFromPercentiles tol (some (pyPercentiles given n)) (pyPercentiles given n).length n = some (ks.map Int.ofNat) ∧
      List.Forall₂ (LeastLevel tol n) (pyPercentiles given n) ks := by
  have hn' : (0 : K) < n := by exact_mod_cast hn
  unfold pyPercentiles
  by_cases hgn : given = []
  · subst hgn
    simp only [List.length_nil, if_true]
    have hall : (allPercentiles n : List K) = (List.range n).map (fun i : ℕ => (100 : K) * ((i : K) + 1) / (n : K)) := by
      unfold allPercentiles
      apply List.map_congr_left
      intro i _
      ring
    obtain ⟨ks, g1, g2⟩ := levels_least tol h0 h1 n (allPercentiles n : List K).length hn (allPercentiles n) (by
      rw [hall]
      intro p hp
      obtain ⟨i, hi, rfl⟩ := List.mem_map.1 hp
      refine ⟨by positivity, ?_⟩
      rw [div_le_iff₀ hn', mul_le_mul_iff_right₀ (by norm_num)]
      exact_mod_cast List.mem_range.1 hi)
    exact ⟨ks, hall, g1, g2⟩
  · rw [if_neg hgn, if_neg (by simpa using hgn)]
    obtain ⟨ks, g1, g2⟩ := levels_least tol h0 h1 n (npUnique given).length hn (npUnique given) (fun p hp => hg p ((npUnique_mem given p).1 hp))
    exact ⟨ks, ⟨npUnique_strict given, npUnique_mem given⟩, g1, g2⟩

theorem rows_untransform2 (m : ℕ → Bool) (blocks : List (List (K × K))) (ps : List K) :
    (eafTable2 blocks ps).map (untransformRow m 2) =
      eafTable2 (blocks.map (fun b => b.map (fun q => ((if m 0 then -q.1 else q.1), (if m 1 then -q.2 else q.2))))) ps := by
  unfold eafTable2
  rw [List.map_flatten, List.map_map, List.zip_map_left, List.map_map]
  congr 1
  apply List.map_congr_left
  intro bp _
  simp [untransformRow]

theorem rows_untransform3 (m : ℕ → Bool) (blocks : List (List (K × K × K))) (ps : List K) :
    (eafTable3 blocks ps).map (untransformRow m 3) =
      eafTable3 (blocks.map (fun b => b.map (fun q => ((if m 0 then -q.1 else q.1), (if m 1 then -q.2.1 else q.2.1), (if m 2 then -q.2.2 else q.2.2))))) ps := by
  unfold eafTable3
  rw [List.map_flatten, List.map_map, List.zip_map_left, List.map_map]
  congr 1
  apply List.map_congr_left
  intro bp _
  simp [untransformRow]

/-! ## R -/

/-- **C59 (R, two objectives).** For any labels in any order, any objectives to maximise and percentiles in `[0, 100]`, `eaf` returns for every percentile, in increasing order, exactly
the best points attained by as many sets as the percentile asks for, each point once. -/
theorem C59_r_eaf_2d [Inhabited L] {labels : List L} (hn : labels ≠ []) (maximise : ℕ → Bool) (data : ℕ → ℕ → K) {ord sx sy : List ℕ} {fuel : ℕ} (ho : IsOrder labels ord)
    (hx : EafSortedX (orderRows (transformMax maximise data) ord) labels.length sx)
    (hy : EafSortedY (orderRows (transformMax maximise data) ord) labels.length sy)
    (hf : 2 * labels.length < fuel) (hsize : labels.length ≤ 1073741823) (V : EafEnv K) (hV : GrowOk V) (tol : K) (h0 : 0 ≤ tol) (h1 : tol < 1)
    (percentiles : Option (List K)) (hp : ∀ l ∈ percentiles, ∀ p ∈ l, 0 ≤ p ∧ p ≤ 100) :
    ∃ (ps : List K) (blocks : List (List (K × K))), rEaf2d V tol maximise data labels percentiles ord sx sy fuel = some (eafTable2 blocks ps) ∧
      ResultPercentiles percentiles labels.toFinset.card ps ∧ blocks.length = ps.length ∧
      ∀ i (hi : i < ps.length) (hi' : i < blocks.length), ∃ k, LeastLevel tol labels.toFinset.card ps[i] k ∧ blocks[i] ≠ [] ∧ blocks[i].Nodup ∧
        ∀ x y, (x, y) ∈ blocks[i] ↔ BestForLabels maximise data labels 2 k (vec2 x y) := by
  have hperm := orderLabels_perm ho.1
  have hso : (orderLabels labels ord).Pairwise (fun a b => a ≤ b) := ho.2
  have hne : orderLabels labels ord ≠ [] := fun e => hn (by rw [e] at hperm; exact hperm.nil_eq.symm)
  have hlen : (orderLabels labels ord).length = labels.length := hperm.length_eq
  have hns : nSets (orderLabels labels ord) = labels.toFinset.card := by rw [nSets_perm hperm, nSets_eq_card]
  have hpos : 1 ≤ labels.toFinset.card := by rw [← nSets_eq_card]; exact nSets_pos hn
  obtain ⟨ps, ks, g1, g2, g3, g4, g5⟩ := rLevels tol h0 h1 percentiles hp labels.toFinset.card hpos
  have hks : ∀ k ∈ ks, 1 ≤ k ∧ k ≤ nSets (orderLabels labels ord) := by
    intro k hk
    obtain ⟨p, -, h⟩ := forall₂_mem_right g5 k hk
    exact ⟨h.1, by rw [hns]; exact h.2.1⟩
  rw [← hlen] at hx hy hf hsize
  obtain ⟨blocks, b1, b2, b3⟩ := eafLabels_core2 hne hso hx hy hf hsize V hV ks hks ps g3.symm _ g4
  refine ⟨ps, blocks.map (fun b => b.map (fun q => ((if maximise 0 then -q.1 else q.1), (if maximise 1 then -q.2 else q.2)))), ?_, g1, by simp [b2, g3], ?_⟩
  · unfold rEaf2d
    dsimp only
    rw [hns, g2]
    dsimp only
    rw [hns] at b1
    rw [b1, Option.map_some, rows_untransform2]
  · intro i hi hi'
    have hik : i < ks.length := by omega
    have hib : i < blocks.length := by omega
    obtain ⟨c1, c2, c3⟩ := b3 i hik hib
    refine ⟨ks[i], List.Forall₂.get g5 hi hik, by simpa using c1, ?_, ?_⟩
    · rw [List.getElem_map]
      refine c2.map ?_
      rintro ⟨a, b⟩ ⟨c, d⟩ h
      simp only [Prod.mk.injEq] at h
      ext
      · by_cases hm : maximise 0 <;> simpa [hm] using h.1
      · by_cases hm : maximise 1 <;> simpa [hm] using h.2
    · intro x y
      rw [List.getElem_map]
      have e : (x, y) ∈ blocks[i].map (fun q => ((if maximise 0 then -q.1 else q.1), (if maximise 1 then -q.2 else q.2))) ↔
          ((if maximise 0 then -x else x), (if maximise 1 then -y else y)) ∈ blocks[i] := by
        rw [List.mem_map]
        constructor
        · rintro ⟨⟨a, b⟩, hm, he⟩
          simp only [Prod.mk.injEq] at he
          rw [← he.1, ← he.2]
          by_cases hm0 : maximise 0 <;> by_cases hm1 : maximise 1 <;> simpa [hm0, hm1] using hm
        · intro hm
          refine ⟨_, hm, ?_⟩
          by_cases hm0 : maximise 0 <;> by_cases hm1 : maximise 1 <;> simp [hm0, hm1]
      rw [e, c3, bestForLabels_order _ _ ho.1, bestForLabels_maximise]
      apply bestForLabels_congr
      intro d hd
      rcases (by omega : d = 0 ∨ d = 1) with rfl | rfl
      · by_cases hm0 : maximise 0 <;> simp [vec2, hm0]
      · by_cases hm0 : maximise 1 <;> simp [vec2, hm0]

/-- **C59 (R, three objectives).** -/
theorem C59_r_eaf_3d [Inhabited L] {labels : List L} (hn : labels ≠ []) (maximise : ℕ → Bool) (data : ℕ → ℕ → K) {ord sz : List ℕ} {fuel : ℕ} (ho : IsOrder labels ord) {mn mx : K}
    (hz : EafSortedZ (orderRows (transformMax maximise data) ord) labels.length sz)
    (hb : ∀ i < labels.length, ∀ d < 2, mn < transformMax maximise data i d ∧ transformMax maximise data i d < mx)
    (hf : labels.length + 3 ≤ fuel) (junk : K) (hsize : labels.length ≤ 32767) (V : EafEnv K) (hV : GrowOk V) (tol : K) (h0 : 0 ≤ tol) (h1 : tol < 1) :
    ∃ N, ∀ fuelP, N ≤ fuelP → ∀ percentiles : Option (List K), (∀ l ∈ percentiles, ∀ p ∈ l, 0 ≤ p ∧ p ≤ 100) → ∃ (ps : List K) (blocks : List (List (K × K × K))),
      rEaf3d V tol mn mx junk maximise data labels percentiles ord sz fuel fuelP = some (eafTable3 blocks ps) ∧
      ResultPercentiles percentiles labels.toFinset.card ps ∧ blocks.length = ps.length ∧
      ∀ i (hi : i < ps.length) (hi' : i < blocks.length), ∃ k, LeastLevel tol labels.toFinset.card ps[i] k ∧ blocks[i].Nodup ∧
        ∀ x y z, (x, y, z) ∈ blocks[i] ↔ BestForLabels maximise data labels 3 k (vec3 x y z) := by
  have hperm := orderLabels_perm ho.1
  have hso : (orderLabels labels ord).Pairwise (fun a b => a ≤ b) := ho.2
  have hne : orderLabels labels ord ≠ [] := fun e => hn (by rw [e] at hperm; exact hperm.nil_eq.symm)
  have hlen : (orderLabels labels ord).length = labels.length := hperm.length_eq
  have hns : nSets (orderLabels labels ord) = labels.toFinset.card := by rw [nSets_perm hperm, nSets_eq_card]
  have hpos : 1 ≤ labels.toFinset.card := by rw [← nSets_eq_card]; exact nSets_pos hn
  have hb' : ∀ i < labels.length, ∀ d < 2, mn < orderRows (transformMax maximise data) ord i d ∧ orderRows (transformMax maximise data) ord i d < mx := by
    intro i hi d hd
    have hi' : i < ord.length := by rw [ho.1.length_eq]; simpa using hi
    unfold orderRows
    rw [List.getD_eq_getElem _ _ hi']
    exact hb _ (List.mem_range.1 (ho.1.mem_iff.1 (List.getElem_mem hi'))) d hd
  rw [← hlen] at hz hb' hf hsize
  obtain ⟨N, hN⟩ := eafLabels_core3 hne hso hz hb' hf junk hsize V hV
  refine ⟨N, fun fuelP hfP percentiles hp => ?_⟩
  obtain ⟨ps, ks, g1, g2, g3, g4, g5⟩ := rLevels tol h0 h1 percentiles hp labels.toFinset.card hpos
  have hks : ∀ k ∈ ks, 1 ≤ k ∧ k ≤ nSets (orderLabels labels ord) := by
    intro k hk
    obtain ⟨p, -, h⟩ := forall₂_mem_right g5 k hk
    exact ⟨h.1, by rw [hns]; exact h.2.1⟩
  obtain ⟨blocks, b1, b2, b3⟩ := hN fuelP hfP (rPerc (percentiles.map npUnique) (rNLevels (percentiles.map npUnique) labels.toFinset.card)) ks hks ps g3.symm g4
  refine ⟨ps, blocks.map (fun b => b.map (fun q => ((if maximise 0 then -q.1 else q.1), (if maximise 1 then -q.2.1 else q.2.1), (if maximise 2 then -q.2.2 else q.2.2)))), ?_, g1, by simp [b2, g3], ?_⟩
  · unfold rEaf3d
    dsimp only
    rw [hns, g2]
    dsimp only
    rw [hns] at b1
    rw [b1, Option.map_some, rows_untransform3]
  · intro i hi hi'
    have hik : i < ks.length := by omega
    have hib : i < blocks.length := by omega
    obtain ⟨c2, c3⟩ := b3 i hik hib
    refine ⟨ks[i], List.Forall₂.get g5 hi hik, ?_, ?_⟩
    · rw [List.getElem_map]
      refine c2.map ?_
      rintro ⟨a, b, b'⟩ ⟨c, d, d'⟩ h
      simp only [Prod.mk.injEq] at h
      simp only [Prod.mk.injEq]
      refine ⟨?_, ?_, ?_⟩
      · by_cases hm : maximise 0 <;> simpa [hm] using h.1
      · by_cases hm : maximise 1 <;> simpa [hm] using h.2.1
      · by_cases hm : maximise 2 <;> simpa [hm] using h.2.2
    · intro x y z
      rw [List.getElem_map]
      have e : (x, y, z) ∈ blocks[i].map (fun q => ((if maximise 0 then -q.1 else q.1), (if maximise 1 then -q.2.1 else q.2.1), (if maximise 2 then -q.2.2 else q.2.2))) ↔
          ((if maximise 0 then -x else x), (if maximise 1 then -y else y), (if maximise 2 then -z else z)) ∈ blocks[i] := by
        rw [List.mem_map]
        constructor
        · rintro ⟨⟨a, b, c⟩, hm, he⟩
          simp only [Prod.mk.injEq] at he
          rw [← he.1, ← he.2.1, ← he.2.2]
          by_cases hm0 : maximise 0 <;> by_cases hm1 : maximise 1 <;> by_cases hm2 : maximise 2 <;> simpa [hm0, hm1, hm2] using hm
        · intro hm
          refine ⟨_, hm, ?_⟩
          by_cases hm0 : maximise 0 <;> by_cases hm1 : maximise 1 <;> by_cases hm2 : maximise 2 <;> simp [hm0, hm1, hm2]
      rw [e, c3, bestForLabels_order _ _ ho.1, bestForLabels_maximise]
      apply bestForLabels_congr
      intro d hd
      rcases (by omega : d = 0 ∨ d = 1 ∨ d = 2) with rfl | rfl | rfl
      · by_cases hm0 : maximise 0 <;> simp [vec3, hm0]
      · by_cases hm0 : maximise 1 <;> simp [vec3, hm0]
      · by_cases hm0 : maximise 2 <;> simp [vec3, hm0]

/-! ## Python -/

/-- **C60 (Python, two objectives), partial**: for labels in nondecreasing order.  An empty list of percentiles means the default. -/
theorem C60_py_eaf_2d_partial {labels : List L} (hn : labels ≠ []) (hs : labels.Pairwise (fun a b => a ≤ b)) (data : ℕ → ℕ → K) {sx sy : List ℕ} {fuel : ℕ}
    (hx : EafSortedX data labels.length sx) (hy : EafSortedY data labels.length sy)
    (hf : 2 * labels.length < fuel) (hsize : labels.length ≤ 1073741823) (V : EafEnv K) (hV : GrowOk V) (tol : K) (h0 : 0 ≤ tol) (h1 : tol < 1)
    (given : List K) (hp : ∀ p ∈ given, 0 ≤ p ∧ p ≤ 100) :
    ∃ (ps : List K) (blocks : List (List (K × K))), pyEaf2d V tol data labels given sx sy fuel = some (eafTable2 blocks ps) ∧
      ResultPercentiles (if given = [] then none else some given) labels.toFinset.card ps ∧ blocks.length = ps.length ∧
      ∀ i (hi : i < ps.length) (hi' : i < blocks.length), ∃ k, LeastLevel tol labels.toFinset.card ps[i] k ∧ blocks[i] ≠ [] ∧ blocks[i].Nodup ∧
        ∀ x y, (x, y) ∈ blocks[i] ↔ BestForLabels (fun _ => false) data labels 2 k (vec2 x y) := by
  have hns := nSets_eq_card labels
  have hpos : 1 ≤ labels.toFinset.card := by rw [← nSets_eq_card]; exact nSets_pos hn
  obtain ⟨ks, g1, g2, g5⟩ := pyLevels tol h0 h1 given hp labels.toFinset.card hpos
  have hks : ∀ k ∈ ks, 1 ≤ k ∧ k ≤ nSets labels := by
    intro k hk
    obtain ⟨p, -, h⟩ := forall₂_mem_right g5 k hk
    exact ⟨h.1, by rw [hns]; exact h.2.1⟩
  obtain ⟨blocks, b1, b2, b3⟩ := eafLabels_core2 hn hs hx hy hf hsize V hV ks hks (pyPercentiles given labels.toFinset.card) g5.length_eq.symm
    (fun i => (pyPercentiles given labels.toFinset.card).getD i 0) (fun i hi => List.getD_eq_getElem _ _ hi)
  refine ⟨pyPercentiles given labels.toFinset.card, blocks, ?_, g1, by rw [b2, g5.length_eq], ?_⟩
  · unfold pyEaf2d
    dsimp only
    rw [hns, g2]
    dsimp only
    rw [hns] at b1
    exact b1
  · intro i hi hi'
    have hik : i < ks.length := by omega
    exact ⟨ks[i], List.Forall₂.get g5 hi hik, b3 i hik hi'⟩

/-- **C60 (Python, three objectives), partial**: for labels in nondecreasing order. -/
theorem C60_py_eaf_3d_partial {labels : List L} (hn : labels ≠ []) (hs : labels.Pairwise (fun a b => a ≤ b)) (data : ℕ → ℕ → K) {sz : List ℕ} {fuel : ℕ} {mn mx : K}
    (hz : EafSortedZ data labels.length sz) (hb : ∀ i < labels.length, ∀ d < 2, mn < data i d ∧ data i d < mx)
    (hf : labels.length + 3 ≤ fuel) (junk : K) (hsize : labels.length ≤ 32767) (V : EafEnv K) (hV : GrowOk V) (tol : K) (h0 : 0 ≤ tol) (h1 : tol < 1) :
    ∃ N, ∀ fuelP, N ≤ fuelP → ∀ given : List K, (∀ p ∈ given, 0 ≤ p ∧ p ≤ 100) → ∃ (ps : List K) (blocks : List (List (K × K × K))),
      pyEaf3d V tol mn mx junk data labels given sz fuel fuelP = some (eafTable3 blocks ps) ∧
      ResultPercentiles (if given = [] then none else some given) labels.toFinset.card ps ∧ blocks.length = ps.length ∧
      ∀ i (hi : i < ps.length) (hi' : i < blocks.length), ∃ k, LeastLevel tol labels.toFinset.card ps[i] k ∧ blocks[i].Nodup ∧
        ∀ x y z, (x, y, z) ∈ blocks[i] ↔ BestForLabels (fun _ => false) data labels 3 k (vec3 x y z) := by
  have hns := nSets_eq_card labels
  have hpos : 1 ≤ labels.toFinset.card := by rw [← nSets_eq_card]; exact nSets_pos hn
  obtain ⟨N, hN⟩ := eafLabels_core3 hn hs hz hb hf junk hsize V hV
  refine ⟨N, fun fuelP hfP given hp => ?_⟩
  obtain ⟨ks, g1, g2, g5⟩ := pyLevels tol h0 h1 given hp labels.toFinset.card hpos
  have hks : ∀ k ∈ ks, 1 ≤ k ∧ k ≤ nSets labels := by
    intro k hk
    obtain ⟨p, -, h⟩ := forall₂_mem_right g5 k hk
    exact ⟨h.1, by rw [hns]; exact h.2.1⟩
  obtain ⟨blocks, b1, b2, b3⟩ := hN fuelP hfP (fun i => (pyPercentiles given labels.toFinset.card).getD i 0) ks hks (pyPercentiles given labels.toFinset.card) g5.length_eq.symm (fun i hi => List.getD_eq_getElem _ _ hi)
  refine ⟨pyPercentiles given labels.toFinset.card, blocks, ?_, g1, by rw [b2, g5.length_eq], ?_⟩
  · unfold pyEaf3d
    dsimp only
    rw [hns, g2]
    dsimp only
    rw [hns] at b1
    exact b1
  · intro i hi hi'
    have hik : i < ks.length := by omega
    exact ⟨ks[i], List.Forall₂.get g5 hi hik, b3 i hik hi'⟩

/-- By default there is one percentile for every number of sets, and the level of percentile number `i` is `i + 1`. -/
theorem C59_default_levels (tol : K) (h0 : 0 ≤ tol) (h1 : tol < 1) (n i k : ℕ) (hi : i < n) :
    LeastLevel tol n ((100 : K) * ((i : K) + 1) / n) k ↔ k = i + 1 :=
  ⟨fun h => leastLevel_unique h (leastLevel_default tol h0 h1 n i hi), fun h => h ▸ leastLevel_default tol h0 h1 n i hi⟩

end main

/-! ## The hypotheses are met -/

/-- Two sets: label 2 has `(1,5)` and `(5,1)`, label 1 has `(3,3)`. -/
def labExPts : ℕ → ℕ → ℚ := fun k d => ([[1, 5], [5, 1], [3, 3]].getD k []).getD d 0
def labExLabels : List ℤ := [2, 2, 1]
/-- A growth policy as the code has it. -/
def labExEnv : EafEnv ℚ := ⟨fun _ => 0, fun _ => 0, fun k m => m + m / 2 ^ k⟩
/-- `sqrt(DBL_EPSILON)`. -/
def labTol : ℚ := 1 / 67108864

theorem labEx_order : IsOrder labExLabels [2, 0, 1] := ⟨by decide, by decide⟩

/-- R returns the five points of the two levels. -/
example : rEaf2d labExEnv labTol (fun _ => false) labExPts labExLabels none [2, 0, 1] [1, 0, 2] [1, 0, 2] 9 =
    some [[1, 5, 50], [3, 3, 50], [5, 1, 50], [3, 5, 100], [5, 3, 100]] := by decide +kernel

example : ∃ (ps : List ℚ) (blocks : List (List (ℚ × ℚ))), rEaf2d labExEnv labTol (fun _ => false) labExPts labExLabels none [2, 0, 1] [1, 0, 2] [1, 0, 2] 9 = some (eafTable2 blocks ps) :=
  let ⟨ps, blocks, h, _⟩ := C59_r_eaf_2d (labels := labExLabels) (by decide) (fun _ => false) labExPts labEx_order (sx := [1, 0, 2]) (sy := [1, 0, 2]) (fuel := 9)
    ⟨by decide, by decide +kernel⟩ ⟨by decide, by decide +kernel⟩ (by decide) (by decide) labExEnv (fun _ _ => Nat.le_add_right _ _) labTol (by decide +kernel) (by decide +kernel) none
    (fun l h => by simp at h)
  ⟨ps, blocks, h⟩

/-- The first objective maximised, one percentile given. -/
example : rEaf2d labExEnv labTol (fun d => d == 0) labExPts labExLabels (some [100]) [2, 0, 1] [2, 0, 1] [1, 0, 2] 9 =
    some [[3, 3, 100]] := by decide +kernel

/-! ## Python: rows not in the order of the labels -/

/-- **C60 is false of the Python function**: with the labels `2, 2, 1`, the first row is taken for the set of label 1.  The result for percentile 100 lacks `(5,3)`, although it is a best point
attained by both sets. -/
theorem C60_py_false_unsorted : EafSortedX labExPts 3 [0, 2, 1] ∧ EafSortedY labExPts 3 [0, 2, 1] ∧
    pyEaf2d labExEnv labTol labExPts labExLabels [100] [0, 2, 1] [0, 2, 1] 9 = some [[3, 5, 100]] ∧
    LeastLevel labTol labExLabels.toFinset.card 100 2 ∧
    BestForLabels (fun _ => false) labExPts labExLabels 2 2 (vec2 5 3) := by
  refine ⟨⟨by decide, by decide +kernel⟩, ⟨by decide, by decide +kernel⟩, by decide +kernel, ?_, ?_⟩
  · have := leastLevel_default labTol (by decide +kernel) (by decide +kernel) 2 1 (by decide)
    norm_num at this
    exact this
  · have hs : (orderLabels labExLabels [2, 0, 1]).Pairwise (fun a b => a ≤ b) := labEx_order.2
    obtain ⟨ps, blocks, h, hps, hl, hb⟩ := C59_r_eaf_2d (labels := labExLabels) (by decide) (fun _ => false) labExPts labEx_order (sx := [1, 0, 2]) (sy := [1, 0, 2]) (fuel := 9)
      ⟨by decide, by decide +kernel⟩ ⟨by decide, by decide +kernel⟩ (by decide) (by decide) labExEnv (fun _ _ => Nat.le_add_right _ _) labTol (by decide +kernel) (by decide +kernel) (some [100])
      (fun l h p hp => by simp at h; subst h; simp at hp; subst hp; norm_num)
    have he : rEaf2d labExEnv labTol (fun _ => false) labExPts labExLabels (some [100]) [2, 0, 1] [1, 0, 2] [1, 0, 2] 9 = some [[3, 5, 100], [5, 3, 100]] := by decide +kernel
    rw [he, Option.some.injEq] at h
    have hp1 : ps = [100] := by
      obtain ⟨g1, g2⟩ := hps
      have hnd : ps.Nodup := g1.imp ne_of_lt
      have : ps.Perm [100] := (List.perm_ext_iff_of_nodup hnd (by simp)).2 (by intro a; rw [g2])
      exact List.perm_singleton.1 this
    subst hp1
    obtain ⟨b, rfl⟩ := List.length_eq_one_iff.1 hl
    obtain ⟨k, hk, -, -, hm⟩ := hb 0 (by decide) (by simp)
    have hk2 : k = 2 := by
      refine leastLevel_unique hk ?_
      have := leastLevel_default labTol (by decide +kernel) (by decide +kernel) 2 1 (by decide)
      norm_num at this
      exact this
    subst hk2
    rw [← hm]
    have : [(5 : ℚ), 3, 100] ∈ eafTable2 [b] [(100 : ℚ)] := by rw [← h]; simp
    simp only [eafTable2, List.zip_cons_cons, List.zip_nil_right, List.map_cons, List.map_nil, List.flatten_cons, List.flatten_nil, List.append_nil, List.mem_map, List.cons.injEq,
      and_true] at this
    obtain ⟨q, hq, e1, e2⟩ := this
    have : q = (5, 3) := Prod.ext e1 e2
    rw [← this]; exact hq

end Moo
