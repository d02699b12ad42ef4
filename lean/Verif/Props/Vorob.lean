import Verif.Model.Vorob
import Verif.Props.WithinSets
import Verif.Props.Hypervolume
import Verif.Props.Percentile
import Mathlib.MeasureTheory.Measure.Real

/-!
# Properties C41 (Vorob'ev deviation) and C48 (Vorob'ev threshold)
-/

set_option autoImplicit false
set_option linter.unusedSectionVars false

namespace Moo

open MeasureTheory

/-- The region dominated by a list of points, inside the box below the reference point. -/
def regionOf (d : ℕ) (rows : List (ℕ → ℝ)) (ref : ℕ → ℝ) : Set (Fin d → ℝ) := {y | (∃ p ∈ rows, ∀ k : Fin d, p k ≤ y k) ∧ ∀ k : Fin d, y k ≤ ref k}

theorem regionOf_eq (d : ℕ) (rows : List (ℕ → ℝ)) (ref : ℕ → ℝ) :
    regionOf d rows ref = dominatedRegion d rows.length (fun i => rows.getD i (fun _ => 0)) ref := by
  ext y
  unfold regionOf dominatedRegion
  constructor
  · rintro ⟨⟨p, hp, h⟩, h2⟩
    obtain ⟨i, hi, rfl⟩ := List.getElem_of_mem hp
    refine ⟨⟨i, hi, ?_⟩, h2⟩
    intro k
    beta_reduce
    rw [List.getD_eq_getElem _ _ hi]
    exact h k
  · rintro ⟨⟨i, hi, h⟩, h2⟩
    refine ⟨⟨rows[i], List.getElem_mem hi, ?_⟩, h2⟩
    intro k
    have := h k
    beta_reduce at this
    rwa [List.getD_eq_getElem _ _ hi] at this

theorem regionOf_append (d : ℕ) (r s : List (ℕ → ℝ)) (ref : ℕ → ℝ) : regionOf d (r ++ s) ref = regionOf d r ref ∪ regionOf d s ref := by
  ext y
  unfold regionOf
  simp only [Set.mem_ofPred_eq, Set.mem_union, List.mem_append]
  constructor
  · rintro ⟨⟨p, hp | hp, h⟩, h2⟩
    · exact Or.inl ⟨⟨p, hp, h⟩, h2⟩
    · exact Or.inr ⟨⟨p, hp, h⟩, h2⟩
  · rintro (⟨⟨p, hp, h⟩, h2⟩ | ⟨⟨p, hp, h⟩, h2⟩)
    · exact ⟨⟨p, Or.inl hp, h⟩, h2⟩
    · exact ⟨⟨p, Or.inr hp, h⟩, h2⟩

theorem regionOf_measurable (d : ℕ) (rows : List (ℕ → ℝ)) (ref : ℕ → ℝ) : MeasurableSet (regionOf d rows ref) := by
  have : regionOf d rows ref = ⋃ p ∈ {p | p ∈ rows}, Set.Icc (fun k : Fin d => p k) (fun k : Fin d => ref k) := by
    ext y
    simp only [regionOf, Set.mem_ofPred_eq, Set.mem_iUnion, Set.mem_Icc, Pi.le_def, exists_prop]
    constructor
    · rintro ⟨⟨p, hp, h⟩, h2⟩; exact ⟨p, hp, h, h2⟩
    · rintro ⟨p, hp, h, h2⟩; exact ⟨⟨p, hp, h⟩, h2⟩
  rw [this]
  refine MeasurableSet.biUnion ?_ (fun p _ => measurableSet_Icc)
  exact (List.finite_toSet rows).countable

theorem regionOf_ne_top (d : ℕ) (rows : List (ℕ → ℝ)) (ref : ℕ → ℝ) : volume (regionOf d rows ref) ≠ ⊤ := by
  rw [regionOf_eq, volume_dominatedRegion]
  exact ENNReal.ofReal_ne_top

/-- The volume of the symmetric difference. -/
theorem vol_symmDiff {d : ℕ} {A B : Set (Fin d → ℝ)} (hA : MeasurableSet A) (hB : MeasurableSet B) (hA' : volume A ≠ ⊤) (hB' : volume B ≠ ⊤) :
    vol (symmDiff A B) = 2 * vol (A ∪ B) - vol A - vol B := by
  have hU : volume (A ∪ B) ≠ ⊤ := measure_union_ne_top hA' hB'
  have e1 : vol (symmDiff A B) = vol (A \ B) + vol (B \ A) := by
    have := measureReal_symmDiff_eq (μ := volume) hA hB hA' hB'
    exact this
  have e2 : vol (A ∪ B) = vol A + vol (B \ A) := by
    have := measureReal_union (μ := volume) (s₁ := A) (s₂ := B \ A) Set.disjoint_sdiff_right (hB.diff hA) hA' (measure_ne_top_of_subset Set.sdiff_subset hB')
    rw [Set.union_sdiff_self] at this
    exact this
  have e3 : vol (A ∪ B) = vol B + vol (A \ B) := by
    have := measureReal_union (μ := volume) (s₁ := B) (s₂ := A \ B) Set.disjoint_sdiff_right (hA.diff hB) hB' (measure_ne_top_of_subset Set.sdiff_subset hA')
    rw [Set.union_sdiff_self, Set.union_comm] at this
    exact this
  rw [e1]
  linarith

/-- What is assumed of the C library in the calls of `fpli_hv`: it sorts, and for more than three objectives ties are ordered alike (see C13). -/
def HvCallsOk (d : ℕ) (envs : List (ℕ → ℝ) → HvEnv ℝ) : Prop :=
  ∀ rows : List (ℕ → ℝ), HvEnvOk (fun i => rows.getD i (fun _ => 0)) d rows.length (envs rows) ∧
    (d ≤ 3 ∨ TiesConsistent (nodeTable (fun i => rows.getD i (fun _ => 0))) d (envs rows).ords)

theorem hvRows_eq {d : ℕ} (hd : 2 ≤ d) (ref : ℕ → ℝ) {envs : List (ℕ → ℝ) → HvEnv ℝ} (henv : HvCallsOk d envs) (rows : List (ℕ → ℝ)) :
    hvRows d ref envs rows = vol (regionOf d rows ref) := by
  unfold hvRows
  rw [regionOf_eq, vol_dominatedRegion]
  exact fpliHv_eq_HV d _ hd _ ref _ (henv rows).1 ((henv rows).2.elim (fun h => tiesConsistent_of_le_three _ d h _) id)

/-- **C41.** `vorobDev(x, ref, VE=VE)` is the mean over the sets of `x` of the volume of the symmetric difference between the region dominated by the set and the one
dominated by `VE` (inside the box below `ref`); in particular it is not negative.  (With more than three objectives under the condition of C13 on the order of ties.) -/
theorem C41_vorobDev_partial {L : Type*} [LinearOrder L] {d : ℕ} (hd : 2 ≤ d) (ref : ℕ → ℝ) {envs : List (ℕ → ℝ) → HvEnv ℝ} (henv : HvCallsOk d envs)
    (data : ℕ → ℕ → ℝ) (labels : List L) (hne : labels ≠ []) (VE : List (ℕ → ℝ)) :
    ∃ v, vorobDev d ref envs data labels VE = some v ∧
      v = npMean ((firsts labels).map (fun j => vol (symmDiff
        (regionOf d (((List.range labels.length).filter (fun i => decide (labels[i]? = labels[j]?))).map data) ref) (regionOf d VE ref)))) ∧ 0 ≤ v := by
  have hfn : firsts labels ≠ [] := by
    obtain ⟨x, l, rfl⟩ := List.exists_cons_of_ne_nil hne
    intro h
    have : (0 : ℕ) ∈ firsts (x :: l) := by
      unfold firsts
      simp
    rw [h] at this
    simp at this
  unfold vorobDev
  rw [C40_apply_per_set, C40_apply_per_set]
  dsimp only
  have key : ∀ l : List ℕ, l ≠ [] → ∀ (F : ℕ → List (ℕ → ℝ)),
      2 * npMean (l.map (fun j => hvRows d ref envs (F j ++ VE))) - npMean (l.map (fun j => hvRows d ref envs (F j))) - hvRows d ref envs VE =
        npMean (l.map (fun j => vol (symmDiff (regionOf d (F j) ref) (regionOf d VE ref)))) := by
    intro l hl F
    have hsum : (l.map (fun j => vol (symmDiff (regionOf d (F j) ref) (regionOf d VE ref)))).sum =
        2 * (l.map (fun j => hvRows d ref envs (F j ++ VE))).sum - (l.map (fun j => hvRows d ref envs (F j))).sum - (l.length : ℝ) * hvRows d ref envs VE := by
      clear hl
      induction l with
      | nil => simp
      | cons j l ih =>
        simp only [List.map_cons, List.sum_cons, List.length_cons, ih, Nat.cast_add, Nat.cast_one]
        rw [vol_symmDiff (regionOf_measurable _ _ _) (regionOf_measurable _ _ _) (regionOf_ne_top _ _ _) (regionOf_ne_top _ _ _),
          hvRows_eq hd ref henv (F j), hvRows_eq hd ref henv (F j ++ VE), hvRows_eq hd ref henv VE, regionOf_append]
        ring
    unfold npMean
    rw [hsum]
    simp only [List.length_map]
    have : (l.length : ℝ) ≠ 0 := by
      have := List.length_pos_of_ne_nil hl
      exact_mod_cast this.ne'
    field_simp
  refine ⟨_, rfl, key _ hfn _, ?_⟩
  rw [key _ hfn (fun j => ((List.range labels.length).filter (fun i => decide (labels[i]? = labels[j]?))).map data)]
  unfold npMean
  apply div_nonneg _ (Nat.cast_nonneg _)
  apply List.sum_nonneg
  intro x hx
  obtain ⟨j, _, rfl⟩ := List.mem_map.1 hx
  exact ENNReal.toReal_nonneg

/-! ## C48: the threshold -/

section
variable {K : Type*} [Field K] [LinearOrder K] [IsStrictOrderedRing K] [Inhabited K]

/-- **C48 (what holds).** If the loop of `vorobT` ends with threshold `c`, then `c` is one end of an interval of percentiles `(a, b]` such that the hypervolume at `a`
exceeds the mean hypervolume of the sets (or `a = 0`) and the one at `b` does not (or `b = 100`).
Missing: that the interval contains no other EAF level (`C48_false_early_stop`). -/
theorem C48_bracket_partial (hvq : K → K) (hvs : List K) (fuel : ℕ) {c : K} (h : vorobT hvq hvs fuel = some c) :
    ∃ a b : K, 0 ≤ a ∧ a < b ∧ b ≤ 100 ∧ (c = a ∨ c = b) ∧ (a = 0 ∨ hvq a > npMean hvs) ∧ (b = 100 ∨ hvq b ≤ npMean hvs) := by
  have key : ∀ (f : ℕ) (a b : K) (prev : Option K), 0 ≤ a → a < b → b ≤ 100 → (a = 0 ∨ hvq a > npMean hvs) → (b = 100 ∨ hvq b ≤ npMean hvs) →
      vorobLoop hvq (npMean hvs) f a b prev = some c →
      ∃ a b : K, 0 ≤ a ∧ a < b ∧ b ≤ 100 ∧ (c = a ∨ c = b) ∧ (a = 0 ∨ hvq a > npMean hvs) ∧ (b = 100 ∨ hvq b ≤ npMean hvs) := by
    intro f
    induction f with
    | zero => intro a b prev _ _ _ _ _ h; cases h
    | succ f ih =>
      intro a b prev h0 hab h1 ha hb h
      rw [vorobLoop] at h
      have hc1 : a < (a + b) / 2 := by linarith
      have hc2 : (a + b) / 2 < b := by linarith
      by_cases ht : hvq ((a + b) / 2) > npMean hvs
      · simp only [if_pos ht] at h
        split_ifs at h with hp
        · obtain rfl := Option.some.inj h
          exact ⟨(a + b) / 2, b, by linarith, hc2, h1, Or.inl rfl, Or.inr ht, hb⟩
        · exact ih _ _ _ (by linarith) hc2 h1 (Or.inr ht) hb h
      · simp only [if_neg ht] at h
        split_ifs at h with hp
        · obtain rfl := Option.some.inj h
          exact ⟨a, (a + b) / 2, h0, hc1, by linarith, Or.inr rfl, ha, Or.inr (not_lt.1 ht)⟩
        · exact ih _ _ _ h0 hc1 (by linarith) ha (Or.inr (not_lt.1 ht)) h
  exact key fuel 0 100 none le_rfl (by norm_num) le_rfl (Or.inl rfl) (Or.inl rfl) h

end

/-- Eight sets whose regions are nested, with these hypervolumes (from large to small); the region attained by at least `k` of them is the `k`-th. -/
def vorobExample : List ℚ := [10, 10, 10, 10, 10, 10, 9, 0]

/-- The hypervolume of the EAF of the eight sets at percentile `c`. -/
def vorobExampleQ (c : ℚ) : ℚ := match percentile2level (0 : ℚ) c 8 with
  | some k => vorobExample.getD (k.toNat - 1) 0
  | none => 0

/-- **C48 is false**: for this example `vorobT` stops at the percentile 75 (sixth level, hypervolume 10), because two successive levels have the same hypervolume, although the
seventh level (percentile 87.5) has hypervolume 9, which is also larger than the mean 8.625 and closer to it. -/
theorem C48_false_early_stop : vorobT vorobExampleQ vorobExample 10 = some 75 ∧ vorobExampleQ 75 = 10 ∧ vorobExampleQ (175 / 2) = 9 ∧ npMean vorobExample = 69 / 8 := by
  have l50 : percentile2level (0 : ℚ) 50 8 = some 4 := C26_percentile2level_level2percentile (0 : ℚ) 4 8 le_rfl one_pos (by norm_num) (by norm_num) |> fun h => by
    have e : (level2percentile 4 8 : ℚ) = 50 := by norm_num [level2percentile]
    rwa [e] at h
  have l75 : percentile2level (0 : ℚ) 75 8 = some 6 := C26_percentile2level_level2percentile (0 : ℚ) 6 8 le_rfl one_pos (by norm_num) (by norm_num) |> fun h => by
    have e : (level2percentile 6 8 : ℚ) = 75 := by norm_num [level2percentile]
    rwa [e] at h
  have l87 : percentile2level (0 : ℚ) (175 / 2) 8 = some 7 := C26_percentile2level_level2percentile (0 : ℚ) 7 8 le_rfl one_pos (by norm_num) (by norm_num) |> fun h => by
    have e : (level2percentile 7 8 : ℚ) = 175 / 2 := by norm_num [level2percentile]
    rwa [e] at h
  have q50 : vorobExampleQ 50 = 10 := by unfold vorobExampleQ; rw [l50]; rfl
  have q75 : vorobExampleQ 75 = 10 := by unfold vorobExampleQ; rw [l75]; rfl
  have q87 : vorobExampleQ (175 / 2) = 9 := by unfold vorobExampleQ; rw [l87]; rfl
  have hm : npMean vorobExample = 69 / 8 := by norm_num [npMean, vorobExample]
  refine ⟨?_, q75, q87, hm⟩
  have e1 : ((0 : ℚ) + 100) / 2 = 50 := by norm_num
  have e2 : ((50 : ℚ) + 100) / 2 = 75 := by norm_num
  have g : (10 : ℚ) > 69 / 8 := by norm_num
  unfold vorobT
  rw [hm]
  simp only [vorobLoop, e1, q50, if_pos g, e2, q75]
  simp

/-- **C48, termination**: in exact arithmetic the loop need not end; with three nested sets of hypervolumes 10, 10, 0 it alternates for ever between the second and the third level
(in floating point it ends when the interval cannot be halved any more). -/
theorem C48_no_termination_exact (hvq : ℚ → ℚ) (h : ∀ c, 0 ≤ c → c ≤ 100 → hvq c = if c ≤ 200 / 3 then 10 else 0) (fuel : ℕ) :
    vorobT hvq [10, 10, 0] fuel = none := by
  have hm : npMean [(10 : ℚ), 10, 0] = 20 / 3 := by norm_num [npMean]
  -- two successive iterations; `w` is the width of the interval, `a = 200/3 - 2w/3`
  have key : ∀ (f : ℕ) (w : ℚ), 0 < w → w ≤ 100 →
      (∀ prev, prev ≠ some 10 → vorobLoop hvq (20 / 3) f (200 / 3 - 2 * w / 3) (200 / 3 + w / 3) prev = none) ∧
      (∀ prev, prev ≠ some 0 → w ≤ 50 → vorobLoop hvq (20 / 3) f (200 / 3 - w / 3) (200 / 3 + 2 * w / 3) prev = none) := by
    intro f
    induction f with
    | zero => intro w _ _; exact ⟨fun _ _ => rfl, fun _ _ _ => rfl⟩
    | succ f ih =>
      intro w hw hw1
      obtain ⟨ih1, ih2⟩ := ih (w / 2) (by linarith) (by linarith)
      constructor
      · intro prev hp
        have hc : (200 / 3 - 2 * w / 3 + (200 / 3 + w / 3)) / 2 = 200 / 3 - w / 6 := by ring
        have hv : hvq (200 / 3 - w / 6) = 10 := by rw [h _ (by linarith) (by linarith), if_pos (by linarith)]
        simp only [vorobLoop, hc, hv]
        rw [if_neg hp, if_pos (by norm_num), if_pos (by norm_num)]
        have := ih2 (some 10) (by simp) (by linarith)
        rw [show (200 : ℚ) / 3 - w / 6 = 200 / 3 - w / 2 / 3 by ring, show (200 : ℚ) / 3 + w / 3 = 200 / 3 + 2 * (w / 2) / 3 by ring]
        exact this
      · intro prev hp hw2
        have hc : (200 / 3 - w / 3 + (200 / 3 + 2 * w / 3)) / 2 = 200 / 3 + w / 6 := by ring
        have hv : hvq (200 / 3 + w / 6) = 0 := by rw [h _ (by linarith) (by linarith), if_neg (by linarith)]
        simp only [vorobLoop, hc, hv]
        rw [if_neg hp, if_neg (by norm_num), if_neg (by norm_num)]
        have := ih1 (some 0) (by simp)
        rw [show (200 : ℚ) / 3 + w / 6 = 200 / 3 + w / 2 / 3 by ring, show (200 : ℚ) / 3 - w / 3 = 200 / 3 - 2 * (w / 2) / 3 by ring]
        exact this
  unfold vorobT
  rw [hm]
  have := (key fuel 100 (by norm_num) le_rfl).1 none (by simp)
  rw [show (200 : ℚ) / 3 - 2 * 100 / 3 = 0 by norm_num, show (200 : ℚ) / 3 + 100 / 3 = 100 by norm_num] at this
  exact this

/-- The hypothesis of `C48_no_termination_exact` is met by the percentiles of three sets. -/
example : ∃ hvq : ℚ → ℚ, ∀ c, 0 ≤ c → c ≤ 100 → hvq c = if c ≤ 200 / 3 then 10 else 0 := ⟨fun c => if c ≤ 200 / 3 then 10 else 0, fun _ _ _ => rfl⟩

/-- Calls as assumed exist (three objectives or fewer). -/
theorem hvCallsOk_exists (d : ℕ) (hd3 : d ≤ 3) : ∃ envs, HvCallsOk d envs := by
  have : ∀ rows : List (ℕ → ℝ), ∃ e : HvEnv ℝ, HvEnvOk (fun i => rows.getD i (fun _ => 0)) d rows.length e := by
    intro rows
    exact (exists_stable_env d rows.length _).imp fun _ h => h.1
  choose envs h using this
  exact ⟨envs, fun rows => ⟨h rows, Or.inl hd3⟩⟩

/-- The hypotheses of `C41_vorobDev_partial` are met by two sets of which one has two points. -/
example : ∃ envs, HvCallsOk 2 envs ∧ ∃ v, vorobDev 2 (fun _ => 5) envs (fun i k => if i = k then 1 else 3) [1, 1, 2] [fun _ => 2] = some v ∧ 0 ≤ v := by
  obtain ⟨envs, h⟩ := hvCallsOk_exists 2 (by norm_num)
  obtain ⟨v, h1, _, h3⟩ := C41_vorobDev_partial le_rfl (fun _ => 5) h (fun i k => if i = k then 1 else 3) [1, 1, 2] (by simp) [fun _ => 2]
  exact ⟨envs, h, v, h1, h3⟩

end Moo
