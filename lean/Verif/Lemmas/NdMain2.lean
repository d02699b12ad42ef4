import Verif.Lemmas.NdMain
import Verif.Props.IndMain

/-!
# Lemmas for the program `nondominated`: one file
-/

set_option autoImplicit false
set_option linter.unusedSectionVars false

namespace Moo

variable {K : Type*} [Field K] [LinearOrder K] [IsStrictOrderedRing K]

/-! ### The transformation preserves dominance -/

theorem atLeastAsGood_mono {S : Set K} {f : K → K} (hf : StrictMonoOn f S) (mx : Bool) {x y : K} (hx : x ∈ S) (hy : y ∈ S) : AtLeastAsGood mx (f x) (f y) ↔ AtLeastAsGood mx x y := by
  unfold AtLeastAsGood
  split_ifs
  · exact hf.le_iff_le hy hx
  · exact hf.le_iff_le hx hy

theorem atLeastAsGood_anti {S : Set K} {f : K → K} (hf : StrictAntiOn f S) (mx : Bool) {x y : K} (hx : x ∈ S) (hy : y ∈ S) : AtLeastAsGood (!mx) (f x) (f y) ↔ AtLeastAsGood mx x y := by
  unfold AtLeastAsGood
  cases mx
  · simp only [Bool.not_false, if_true, Bool.false_eq_true, if_false]; exact hf.le_iff_ge hy hx
  · simp only [Bool.not_true, if_true, Bool.false_eq_true, if_false]; exact hf.le_iff_ge hx hy

theorem ndValue_mono {lg : K → K} {o : NdOpts K} {L U : ℕ → K} {n d : ℕ} (hd : d < n) (hlog : LogOk lg o L n) (hr : ∀ lo hi, o.range = some (lo, hi) → lo < hi) (hLU : L d ≤ U d) :
    (o.flips d = false → StrictMonoOn (ndValue lg o L U d) (Set.Icc (L d) (U d))) ∧ (o.flips d = true → StrictAntiOn (ndValue lg o L U d) (Set.Icc (L d) (U d))) := by
  have hf : StrictMonoOn (if o.logs d then lg else id) (Set.Icc (L d) (U d)) := by
    split_ifs with h
    · exact (hlog d hd h).mono Set.Icc_subset_Ici_self
    · exact strictMonoOn_id
  generalize hfe : (if o.logs d then lg else id) = f at hf
  have hlu : f (L d) ≤ f (U d) := hf.monotoneOn ⟨le_rfl, hLU⟩ ⟨hLU, le_rfl⟩ hLU
  have hpos : 0 < (if f (U d) = f (L d) then (1 : K) else f (U d) - f (L d)) := by
    split_ifs with h
    · exact one_pos
    · exact sub_pos.2 (lt_of_le_of_ne hlu (Ne.symm h))
  constructor
  · intro hfl x hx y hy hxy
    have h := hf hx hy hxy
    unfold ndValue
    rw [hfe, hfl]
    dsimp only
    cases ho : o.range with
    | none => simpa using h
    | some p =>
      obtain ⟨lo, hi⟩ := p
      have hlt := hr lo hi ho
      simp only [Bool.false_eq_true, if_false]
      have h1 : (hi - lo) * (f x - f (L d)) < (hi - lo) * (f y - f (L d)) := mul_lt_mul_of_pos_left (sub_lt_sub_right h _) (sub_pos.2 hlt)
      have := div_lt_div_of_pos_right h1 hpos
      linarith
  · intro hfl x hx y hy hxy
    have h := hf hx hy hxy
    unfold ndValue
    rw [hfe, hfl]
    dsimp only
    cases ho : o.range with
    | none => simpa using h
    | some p =>
      obtain ⟨lo, hi⟩ := p
      have hlt := hr lo hi ho
      simp only [if_true]
      have h1 : (hi - lo) * (f (U d) - f y) < (hi - lo) * (f (U d) - f x) := mul_lt_mul_of_pos_left (sub_lt_sub_left h _) (sub_pos.2 hlt)
      have := div_lt_div_of_pos_right h1 hpos
      linarith

theorem ndPoint_weakDom {lg : K → K} {o : NdOpts K} {L U : ℕ → K} {n : ℕ} (hlog : LogOk lg o L n) (hr : ∀ lo hi, o.range = some (lo, hi) → lo < hi) {r q : List K} (hrb : InBounds n L U r)
    (hqb : InBounds n L U q) :
    WeakDom n (agreeMx o.agree o.mx) (obj (ndPoint lg o L U n r)) (obj (ndPoint lg o L U n q)) ↔ WeakDom n o.mx (obj r) (obj q) := by
  unfold WeakDom
  refine forall_congr' fun d => forall_congr' fun hd => ?_
  have e : ∀ t, obj (ndPoint lg o L U n t) d = ndValue lg o L U d (obj t d) := by
    intro t
    simp [ndPoint, obj, hd]
  rw [e, e]
  have hLU : L d ≤ U d := (hrb d hd).1.trans (hrb d hd).2
  obtain ⟨h1, h2⟩ := ndValue_mono (U := U) hd hlog hr hLU
  have hx : obj r d ∈ Set.Icc (L d) (U d) := hrb d hd
  have hy : obj q d ∈ Set.Icc (L d) (U d) := hqb d hd
  cases hfl : o.flips d with
  | false =>
    have : agreeMx o.agree o.mx d = o.mx d := by
      unfold NdOpts.flips at hfl
      unfold agreeMx
      cases ha : o.agree with
      | none => rfl
      | some b => rw [ha] at hfl; simpa using hfl
    rw [this]
    exact atLeastAsGood_mono (h1 hfl) _ hx hy
  | true =>
    have : agreeMx o.agree o.mx d = !o.mx d := by
      unfold NdOpts.flips at hfl
      unfold agreeMx
      cases ha : o.agree with
      | none => rw [ha] at hfl; cases hfl
      | some b =>
        rw [ha] at hfl
        simp only [bne_iff_ne, ne_eq] at hfl
        cases hb : b <;> cases hm : o.mx d <;> simp_all
    rw [this]
    exact atLeastAsGood_anti (h2 hfl) _ hx hy

section
variable {n : ℕ} {mx mx' : ℕ → Bool} {s : List (List K)} {T : List K → List K}

theorem mutuallyNondominated_map (hT : ∀ r ∈ s, ∀ q ∈ s, (WeakDom n mx' (obj (T r)) (obj (T q)) ↔ WeakDom n mx (obj r) (obj q))) :
    MutuallyNondominated n mx' (s.map T) ↔ MutuallyNondominated n mx s := by
  unfold MutuallyNondominated
  rw [List.pairwise_map]
  constructor
  · intro h
    exact h.imp_of_mem fun {a b} ha hb hab => by rw [← hT a ha b hb, ← hT b hb a ha]; exact hab
  · intro h
    exact h.imp_of_mem fun {a b} ha hb hab => by rw [hT a ha b hb, hT b hb a ha]; exact hab

theorem isFrontOf_map (hlen : ∀ r ∈ s, r.length = n) (hT : ∀ r ∈ s, ∀ q ∈ s, (WeakDom n mx' (obj (T r)) (obj (T q)) ↔ WeakDom n mx (obj r) (obj q))) {w : List (List K)}
    (h : IsFrontOf n mx' (s.map T) w) : ∃ w0, IsFrontOf n mx s w0 ∧ w = w0.map T := by
  obtain ⟨h1, h2, h3⟩ := h
  obtain ⟨w0, hw0, rfl⟩ := List.sublist_map_iff.1 h1
  have hinj : ∀ r ∈ s, ∀ q ∈ s, T r = T q → r = q := by
    intro r hr q hq he
    rw [← obj_ext (hlen r hr) (hlen q hq)]
    refine weakDom_antisymm (mx := mx) ((hT r hr q hq).1 ?_) ((hT q hq r hr).1 ?_)
    · rw [he]; exact sameVec_weakDom fun _ _ => rfl
    · rw [he]; exact sameVec_weakDom fun _ _ => rfl
  have hdom : ∀ r ∈ s, ∀ q ∈ s, (Dom n mx' (obj (T r)) (obj (T q)) ↔ Dom n mx (obj r) (obj q)) := by
    intro r hr q hq
    rw [dom_iff, dom_iff, hT r hr q hq, hT q hq r hr]
  refine ⟨w0, ⟨hw0, List.Nodup.of_map T h2, ?_⟩, rfl⟩
  intro r
  constructor
  · intro hr
    have hrs := hw0.subset hr
    have := (h3 (T r)).1 (List.mem_map_of_mem hr)
    refine ⟨hrs, fun q hq => ?_⟩
    rw [← hdom q hq r hrs]
    exact this.2 _ (List.mem_map_of_mem hq)
  · rintro ⟨hrs, hq⟩
    have := (h3 (T r)).2 ⟨List.mem_map_of_mem hrs, by
      intro q hqm
      obtain ⟨q, hqs, rfl⟩ := List.mem_map.1 hqm
      rw [hdom q hqs r hrs]
      exact hq q hqs⟩
    obtain ⟨r', hr', he⟩ := List.mem_map.1 this
    rw [← hinj r' (hw0.subset hr') r hrs he]
    exact hr'

end

/-! ### One file -/

/-- The text of an output file. -/
def NdFileText (env : NdEnv K) (o : NdOpts K) (L U : ℕ → K) (n : ℕ) (dest : Option ℕ) (sets : List (List (List K))) (t : List Char) : Prop :=
  ∃ ws, List.Forall₂ (NdWritten env.lg o L U n) (ndSets o L U n sets) ws ∧ t = unlinesC (setLines (vectorFprintf env.fmt) (env.hdr dest) (ws.map fun w => (w, [[]])))

/-- A file is found to have dominated points. -/
def FileReported (o : NdOpts K) (L U : ℕ → K) (n : ℕ) (sets : List (List (List K))) : Prop := o.checks = true ∧ ∃ s ∈ ndSets o L U n sets, Reported n o.mx s

theorem setLines_pre (fmtRow : List K → List Char) (pre : List (List Char)) (sets : List (List (List K) × List (List Char))) :
    unlinesC (setLines fmtRow pre sets) = unlinesC pre ++ unlinesC (setLines fmtRow [] sets) := by
  unfold setLines
  rw [unlines_append, List.nil_append]

theorem ndProcess_eq {env : NdEnv K} (hsort : ∀ pp n, SortedPP2d pp n (env.sortFn pp n)) {n : ℕ} (hn : 0 < n) {st : NdSt K} {o : NdOpts K} (hst : StOk n st o) {minmax : ℕ → ℤ}
    (hm : ∀ k < n, minmax k = minmaxFromBool o.mx k) {P : ℕ → ℕ → K} {sets0 : List (List (List K))} (hne : sets0 ≠ [])
    (h : TableHolds P n 0 (if o.union then [sets0.flatten] else sets0).flatten) (L U : ℕ → K) (hlog : LogOk env.lg o L n) (hb : ∀ s ∈ ndSets o L U n sets0, ∀ r ∈ s, InBounds n L U r)
    (h2 : o.checks = true → ∀ s ∈ ndSets o L U n sets0, s.length < 2 ∨ Agree2 n o.agree o.mx) (dest : Option ℕ) :
    ∃ (dom : Bool) (t : List Char), ndProcess env st n minmax P (cumFrom 0 ((if o.union then [sets0.flatten] else sets0).map List.length)) L U dest =
        .done dom (if o.Writes n then some t else none) n ∧ (dom = true ↔ FileReported o L U n sets0) ∧ NdFileText env o L U n dest sets0 t := by
  have hne' : (if o.union then [sets0.flatten] else sets0) ≠ [] := by split_ifs <;> simp [hne]
  obtain ⟨P', e1, hP'⟩ := ndForce_eq hst L U hne' h
  change ndForce st n P _ L U = some (P', cumFrom 0 ((ndSets o L U n sets0).map List.length)) at e1
  change TableHolds P' n 0 (ndSets o L U n sets0).flatten at hP'
  unfold ndProcess
  rw [e1]
  dsimp only
  have hne2 : ndSets o L U n sets0 ≠ [] := by unfold ndSets; simpa using hne'
  have hlenS : ∀ s ∈ ndSets o L U n sets0, ∀ r ∈ s, r.length = n := fun s hs r hr => hP'.length r (List.mem_flatten.2 ⟨s, hs, hr⟩)
  generalize hS : ndSets o L U n sets0 = S at *
  have hsize : (cumFrom 0 (S.map List.length)).getLastD 0 = S.flatten.length := by
    rw [getLastD_cumFrom _ _ (by simpa using hne2), Nat.zero_add, List.length_flatten]
  rw [hsize]
  set Q := ndTransform env st n S.flatten.length minmax P' L U with hQ
  have hQ' : TableHolds Q n 0 (S.map (List.map (ndPoint env.lg o L U n))).flatten := by
    have := hP'.map (P' := Q) (ndValue env.lg o L U) (fun i hi d hd => ndTransform_eq hst hm _ P' L U i hi d hd)
    rw [← List.map_flatten]
    exact this
  have hlens : S.map List.length = (S.map (List.map (ndPoint env.lg o L U n))).map List.length := by
    rw [List.map_map]
    apply List.map_congr_left
    intro s _
    simp
  have hT : ∀ s ∈ S, ∀ r ∈ s, ∀ q ∈ s, (WeakDom n (agreeMx o.agree o.mx) (obj (ndPoint env.lg o L U n r)) (obj (ndPoint env.lg o L U n q)) ↔ WeakDom n o.mx (obj r) (obj q)) :=
    fun s hs r hr q hq => ndPoint_weakDom hlog hst.range_lt (hb s hs r hr) (hb s hs q hq)
  have hwr : (st.filter || decide (st.agree ≠ 0) || st.range.isSome || st.force || st.logFlag n) = decide (o.Writes n) := by
    rw [hst.filter, hst.agree, hst.range, hst.force]
    rw [Bool.eq_iff_iff, decide_eq_true_iff]
    unfold NdOpts.Writes NdSt.logFlag
    have hl : ∀ d, st.logs d = o.logs d := fun d => by unfold NdSt.logs NdOpts.logs; rw [hst.log]
    have ha : agreeInt o.agree ≠ 0 ↔ o.agree ≠ none := by
      rcases o.agree with _ | _ | _ <;> simp [agreeInt]
    simp only [Bool.or_eq_true, decide_eq_true_eq, ha, Option.isSome_iff_ne_none, List.any_eq_true, List.mem_range, hl]
    tauto
  rw [hst.check, hwr]
  simp only [decide_eq_true_eq]
  have hrep : ∀ s ∈ S, Reported n (agreeMx o.agree o.mx) (s.map (ndPoint env.lg o L U n)) ↔ Reported n o.mx s := by
    intro s hs
    unfold Reported
    rw [List.length_map, mutuallyNondominated_map (hT s hs)]
  by_cases hc : o.checks = true
  · simp only [hc, if_true]
    obtain ⟨dom, nondom, e2, hdom, hfr, hno⟩ := checkNondominated_spec hsort hm o.agree (S.map (List.map (ndPoint env.lg o L U n))) 0 hQ' (by
      intro s hs
      obtain ⟨s, hs', rfl⟩ := List.mem_map.1 hs
      rw [List.length_map]
      exact h2 hc s hs')
    rw [hst.agree, hlens, e2]
    dsimp only
    refine ⟨dom, unlinesC (env.hdr dest) ++ (if (st.filter && dom) = true then writeSetsFiltered env.fmt (fun j => Q (j / n) (j % n)) n nondom (cumFrom 0 ((S.map (List.map (ndPoint env.lg o L U n))).map List.length)) 0
      else writeSets env.fmt (fun j => Q (j / n) (j % n)) n (cumFrom 0 ((S.map (List.map (ndPoint env.lg o L U n))).map List.length)) 0), rfl, ?_, ?_⟩
    · rw [hdom]
      unfold FileReported
      rw [hS]
      simp only [List.mem_map, exists_exists_and_eq_and, hc, true_and]
      exact exists_congr fun s => and_congr_right fun hs => hrep s hs
    · have hflat := hQ'.flat hn
      unfold NdFileText
      rw [hS]
      by_cases hf : o.filter = true
      · -- filtered
        have hws : List.Forall₂ (NdWritten env.lg o L U n) S (selectSets nondom 0 (S.map (List.map (ndPoint env.lg o L U n)))) := by
          rw [List.forall₂_map_left_iff] at hfr
          have : List.Forall₂ (fun s w => s ∈ S ∧ IsFrontOf n (agreeMx o.agree o.mx) (s.map (ndPoint env.lg o L U n)) w) S (selectSets nondom 0 (S.map (List.map (ndPoint env.lg o L U n)))) :=
            (List.forall₂_and_left _ _).2 ⟨fun a ha => ha, hfr⟩
          refine this.imp ?_
          rintro s w ⟨hs, hw⟩
          obtain ⟨w0, h0, rfl⟩ := isFrontOf_map (hlenS s hs) (hT s hs) hw
          exact ⟨w0, by rw [if_pos hf]; exact h0, rfl⟩
        refine ⟨_, hws, ?_⟩
        rw [setLines_pre]
        congr 1
        rw [hst.filter, hf, Bool.true_and]
        cases hd : dom with
        | true => simp only [if_true]; exact writeSetsFiltered_unlines env.fmt _ n nondom _ 0 hflat
        | false =>
          simp only [Bool.false_eq_true, if_false]
          rw [hno hd]
          exact writeSets_unlines env.fmt _ n _ 0 hflat
      · refine ⟨S.map (List.map (ndPoint env.lg o L U n)), ?_, ?_⟩
        · rw [List.forall₂_map_right_iff, List.forall₂_same]
          intro s _
          exact ⟨s, by rw [if_neg hf], rfl⟩
        · rw [setLines_pre]
          congr 1
          rw [hst.filter]
          simp only [hf, Bool.false_and, Bool.false_eq_true, if_false]
          exact writeSets_unlines env.fmt _ n _ 0 hflat
  · have hfilter : o.filter = false := by
      have h1 := hst.check
      have h3 := hst.filter
      rw [Bool.not_eq_true] at hc
      rw [hc, h3] at h1
      simpa using (Bool.or_eq_false_iff.1 h1).2
    simp only [hc, Bool.false_eq_true, if_false]
    refine ⟨false, unlinesC (env.hdr dest) ++ writeSets env.fmt (fun j => Q (j / n) (j % n)) n (cumFrom 0 (S.map List.length)) 0, ?_, ?_, ?_⟩
    · rw [hst.filter, hfilter]
      rfl
    · unfold FileReported
      simp [hc]
    · unfold NdFileText
      rw [hS]
      refine ⟨S.map (List.map (ndPoint env.lg o L U n)), ?_, ?_⟩
      · rw [List.forall₂_map_right_iff, List.forall₂_same]
        intro s _
        exact ⟨s, by rw [hfilter]; rfl, rfl⟩
      · rw [setLines_pre]
        congr 1
        rw [hlens]
        exact writeSets_unlines env.fmt _ n _ 0 (hQ'.flat hn)

end Moo
