import Verif.Lemmas.NdMain3

/-!
# Lemmas for the program `nondominated`: the files
-/

set_option autoImplicit false
set_option linter.unusedSectionVars false

namespace Moo

variable {K : Type*} [Field K] [LinearOrder K] [IsStrictOrderedRing K]

/-! ### Only the first `n` bounds count -/

section
variable {o : NdOpts K} {L L' U U' : ℕ → K} {n : ℕ}

theorem inBounds_congr (hL : ∀ d < n, L d = L' d) (hU : ∀ d < n, U d = U' d) (r : List K) : InBounds n L U r ↔ InBounds n L' U' r := by
  unfold InBounds
  exact forall_congr' fun d => forall_congr' fun hd => by rw [hL d hd, hU d hd]

theorem ndSets_congr (hL : ∀ d < n, L d = L' d) (hU : ∀ d < n, U d = U' d) (sets : List (List (List K))) : ndSets o L U n sets = ndSets o L' U' n sets := by
  unfold ndSets
  apply List.map_congr_left
  intro s _
  split_ifs
  · apply List.filter_congr
    intro r _
    rw [decide_eq_decide]
    exact inBounds_congr hL hU r
  · rfl

theorem ndPoint_congr (lg : K → K) (hL : ∀ d < n, L d = L' d) (hU : ∀ d < n, U d = U' d) : ndPoint lg o L U n = ndPoint lg o L' U' n := by
  funext r
  unfold ndPoint
  apply List.map_congr_left
  intro d hd
  rw [List.mem_range] at hd
  unfold ndValue
  rw [hL d hd, hU d hd]

theorem ndFileText_congr {env : NdEnv K} (hL : ∀ d < n, L d = L' d) (hU : ∀ d < n, U d = U' d) {dest : Option ℕ} {sets : List (List (List K))} {t : List Char}
    (h : NdFileText env o L U n dest sets t) : NdFileText env o L' U' n dest sets t := by
  unfold NdFileText NdWritten at *
  rw [ndSets_congr hL hU, ndPoint_congr env.lg hL hU] at h
  exact h

theorem fileReported_congr (hL : ∀ d < n, L d = L' d) (hU : ∀ d < n, U d = U' d) (sets : List (List (List K))) : FileReported o L U n sets ↔ FileReported o L' U' n sets := by
  unfold FileReported
  rw [ndSets_congr hL hU]

theorem logOk_congr {lg : K → K} (hL : ∀ d < n, L d = L' d) (h : LogOk lg o L n) : LogOk lg o L' n := by
  intro d hd hl
  rw [← hL d hd]
  exact h d hd hl

theorem mem_ndSets {sets : List (List (List K))} {s : List (List K)} (hs : s ∈ ndSets o L U n sets) {r : List K} (hr : r ∈ s) :
    r ∈ sets.flatten ∧ (o.force = true → InBounds n L U r) := by
  unfold ndSets at hs
  obtain ⟨t, ht, rfl⟩ := List.mem_map.1 hs
  have h1 : r ∈ t ∧ (o.force = true → InBounds n L U r) := by
    split_ifs at hr with hf
    · rw [List.mem_filter, decide_eq_true_iff] at hr
      exact ⟨hr.1, fun _ => hr.2⟩
    · exact ⟨hr, fun h => absurd h hf⟩
  refine ⟨?_, h1.2⟩
  split_ifs at ht with hu
  · rw [List.mem_singleton] at ht
    rw [← ht]
    exact h1.1
  · exact List.mem_flatten.2 ⟨t, ht, h1.1⟩

end

/-! ### The bounds of the points -/

/-- The points are between -DBL_MAX and INFINITY. -/
def NdFinite (env : NdEnv K) (n : ℕ) (points : List (List K)) : Prop := ∀ r ∈ points, ∀ d < n, env.negInf ≤ obj r d ∧ obj r d ≤ env.inf

theorem textSets_table {scan : NumScan K} {text : List Char} {n : ℕ} {sets : List (List (List K))} (h : TextSets scan text n sets) :
    TableHolds (blockTable (fun j => sets.flatten.flatten.getD j 0) n 0) n 0 sets.flatten ∧ (cumFrom 0 (sets.map List.length)).getLastD 0 = sets.flatten.length ∧ 0 < sets.flatten.length := by
  obtain ⟨h1, h2, h3, h4⟩ := h.shape
  refine ⟨tableHolds_of_holdsSets (holdsSets_flatten h4), ?_, ?_⟩
  · rw [getLastD_cumFrom _ _ (by simpa using h2), Nat.zero_add, List.length_flatten]
  · obtain ⟨s, hs⟩ := List.exists_mem_of_ne_nil _ h2
    obtain ⟨r, hr⟩ := List.exists_mem_of_ne_nil _ (h3 s hs)
    exact List.length_pos_of_mem (List.mem_flatten.2 ⟨s, hs, hr⟩)

theorem tableHolds_forall {P : ℕ → ℕ → K} {n : ℕ} {rows : List (List K)} (h : TableHolds P n 0 rows) {d : ℕ} (hd : d < n) (p : K → Prop) :
    (∀ r < rows.length, p (P r d)) ↔ ∀ r ∈ rows, p (obj r d) := by
  constructor
  · intro h1 r hr
    obtain ⟨i, hi, rfl⟩ := List.getElem_of_mem hr
    rw [← h.get i hi d hd, Nat.zero_add]
    exact h1 i hi
  · intro h1 i hi
    have := h.get i hi d hd
    rw [Nat.zero_add] at this
    rw [this]
    exact h1 _ (List.getElem_mem hi)

theorem isLeast_of_iff {points : List (List K)} (hne : points ≠ []) {d : ℕ} {m : K} (h : ∀ v, v ≤ m ↔ ∀ r ∈ points, v ≤ obj r d) : IsLeast {x | ∃ r ∈ points, x = obj r d} m := by
  classical
  have hne' : points.toFinset.Nonempty := by simpa [List.toFinset_nonempty_iff] using hne
  obtain ⟨r, hr, hmin⟩ := points.toFinset.exists_min_image (fun r => obj r d) hne'
  rw [List.mem_toFinset] at hr
  have h1 : obj r d ≤ m := (h _).2 fun q hq => hmin q (List.mem_toFinset.2 hq)
  have h2 := (h m).1 le_rfl
  refine ⟨⟨r, hr, le_antisymm (h2 r hr) h1⟩, ?_⟩
  rintro x ⟨q, hq, rfl⟩
  exact h2 q hq

theorem isGreatest_of_iff {points : List (List K)} (hne : points ≠ []) {d : ℕ} {m : K} (h : ∀ v, m ≤ v ↔ ∀ r ∈ points, obj r d ≤ v) : IsGreatest {x | ∃ r ∈ points, x = obj r d} m := by
  classical
  have hne' : points.toFinset.Nonempty := by simpa [List.toFinset_nonempty_iff] using hne
  obtain ⟨r, hr, hmax⟩ := points.toFinset.exists_max_image (fun r => obj r d) hne'
  rw [List.mem_toFinset] at hr
  have h1 : m ≤ obj r d := (h _).2 fun q hq => hmax q (List.mem_toFinset.2 hq)
  have h2 := (h m).1 le_rfl
  refine ⟨⟨r, hr, le_antisymm h1 (h2 r hr)⟩, ?_⟩
  rintro x ⟨q, hq, rfl⟩
  exact h2 q hq

/-- `m` and `M` are the bounds after the points were seen. -/
def SeenBounds (env : NdEnv K) (n : ℕ) (points : List (List K)) (m M : ℕ → K) : Prop :=
  ∀ d < n, (∀ v, v ≤ m d ↔ v ≤ env.inf ∧ ∀ r ∈ points, v ≤ obj r d) ∧ (∀ v, M d ≤ v ↔ env.negInf ≤ v ∧ ∀ r ∈ points, obj r d ≤ v)

theorem SeenBounds.least {env : NdEnv K} {n : ℕ} {points : List (List K)} {m M : ℕ → K} (h : SeenBounds env n points m M) (hne : points ≠ []) (hf : NdFinite env n points) :
    ∀ d < n, IsLeast {x | ∃ r ∈ points, x = obj r d} (m d) ∧ IsGreatest {x | ∃ r ∈ points, x = obj r d} (M d) := by
  intro d hd
  obtain ⟨h1, h2⟩ := h d hd
  obtain ⟨r, hr⟩ := List.exists_mem_of_ne_nil _ hne
  constructor
  · apply isLeast_of_iff hne
    intro v
    rw [h1]
    exact ⟨fun h => h.2, fun h => ⟨(h r hr).trans (hf r hr d hd).2, h⟩⟩
  · apply isGreatest_of_iff hne
    intro v
    rw [h2]
    exact ⟨fun h => h.2, fun h => ⟨(hf r hr d hd).1.trans (h r hr), h⟩⟩

theorem dataBounds_seen {env : NdEnv K} {n : ℕ} {seen : List (List K)} {m M : ℕ → K} (hs : SeenBounds env n seen m M) {P : ℕ → ℕ → K} {rows : List (List K)} (h : TableHolds P n 0 rows) :
    SeenBounds env n (seen ++ rows) (dataBounds env.inf env.negInf n rows.length P (some m) (some M)).1 (dataBounds env.inf env.negInf n rows.length P (some m) (some M)).2 := by
  intro d hd
  obtain ⟨h1, h2, -⟩ := C38_data_bounds_accumulate (inf := env.inf) (negInf := env.negInf) (nobj := n) (rows := rows.length) (data := P) (m := m) (M := M) d hd
  obtain ⟨g1, g2⟩ := hs d hd
  constructor
  · intro v
    rw [h1, g1, tableHolds_forall h hd (fun x => v ≤ x)]
    simp only [List.mem_append, or_imp, forall_and, and_assoc]
  · intro v
    rw [h2, g2, tableHolds_forall h hd (fun x => x ≤ v)]
    simp only [List.mem_append, or_imp, forall_and, and_assoc]

theorem dataBounds_none (env : NdEnv K) (n size : ℕ) (P : ℕ → ℕ → K) :
    dataBounds env.inf env.negInf n size P none none = dataBounds env.inf env.negInf n size P (some fun _ => env.inf) (some fun _ => env.negInf) := rfl

theorem seenBounds_nil (env : NdEnv K) (n : ℕ) : SeenBounds env n [] (fun _ => env.inf) (fun _ => env.negInf) := by
  intro d _
  simp

/-! ### One file -/

/-- The bound that `process_file` is given. -/
def LowerArg (n : ℕ) (lbound : Option (ℕ → K)) (points : List (List K)) (L : ℕ → K) : Prop :=
  match lbound with
  | some l => ∀ d < n, l d = L d
  | none => ∀ d < n, IsLeast {x | ∃ r ∈ points, x = obj r d} (L d)

def UpperArg (n : ℕ) (ubound : Option (ℕ → K)) (points : List (List K)) (U : ℕ → K) : Prop :=
  match ubound with
  | some u => ∀ d < n, u d = U d
  | none => ∀ d < n, IsGreatest {x | ∃ r ∈ points, x = obj r d} (U d)

section
variable {env : NdEnv K} {n : ℕ} {st : NdSt K} {o : NdOpts K} {lbound ubound : Option (ℕ → K)} {cmin cmax : Bool} {dim : ℕ} {dest : Option ℕ} {text : List Char} {sets : List (List (List K))}

theorem ndFile_read (hs : ScanOk env.scan) (hst : StOk n st o) (ht : TextSets env.scan text n sets) (hdim : dim = 0 ∨ dim = n) (hfin : NdFinite env n sets.flatten) :
    ∃ (P : ℕ → ℕ → K) (minmax : ℕ → ℤ) (m M : ℕ → K), TableHolds P n 0 (if o.union then [sets.flatten] else sets).flatten ∧ (∀ k < n, minmax k = minmaxFromBool o.mx k) ∧
      (∀ d < n, IsLeast {x | ∃ r ∈ sets.flatten, x = obj r d} (m d) ∧ IsGreatest {x | ∃ r ∈ sets.flatten, x = obj r d} (M d)) ∧
      ndFile env st lbound ubound cmin cmax dim dest text =
        if lbound.any fun l => cmin && !o.force && anyLessThan m l n then .exit
        else if ubound.any fun u => cmax && !o.force && anyLessThan u M n then .exit
        else ndProcess env st n minmax P (cumFrom 0 ((if o.union then [sets.flatten] else sets).map List.length)) (lbound.getD m) (ubound.getD M) dest := by
  obtain ⟨h1, h2, h3⟩ := textSets_table ht
  have hfl : (if o.union then [sets.flatten] else sets).flatten = sets.flatten := by split_ifs <;> simp
  have hcum : (if st.union then [(cumFrom 0 (sets.map List.length)).getLastD 0] else cumFrom 0 (sets.map List.length)) =
      cumFrom 0 ((if o.union then [sets.flatten] else sets).map List.length) := by
    rw [hst.union, h2]
    split_ifs
    · simp [cumFrom]
    · rfl
  have hsize : (cumFrom 0 ((if o.union then [sets.flatten] else sets).map List.length)).getLastD 0 = sets.flatten.length := by
    rw [getLastD_cumFrom _ _ (by split_ifs <;> simp [ht.shape.2.1]), Nat.zero_add, ← List.length_flatten, hfl]
  refine ⟨_, _, (dataBounds env.inf env.negInf n sets.flatten.length (blockTable (fun j => sets.flatten.flatten.getD j 0) n 0) none none).1,
    (dataBounds env.inf env.negInf n sets.flatten.length (blockTable (fun j => sets.flatten.flatten.getD j 0) n 0) none none).2, by rw [hfl]; exact h1, hst.minmax, ?_, ?_⟩
  rotate_left
  · unfold ndFile
    rw [readFile_ok hs ht hdim]
    dsimp only
    rw [hst.short, hcum, hsize, hst.force]
    rfl
  · rw [dataBounds_none]
    have := dataBounds_seen (seenBounds_nil env n) h1
    rw [List.nil_append] at this
    exact this.least (List.ne_nil_of_length_pos h3) hfin

theorem ndFile_eq (hs : ScanOk env.scan) (hsort : ∀ pp n, SortedPP2d pp n (env.sortFn pp n)) (hst : StOk n st o) (ht : TextSets env.scan text n sets) (hdim : dim = 0 ∨ dim = n)
    (hfin : NdFinite env n sets.flatten) {L U : ℕ → K} (hL : LowerArg n lbound sets.flatten L) (hU : UpperArg n ubound sets.flatten U) (hlog : LogOk env.lg o L n)
    (hin : o.force = false → ∀ r ∈ sets.flatten, InBounds n L U r) (h2 : o.checks = true → ∀ s ∈ ndSets o L U n sets, s.length < 2 ∨ Agree2 n o.agree o.mx) :
    ∃ (dom : Bool) (t : List Char), ndFile env st lbound ubound cmin cmax dim dest text = .done dom (if o.Writes n then some t else none) n ∧
      (dom = true ↔ FileReported o L U n sets) ∧ NdFileText env o L U n dest sets t := by
  obtain ⟨P, minmax, m, M, hP, hm, hmM, e⟩ := ndFile_read (lbound := lbound) (ubound := ubound) (cmin := cmin) (cmax := cmax) (dest := dest) hs hst ht hdim hfin
  have hL' : ∀ d < n, lbound.getD m d = L d := by
    intro d hd
    cases lbound with
    | none => exact (hmM d hd).1.unique (hL d hd)
    | some l => exact hL d hd
  have hU' : ∀ d < n, ubound.getD M d = U d := by
    intro d hd
    cases ubound with
    | none => exact (hmM d hd).2.unique (hU d hd)
    | some l => exact hU d hd
  rw [if_neg, if_neg] at e
  · obtain ⟨dom, t, e1, h3, h4⟩ := ndProcess_eq hsort ht.shape.1 hst hm ht.shape.2.1 hP (lbound.getD m) (ubound.getD M) (logOk_congr (fun d hd => (hL' d hd).symm) hlog)
      (by
        rw [ndSets_congr hL' hU']
        intro s hsm r hr
        rw [inBounds_congr hL' hU']
        obtain ⟨h5, h6⟩ := mem_ndSets hsm hr
        by_cases hf : o.force = true
        · exact h6 hf
        · exact hin (by simpa using hf) r h5) (by rw [ndSets_congr hL' hU']; exact h2) dest
    exact ⟨dom, t, by rw [e, e1], by rw [h3, fileReported_congr hL' hU'], ndFileText_congr hL' hU' h4⟩
  · cases ubound with
    | none => simp
    | some u =>
      rw [Option.any_some, Bool.and_eq_true, Bool.and_eq_true, anyLessThan_iff]
      rintro ⟨⟨-, hf⟩, d, hd, hlt⟩
      obtain ⟨r, hr, he⟩ := (hmM d hd).2.1
      have := (hin (by simpa using hf) r hr d hd).2
      rw [← he, ← hU' d hd] at this
      exact absurd hlt (not_lt.2 this)
  · cases lbound with
    | none => simp
    | some l =>
      rw [Option.any_some, Bool.and_eq_true, Bool.and_eq_true, anyLessThan_iff]
      rintro ⟨⟨-, hf⟩, d, hd, hlt⟩
      obtain ⟨r, hr, he⟩ := (hmM d hd).1.1
      have := (hin (by simpa using hf) r hr d hd).1
      rw [← he, ← hL' d hd] at this
      exact absurd hlt (not_lt.2 this)

/-- A point out of the given bounds. -/
theorem ndFile_out (hs : ScanOk env.scan) (hst : StOk n st o) (ht : TextSets env.scan text n sets) (hdim : dim = 0 ∨ dim = n) (hfin : NdFinite env n sets.flatten) (hf : o.force = false)
    (hout : ∃ r ∈ sets.flatten, ∃ d < n, (cmin = true ∧ ∃ l, lbound = some l ∧ obj r d < l d) ∨ (cmax = true ∧ ∃ u, ubound = some u ∧ u d < obj r d)) :
    ndFile env st lbound ubound cmin cmax dim dest text = .exit := by
  obtain ⟨P, minmax, m, M, hP, hm, hmM, e⟩ := ndFile_read (lbound := lbound) (ubound := ubound) (cmin := cmin) (cmax := cmax) (dest := dest) hs hst ht hdim hfin
  rw [e]
  obtain ⟨r, hr, d, hd, ⟨hc, l, rfl, hlt⟩ | ⟨hc, u, rfl, hlt⟩⟩ := hout
  · rw [if_pos]
    rw [Option.any_some, hc, hf, Bool.not_false, Bool.true_and, Bool.true_and, anyLessThan_iff]
    exact ⟨d, hd, ((hmM d hd).1.2 ⟨r, hr, rfl⟩).trans_lt hlt⟩
  · rw [if_pos (c := ((some u).any _ : Bool) = true)]
    · exact ite_self _
    · rw [Option.any_some, hc, hf, Bool.not_false, Bool.true_and, Bool.true_and, anyLessThan_iff]
      exact ⟨d, hd, hlt.trans_le ((hmM d hd).2.2 ⟨r, hr, rfl⟩)⟩

theorem ndFile_err (hs : ScanOk env.scan) (h : Unreadable env.scan text dim) : ndFile env st lbound ubound cmin cmax dim dest text = .exit := by
  unfold ndFile
  rw [readFile_err hs h]

end

/-! ### Several files -/

section
variable {env : NdEnv K} {n : ℕ} {st : NdSt K} {o : NdOpts K} {lbound ubound : Option (ℕ → K)} {cmin cmax : Bool} {dest : ℕ → Option ℕ} {L U : ℕ → K}

/-- What is written for the files, which have the numbers `k`, `k + 1`, ... -/
inductive NdOutputs (env : NdEnv K) (o : NdOpts K) (L U : ℕ → K) (n : ℕ) (dest : ℕ → Option ℕ) : ℕ → List (List (List (List K))) → List (Option ℕ × List Char) → Prop
  | nil (k : ℕ) : NdOutputs env o L U n dest k [] []
  | cons (k : ℕ) (sets : List (List (List K))) (files : List (List (List (List K)))) (t : List Char) (ts : List (Option ℕ × List Char)) :
      NdFileText env o L U n (dest k) sets t → NdOutputs env o L U n dest (k + 1) files ts → NdOutputs env o L U n dest k (sets :: files) ((dest k, t) :: ts)

/-- The files that can be processed; `rest` are those that follow. -/
theorem ndFiles_eq (hs : ScanOk env.scan) (hsort : ∀ pp n, SortedPP2d pp n (env.sortFn pp n)) (hst : StOk n st o) (hlog : LogOk env.lg o L n) {texts : List (List Char)}
    {files : List (List (List (List K)))} (ht : List.Forall₂ (fun t s => TextSets env.scan t n s) texts files)
    (hfin : ∀ sets ∈ files, NdFinite env n sets.flatten) (hL : ∀ sets ∈ files, LowerArg n lbound sets.flatten L) (hU : ∀ sets ∈ files, UpperArg n ubound sets.flatten U)
    (hin : o.force = false → ∀ sets ∈ files, ∀ r ∈ sets.flatten, InBounds n L U r) (h2 : o.checks = true → ∀ sets ∈ files, ∀ s ∈ ndSets o L U n sets, s.length < 2 ∨ Agree2 n o.agree o.mx) :
    ∀ (dominated : Bool) (dim k : ℕ), dim = 0 ∨ dim = n → ∃ (d : Bool) (ts : List (Option ℕ × List Char)), (d = true ↔ dominated = true ∨ ∃ sets ∈ files, FileReported o L U n sets) ∧
      NdOutputs env o L U n dest k files ts ∧
      ∀ rest, ndFiles env st lbound ubound cmin cmax dest dominated dim k (texts ++ rest) =
        match ndFiles env st lbound ubound cmin cmax dest d (if files = [] then dim else n) (k + files.length) rest with
        | .undefined => .undefined
        | .exit status w => .exit status ((if o.Writes n then ts else []) ++ w) := by
  induction ht with
  | nil =>
    intro dominated dim k hdim
    refine ⟨dominated, [], by simp, .nil k, fun rest => ?_⟩
    simp only [List.nil_append, if_true, List.length_nil, Nat.add_zero]
    cases ndFiles env st lbound ubound cmin cmax dest dominated dim k rest <;> simp
  | @cons text sets texts files ht _ ih =>
    intro dominated dim k hdim
    obtain ⟨dom, t, e, hd, hw⟩ := ndFile_eq (cmin := cmin) (cmax := cmax) (dest := dest k) hs hsort hst ht hdim (hfin sets (by simp)) (hL sets (by simp)) (hU sets (by simp)) hlog
      (fun hf => hin hf sets (by simp)) (fun hc => h2 hc sets (by simp))
    obtain ⟨d, ts, hd', hts, e'⟩ := ih (fun s hs => hfin s (by simp [hs])) (fun s hs => hL s (by simp [hs])) (fun s hs => hU s (by simp [hs]))
      (fun hf s hs => hin hf s (by simp [hs])) (fun hc s hs => h2 hc s (by simp [hs])) (dom || dominated) n (k + 1) (Or.inr rfl)
    refine ⟨d, (dest k, t) :: ts, ?_, .cons k sets files t ts hw hts, fun rest => ?_⟩
    · rw [hd', Bool.or_eq_true, hd]
      simp only [List.mem_cons, exists_eq_or_imp]
      exact or_assoc.trans or_left_comm
    · rw [List.cons_append, ndFiles, e]
      dsimp only
      rw [e' rest]
      simp only [ite_self, reduceCtorEq, if_false, List.length_cons]
      rw [show k + 1 + files.length = k + (files.length + 1) by omega]
      cases ndFiles env st lbound ubound cmin cmax dest d n (k + (files.length + 1)) rest with
      | undefined => rfl
      | exit status w => by_cases hW : o.Writes n <;> simp [hW]

theorem ndFileBounds_eq (hs : ScanOk env.scan) {texts : List (List Char)} {files : List (List (List (List K)))} (ht : List.Forall₂ (fun t s => TextSets env.scan t n s) texts files) :
    ∀ (seen : List (List K)) (m M : ℕ → K) (dim : ℕ), SeenBounds env n seen m M → (dim = 0 ∨ dim = n) → ∃ m' M', SeenBounds env n (seen ++ (files.map List.flatten).flatten) m' M' ∧
      ∀ rest, ndFileBounds env (some m) (some M) dim (texts ++ rest) = ndFileBounds env (some m') (some M') (if files = [] then dim else n) rest := by
  induction ht with
  | nil => intro seen m M dim h _; exact ⟨m, M, by simpa using h, fun rest => by simp⟩
  | @cons text sets texts files ht _ ih =>
    intro seen m M dim h hdim
    obtain ⟨h1, h2, h3⟩ := textSets_table ht
    have h4 := dataBounds_seen h h1
    have e : ∀ rest, ndFileBounds env (some m) (some M) dim (text :: texts ++ rest) =
        ndFileBounds env (some (dataBounds env.inf env.negInf n sets.flatten.length (blockTable (fun j => sets.flatten.flatten.getD j 0) n 0) (some m) (some M)).1)
          (some (dataBounds env.inf env.negInf n sets.flatten.length (blockTable (fun j => sets.flatten.flatten.getD j 0) n 0) (some m) (some M)).2) n (texts ++ rest) := by
      intro rest
      rw [List.cons_append, ndFileBounds, readFile_ok hs ht hdim]
      dsimp only
      rw [h2]
    generalize dataBounds env.inf env.negInf n sets.flatten.length (blockTable (fun j => sets.flatten.flatten.getD j 0) n 0) (some m) (some M) = mm at h4 e
    obtain ⟨m', M', h5, h6⟩ := ih (seen ++ sets.flatten) mm.1 mm.2 n h4 (Or.inr rfl)
    refine ⟨m', M', ?_, fun rest => ?_⟩
    · rw [List.map_cons, List.flatten_cons, ← List.append_assoc]
      exact h5
    · rw [e rest, h6 rest, ite_self, if_neg (List.cons_ne_nil _ _)]

theorem ndFileBounds_none (texts : List (List Char)) (hne : texts ≠ []) (dim : ℕ) :
    ndFileBounds env none none dim texts = ndFileBounds env (some fun _ => env.inf) (some fun _ => env.negInf) dim texts := by
  cases texts with
  | nil => exact absurd rfl hne
  | cons t ts => rfl

end

end Moo
