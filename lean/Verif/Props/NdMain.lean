import Verif.Lemmas.NdMain5
import Mathlib.Data.List.Sort

/-!
# C69: the program `nondominated`
-/

set_option autoImplicit false
set_option linter.unusedSectionVars false

namespace Moo

variable {K : Type*} [Field K] [LinearOrder K] [IsStrictOrderedRing K]

section
variable {env : NdEnv K} {n : ℕ} {args : List NdArg} {o : NdOpts K} {stdin : List Char} {texts : List (List Char)} {files : List (List (List (List K)))} {L U : ℕ → K}

theorem indInputs_ne (stdin : List Char) (texts : List (List Char)) : indInputs stdin texts ≠ [] := by
  unfold indInputs
  split_ifs with h
  · simp
  · exact h

theorem NdCase.pos (h : NdCase env n args o (indInputs stdin texts) files L U) : 0 < n := by
  have ht := h.texts
  cases hi : indInputs stdin texts with
  | nil => exact absurd hi (indInputs_ne stdin texts)
  | cons t ts =>
    rw [hi] at ht
    obtain ⟨sets, _, h1, _, _⟩ := List.forall₂_cons_left_iff.1 ht
    exact h1.shape.1

/-- Where the output for the input number `k` goes: to the standard output if there are no input files. -/
def ndDest (texts : List (List Char)) : ℕ → Option ℕ := fun k => if texts = [] then none else some k

theorem ndMain_output (h : NdCase env n args o (indInputs stdin texts) files L U) (hin : o.force = false → ∀ sets ∈ files, ∀ s ∈ sets, ∀ r ∈ s, InBounds n L U r)
    (h2 : o.checks = true → ∀ sets ∈ files, ∀ s ∈ ndSets o L U n sets, s.length < 2 ∨ Agree2 n o.agree o.mx) :
    ∃ (d : Bool) (ts : List (Option ℕ × List Char)), ndMain env args stdin texts = .exit (if d then 1 else 0) (if o.Writes n then ts else []) ∧
      NdOutputs env o L U n (ndDest texts) 0 files ts ∧ (d = true ↔ ∃ sets ∈ files, FileReported o L U n sets) := by
  obtain ⟨st, lb, ub, cmin, cmax, dim, hst, hdim, hL, hU, -, -, e⟩ := ndMain_eq stdin texts h.pos (indInputs_ne _ _) rfl h
  obtain ⟨d, ts, h3, h4, h5⟩ := ndFiles_eq (cmin := cmin) (cmax := cmax) (dest := ndDest texts) h.scan h.sort hst h.log h.texts h.finite' hL hU (by
    intro hf sets hsets r hr
    obtain ⟨s, hs, hr⟩ := List.mem_flatten.1 hr
    exact hin hf sets hsets s hs r hr) h2 false dim 0 hdim
  refine ⟨d, ts, ?_, h4, by rw [h3]; simp⟩
  have := h5 []
  rw [List.append_nil] at this
  rw [e]
  exact this.trans (by rw [ndFiles]; simp)

/-- **C69 (output)**: if the options mean `o`, the inputs are texts of data sets with `n` objectives, and all points are within given bounds (unless `--force-bounds` is given), the program writes for
every input, in order, a text (see `C69_read_back`) with the sets of the input, united with `--union`, without the points out of bounds with `--force-bounds`, with `--filter` only the nondominated
points of every set, each once, and the objectives transformed.  Without any of the options that ask for it, nothing is written.  Missing bounds are the least and the greatest values of all
inputs.  The status is 0 or 1.

Partial: with two objectives and `--agree` it holds only with `--agree=max` when both objectives are to be maximised (see `C69_agree_min_undefined` and `C69_agree_max_keeps_dominated`). -/
theorem C69_output_partial (h : NdCase env n args o (indInputs stdin texts) files L U) (hin : o.force = false → ∀ sets ∈ files, ∀ s ∈ sets, ∀ r ∈ s, InBounds n L U r)
    (h2 : n = 2 → o.agree = none ∨ (o.agree = some true ∧ ∀ k < n, o.mx k = true)) :
    ∃ (status : ℕ) (ts : List (Option ℕ × List Char)), ndMain env args stdin texts = .exit status (if o.Writes n then ts else []) ∧
      NdOutputs env o L U n (ndDest texts) 0 files ts ∧ status ≤ 1 := by
  obtain ⟨d, ts, h3, h4, _⟩ := ndMain_output h hin (fun _ _ _ _ _ => Or.inr h2)
  exact ⟨_, ts, h3, h4, by split_ifs <;> omega⟩

/-- **C69 (no check)**: with `--no-check` (and without `--filter`) it holds without the restriction, and the status is 0. -/
theorem C69_no_check (h : NdCase env n args o (indInputs stdin texts) files L U) (hin : o.force = false → ∀ sets ∈ files, ∀ s ∈ sets, ∀ r ∈ s, InBounds n L U r) (hc : o.checks = false) :
    ∃ ts : List (Option ℕ × List Char), ndMain env args stdin texts = .exit 0 (if o.Writes n then ts else []) ∧ NdOutputs env o L U n (ndDest texts) 0 files ts := by
  obtain ⟨d, ts, h3, h4, h5⟩ := ndMain_output h hin (by rw [hc]; intro h; cases h)
  refine ⟨ts, ?_, h4⟩
  have : d = false := by
    by_contra hd
    obtain ⟨_, _, h6, _⟩ := h5.1 (by simpa using hd)
    rw [hc] at h6
    cases h6
  rw [h3, this]
  rfl

/-- **C69 (status)**: unless there are two objectives, the status is 1 if and only if the sets are checked and in some of them a point is weakly dominated by another one (or occurs twice).

Partial: with two objectives see `C69_status_two_objectives`. -/
theorem C69_status_partial (h : NdCase env n args o (indInputs stdin texts) files L U) (hin : o.force = false → ∀ sets ∈ files, ∀ s ∈ sets, ∀ r ∈ s, InBounds n L U r) (hn : n ≠ 2) :
    ∃ (status : ℕ) (w : List (Option ℕ × List Char)), ndMain env args stdin texts = .exit status w ∧
      (status = 1 ↔ o.checks = true ∧ ∃ sets ∈ files, ∃ s ∈ ndSets o L U n sets, ¬ MutuallyNondominated n o.mx s) := by
  obtain ⟨d, ts, h3, _, h5⟩ := ndMain_output h hin (fun _ _ _ _ _ => Or.inr fun h => absurd h hn)
  refine ⟨_, _, h3, ?_⟩
  have : (if d then 1 else 0) = 1 ↔ d = true := by cases d <;> simp
  rw [this, h5]
  unfold FileReported Reported
  simp only [if_neg hn]
  constructor
  · rintro ⟨sets, hs, hc, x⟩
    exact ⟨hc, sets, hs, x⟩
  · rintro ⟨hc, sets, hs, x⟩
    exact ⟨sets, hs, hc, x⟩

/-- **C69 (false status)**: with two objectives, the status is 1 if and only if the sets are checked and some of them has at least two points, even if they are mutually nondominated. -/
theorem C69_status_two_objectives (h : NdCase env 2 args o (indInputs stdin texts) files L U) (hin : o.force = false → ∀ sets ∈ files, ∀ s ∈ sets, ∀ r ∈ s, InBounds 2 L U r)
    (h2 : o.agree = none ∨ (o.agree = some true ∧ ∀ k < 2, o.mx k = true)) :
    ∃ (status : ℕ) (w : List (Option ℕ × List Char)), ndMain env args stdin texts = .exit status w ∧
      (status = 1 ↔ o.checks = true ∧ ∃ sets ∈ files, ∃ s ∈ ndSets o L U 2 sets, 2 ≤ s.length) := by
  obtain ⟨d, ts, h3, _, h5⟩ := ndMain_output h hin (fun _ _ _ _ _ => Or.inr fun _ => h2)
  refine ⟨_, _, h3, ?_⟩
  have : (if d then 1 else 0) = 1 ↔ d = true := by cases d <;> simp
  rw [this, h5]
  unfold FileReported Reported
  simp only [if_true]
  constructor
  · rintro ⟨sets, hs, hc, x⟩
    exact ⟨hc, sets, hs, x⟩
  · rintro ⟨hc, sets, hs, x⟩
    exact ⟨sets, hs, hc, x⟩

/-- **C69 (reading the output)**: if the conversion of numbers to text and back gives `rd x` for `x`, and the header has only comment lines, an output file is a text of data sets: those of
`C69_output_partial` that have points, with `rd` applied to the values. -/
theorem C69_read_back {rd : K → K} (hf : FmtOk env.fmt env.scan rd) (hn : 0 < n) {dest : Option ℕ} (hh : ∀ l ∈ env.hdr dest, SepLine l) {sets : List (List (List K))} {t : List Char}
    (h : NdFileText env o L U n dest sets t) (hne : ∃ s ∈ ndSets o L U n sets, s ≠ []) :
    ∃ ws, List.Forall₂ (NdWritten env.lg o L U n) (ndSets o L U n sets) ws ∧ TextSets env.scan t n ((ws.filter fun w => !w.isEmpty).map (List.map (List.map rd))) := by
  obtain ⟨ws, h1, rfl⟩ := h
  refine ⟨ws, h1, textSets_setLines hf hn hh ?_ ?_⟩
  · intro w hw r hr
    obtain ⟨s, _, w0, _, rfl⟩ := ndForall₂_mem_right h1 hw
    obtain ⟨q, _, rfl⟩ := List.mem_map.1 hr
    simp [ndPoint]
  · obtain ⟨s, hs, hne⟩ := hne
    have : ∀ {l : List (List (List K))} {m : List (List (List K))}, List.Forall₂ (NdWritten env.lg o L U n) l m → s ∈ l → ∃ w ∈ m, NdWritten env.lg o L U n s w := by
      intro l m h hs
      obtain ⟨w, hw, h'⟩ := ndForall₂_mem_right (List.Forall₂.flip h) hs
      exact ⟨w, hw, h'⟩
    obtain ⟨w, hw, w0, h2, rfl⟩ := this h1 hs
    refine ⟨_, hw, ?_⟩
    rw [ne_eq, List.map_eq_nil_iff]
    split_ifs at h2 with hfl
    · rintro rfl
      obtain ⟨q, hq⟩ := List.exists_mem_of_ne_nil _ hne
      obtain ⟨i, hi, rfl⟩ := List.getElem_of_mem hq
      obtain ⟨j, hj, hnd, _⟩ := exists_nondominated_weakDom n s.length o.mx (fun i => obj (s.getD i [])) i hi
      have := (h2.2.2 (s.getD j [])).2 ⟨by rw [List.getD_eq_getElem _ _ hj]; exact List.getElem_mem hj, by
        intro q hq
        obtain ⟨k, hk, rfl⟩ := List.getElem_of_mem hq
        have := hnd k hk
        beta_reduce at this
        rwa [List.getD_eq_getElem _ _ hk] at this⟩
      cases this
    · rw [h2]; exact hne

/-! ### Failures -/

/-- **C69 (points out of bounds)**: without `--force-bounds`, at the first input with a point out of the given bounds the program fails, after writing the output for the inputs before it. -/
theorem C69_out_of_bounds (h : NdCase env n args o (indInputs stdin texts) files L U) (hf : o.force = false) (h2 : n = 2 → o.agree = none ∨ (o.agree = some true ∧ ∀ k < n, o.mx k = true))
    (good rest : List (List (List (List K)))) (bad : List (List (List K))) (hfiles : files = good ++ bad :: rest) (hgood : ∀ sets ∈ good, ∀ s ∈ sets, ∀ r ∈ s, InBounds n L U r)
    (hbad : ∃ s ∈ bad, ∃ r ∈ s, ∃ d < n, (o.lower ≠ none ∧ obj r d < L d) ∨ (o.upper ≠ none ∧ U d < obj r d)) :
    ∃ ts, NdOutputs env o L U n (ndDest texts) 0 good ts ∧ ndMain env args stdin texts = .exit 1 (if o.Writes n then ts else []) := by
  obtain ⟨st, lb, ub, cmin, cmax, dim, hst, hdim, hL, hU, hcmin, hcmax, e⟩ := ndMain_eq stdin texts h.pos (indInputs_ne _ _) rfl h
  have ht := h.texts
  have hfin := h.finite'
  subst hfiles
  have ht1 := List.forall₂_take_append _ _ _ ht
  have ht2 := List.forall₂_drop_append _ _ _ ht
  have htt := (List.take_append_drop good.length (indInputs stdin texts)).symm
  obtain ⟨tbad, trest, ht3, ht4, he⟩ := List.forall₂_cons_right_iff.1 ht2
  rw [he] at htt
  obtain ⟨d, ts, h3, h4, h5⟩ := ndFiles_eq (cmin := cmin) (cmax := cmax) (dest := ndDest texts) h.scan h.sort hst h.log ht1 (fun s hs => hfin s (by simp [hs])) (fun s hs => hL s (by simp [hs]))
    (fun s hs => hU s (by simp [hs])) (by
      intro _ sets hsets r hr
      obtain ⟨s, hs, hr⟩ := List.mem_flatten.1 hr
      exact hgood sets hsets s hs r hr) (fun _ _ _ _ _ => Or.inr h2) false dim 0 hdim
  refine ⟨ts, h4, ?_⟩
  have hLb := hL bad (by simp)
  have hUb := hU bad (by simp)
  have hout := ndFile_out (lbound := lb) (ubound := ub) (cmin := cmin) (cmax := cmax) (dim := if good = [] then dim else n) (dest := ndDest texts (0 + good.length)) h.scan hst ht3
    (by split_ifs; exacts [hdim, Or.inr rfl]) (hfin bad (by simp)) hf (by
      obtain ⟨s, hs, r, hr, d, hd, ⟨hx, hlt⟩ | ⟨hx, hlt⟩⟩ := hbad
      · obtain ⟨hc, hne⟩ := hcmin hx
        obtain ⟨l, rfl⟩ := Option.ne_none_iff_exists'.1 hne
        exact ⟨r, List.mem_flatten.2 ⟨s, hs, hr⟩, d, hd, Or.inl ⟨hc, l, rfl, by rw [hLb d hd]; exact hlt⟩⟩
      · obtain ⟨hc, hne⟩ := hcmax hx
        obtain ⟨l, rfl⟩ := Option.ne_none_iff_exists'.1 hne
        exact ⟨r, List.mem_flatten.2 ⟨s, hs, hr⟩, d, hd, Or.inr ⟨hc, l, rfl, by rw [hUb d hd]; exact hlt⟩⟩)
  rw [e, htt]
  refine (h5 (tbad :: trest)).trans ?_
  rw [ndFiles, hout]
  simp

end

section
variable {env : NdEnv K}

theorem ndOptions_append (pre rest : List NdArg) : ∀ st : NdSt K, ndOptions env st (pre ++ rest) = match ndOptions env st pre with
    | .ok st => ndOptions env st rest
    | .exit s => .exit s
    | .undefined => .undefined := by
  induction pre with
  | nil => intro st; rfl
  | cons a pre ih =>
    intro st
    rw [List.cons_append]
    cases a with
    | noCheck => rw [ndOptions, ndOptions]; exact ih _
    | filter => rw [ndOptions, ndOptions]; exact ih _
    | forceBounds => rw [ndOptions, ndOptions]; exact ih _
    | union => rw [ndOptions, ndOptions]; exact ih _
    | maximise => rw [ndOptions, ndOptions]; exact ih _
    | obj str =>
      rw [ndOptions, ndOptions]
      cases readMinmax env.junk str st.dim with
      | null => rfl
      | exit => rfl
      | ok m d => exact ih _
    | agree str =>
      rw [ndOptions, ndOptions]
      split_ifs
      · exact ih _
      · exact ih _
      · rfl
    | normalise str =>
      rw [ndOptions, ndOptions]
      rcases readRange env.scan str with _ | ⟨lo, hi⟩
      · rfl
      · dsimp only
        split_ifs
        · rfl
        · exact ih _
    | upper str =>
      rw [ndOptions, ndOptions]
      rcases readPoint env.scan str with _ | _ | p
      · rfl
      · rfl
      · exact ih _
    | lower str =>
      rw [ndOptions, ndOptions]
      rcases readPoint env.scan str with _ | _ | p
      · rfl
      · rfl
      · exact ih _
    | log str =>
      rw [ndOptions, ndOptions]
      rcases readBitvector str with _ | p
      · rfl
      · exact ih _

/-- An option with a wrong argument, and the status with which the program ends because of it. -/
def BadNdArg (scan : NumScan K) (a : NdArg) (status : ℕ) : Prop :=
  match a with
  | .obj str => ((∃ c ∈ str, directionOf c = none) ∧ status = 1) ∨ ((∀ c ∈ str, directionOf c = some 0) ∧ status = 0)
  | .agree str => str ≠ ['m', 'a', 'x'] ∧ str ≠ ['m', 'i', 'n'] ∧ status = 1
  | .normalise str => (¬ ∃ lo hi, NumbersArg scan str [lo, hi] ∧ lo < hi) ∧ status = 1
  | .upper str => (¬ ∃ vs, vs ≠ [] ∧ NumbersArg scan str vs) ∧ status = 1
  | .lower str => (¬ ∃ vs, vs ≠ [] ∧ NumbersArg scan str vs) ∧ status = 1
  | .log str => (∃ c ∈ str, c ≠ '0' ∧ c ≠ '1') ∧ status = 1
  | _ => False

theorem readRange_numbers {scan : NumScan K} {str : List Char} {lo hi : K} (h : readRange scan str = some (lo, hi)) : NumbersArg scan str [lo, hi] := by
  unfold readRange at h
  cases h1 : scan (str.dropWhile isSpaceC) with
  | none => rw [h1] at h; cases h
  | some p =>
    obtain ⟨a, r⟩ := p
    rw [h1] at h
    dsimp only at h
    cases h2 : scan (r.dropWhile isSpaceC) with
    | none => rw [h2] at h; cases h
    | some q =>
      obtain ⟨b, r'⟩ := q
      rw [h2] at h
      dsimp only at h
      split_ifs at h with h3
      cases h
      exact .cons _ _ _ _ h1 (.cons _ _ _ _ h2 (.nil _ (by rw [List.all_eq_true] at h3; exact h3)))

/-- **C69 (wrong options)**: after options that are right, the first one with a wrong argument makes the program fail and nothing is written: with status 1, except that with `--obj` with only ignored
objectives the status is 0. -/
theorem C69_bad_option (hs : ScanOk env.scan) {n : ℕ} (hn : 0 < n) (pre post : List NdArg) (a : NdArg) (o : NdOpts K) (hpre : NdMeans env.scan n pre o) {status : ℕ}
    (hbad : BadNdArg env.scan a status) (stdin : List Char) (texts : List (List Char)) : ndMain env (pre ++ a :: post) stdin texts = .exit status [] := by
  obtain ⟨st, e, hst⟩ := ndOptions_ok hs hn hpre
  have key : ndOptions env st (a :: post) = .exit status := by
    cases a with
    | noCheck => exact hbad.elim
    | filter => exact hbad.elim
    | forceBounds => exact hbad.elim
    | union => exact hbad.elim
    | maximise => exact hbad.elim
    | obj str =>
      rcases hbad with ⟨h, rfl⟩ | ⟨h, rfl⟩
      · rw [ndOptions, (C44_null env.junk str st.dim).2 h]
      · rw [ndOptions, (C44_exit env.junk str st.dim).2 h]
    | agree str => obtain ⟨h1, h2, rfl⟩ := hbad; rw [ndOptions, if_neg h1, if_neg h2]
    | normalise str =>
      obtain ⟨h, rfl⟩ := hbad
      rw [ndOptions]
      cases hr : readRange env.scan str with
      | none => rfl
      | some p =>
        obtain ⟨lo, hi⟩ := p
        dsimp only
        rw [if_pos]
        by_contra hlt
        exact h ⟨lo, hi, readRange_numbers hr, not_le.1 hlt⟩
    | upper str => obtain ⟨h, rfl⟩ := hbad; rw [ndOptions, readPoint_err hs h]
    | lower str => obtain ⟨h, rfl⟩ := hbad; rw [ndOptions, readPoint_err hs h]
    | log str =>
      obtain ⟨⟨c, hc, h0, h1⟩, rfl⟩ := hbad
      rw [ndOptions]
      cases hr : readBitvector str with
      | none => rfl
      | some p => exact absurd ((C44_bitvector str).1.1 (by rw [hr]; simp) c hc) (by simp [h0, h1])
  unfold ndMain
  rw [ndOptions_append, e]
  dsimp only
  rw [key]

/-- **C69 (bounds in the wrong order)**: if both bounds are given and in some objective the upper one is less than the lower one, the program fails and nothing is written. -/
theorem C69_bounds_order (hs : ScanOk env.scan) {n : ℕ} (hn : 0 < n) (args : List NdArg) (o : NdOpts K) (h : NdMeans env.scan n args o) (l u : List K) (hl : o.lower = some l) (hu : o.upper = some u)
    (hlt : ∃ d < n, obj u d < obj l d) (stdin : List Char) (texts : List (List Char)) : ndMain env args stdin texts = .exit 1 [] := by
  obtain ⟨st, e, hst⟩ := ndOptions_ok hs hn h
  unfold ndMain
  rw [e]
  dsimp only
  rw [if_neg, if_pos]
  · rw [hst.lower, hst.upper, hl, hu]
    simp only [Option.map_some, Option.any_some]
    rw [anyLessThan_iff, hst.given (Or.inl (by rw [hst.lower, hl]; simp))]
    obtain ⟨d, hd, hlt⟩ := hlt
    refine ⟨d, hd, ?_⟩
    rw [arrayFn_given (hst.lower_length l hl) d hd, arrayFn_given (hst.upper_length u hu) d hd]
    exact hlt
  · rw [hst.lower, hst.upper, hl, hu]
    have h1 := hst.lower_length l hl
    have h2 := hst.upper_length u hu
    rcases hst.dim with h3 | h3 <;> simp [h1, h2, h3]

/-- **C69 (unreadable input)**: if the only input is not a text of data sets, or has not `n` objectives when the number is known from the options, the program fails and nothing is written. -/
theorem C69_unreadable (hs : ScanOk env.scan) {n : ℕ} (hn : 0 < n) (args : List NdArg) (o : NdOpts K) (h : NdMeans env.scan n args o)
    (hord : ∀ l u, o.lower = some l → o.upper = some u → ∀ d < n, obj l d ≤ obj u d) (stdin : List Char) (texts : List (List Char)) (text : List Char) (hin : indInputs stdin texts = [text])
    (hbad : Unreadable env.scan text 0 ∨ ((∃ str, NdArg.lower str ∈ args ∨ NdArg.upper str ∈ args) ∧ Unreadable env.scan text n)) : ndMain env args stdin texts = .exit 1 [] := by
  obtain ⟨st, hst, hmain⟩ := ndMain_run hs hn h hord stdin texts
  have hun : Unreadable env.scan text st.dim := by
    have mono : Unreadable env.scan text 0 → Unreadable env.scan text st.dim := fun hu => ⟨hu.1, fun ⟨m, sets, _, ht⟩ => hu.2 ⟨m, sets, Or.inl rfl, ht⟩⟩
    rcases hbad with hu | ⟨⟨str, hstr⟩, hu⟩
    · exact mono hu
    · have : st.dim = n := by
        apply hst.given
        rcases hstr with hstr | hstr
        · obtain ⟨vs, h1, _⟩ := h.lower str hstr
          left; rw [hst.lower, h1]; simp
        · obtain ⟨vs, h1, _⟩ := h.upper str hstr
          right; rw [hst.upper, h1]; simp
      rw [this]; exact hu
  have key : ∀ lb ub cmin cmax dest k dominated, ndFiles env st lb ub cmin cmax dest dominated st.dim k [text] = .exit 1 [] := by
    intro lb ub cmin cmax dest k dominated
    rw [ndFiles, ndFile_err hs hun]
  rw [hmain]
  match texts, hin with
  | [], hin =>
    have : stdin = text := by simpa [indInputs] using hin
    subst this
    rw [ndRun]
    exact key _ _ _ _ _ _ _
  | [file], hin =>
    have : file = text := by simpa [indInputs] using hin
    subst this
    rw [ndRun]
    exact key _ _ _ _ _ _ _
  | t1 :: t2 :: ts, hin => simp [indInputs] at hin

/-- **C69 (unreadable input, several files)**: if a bound is missing, the bounds of all files are computed first, so that an unreadable file makes the program fail before anything is written. -/
theorem C69_unreadable_bounds (hs : ScanOk env.scan) {n : ℕ} (hn : 0 < n) (args : List NdArg) (o : NdOpts K) (h : NdMeans env.scan n args o) (hmiss : o.lower = none ∨ o.upper = none)
    (stdin : List Char) (good rest : List (List Char)) (bad : List Char) (htwo : good ≠ [] ∨ rest ≠ []) (files : List (List (List (List K))))
    (hgood : List.Forall₂ (fun t sets => TextSets env.scan t n sets) good files) (hbad : Unreadable env.scan bad (if good = [] then 0 else n)) :
    ndMain env args stdin (good ++ bad :: rest) = .exit 1 [] := by
  obtain ⟨st, hst, hmain⟩ := ndMain_run hs hn h (by
    intro l u hl hu
    rcases hmiss with h | h
    · rw [h] at hl; cases hl
    · rw [h] at hu; cases hu) stdin (good ++ bad :: rest)
  rw [hmain]
  have hb : ((st.lower.map arrayFn).isNone || (st.upper.map arrayFn).isNone) = true := by
    rw [hst.lower, hst.upper]
    rcases hmiss with h | h <;> simp [h]
  obtain ⟨m, M, _, h2⟩ := ndFileBounds_eq hs hgood [] _ _ st.dim (seenBounds_nil env n) hst.dim
  have hun : Unreadable env.scan bad (if files = [] then st.dim else n) := by
    have mono : Unreadable env.scan bad 0 → ∀ k, Unreadable env.scan bad k := fun hu k => ⟨hu.1, fun ⟨m, sets, _, ht⟩ => hu.2 ⟨m, sets, Or.inl rfl, ht⟩⟩
    split_ifs with hfe
    · subst hfe
      rw [List.forall₂_nil_right_iff] at hgood
      rw [if_pos hgood] at hbad
      exact mono hbad _
    · rw [if_neg] at hbad
      · exact hbad
      · rintro rfl
        rw [List.forall₂_nil_left_iff] at hgood
        exact hfe hgood
  have e : ndFileBounds env none none st.dim (good ++ bad :: rest) = some none := by
    rw [ndFileBounds_none _ (by simp), h2, ndFileBounds, readFile_err hs hun]
  have hlen : ∃ t1 t2 ts, good ++ bad :: rest = t1 :: t2 :: ts := by
    match good, rest, htwo with
    | [], [], htwo => simp at htwo
    | [], r :: rest, _ => exact ⟨bad, r, rest, rfl⟩
    | [g], rest, _ => exact ⟨g, bad, rest, rfl⟩
    | g :: g' :: good, rest, _ => exact ⟨g, g', good ++ bad :: rest, rfl⟩
  obtain ⟨t1, t2, ts, he⟩ := hlen
  rw [he] at e ⊢
  unfold ndRun
  dsimp only
  rw [if_pos hb, e]

/-- **C69 (unreadable input, both bounds given)**: the program fails after writing the output for the files before it. -/
theorem C69_unreadable_given (hs : ScanOk env.scan) (hsort : ∀ pp n, SortedPP2d pp n (env.sortFn pp n)) {n : ℕ} (args : List NdArg) (o : NdOpts K) (h : NdMeans env.scan n args o) (l u : List K)
    (hl : o.lower = some l) (hu : o.upper = some u) (hord : ∀ d < n, obj l d ≤ obj u d) (hlog : LogOk env.lg o (obj l) n) (stdin : List Char) (good rest : List (List Char)) (bad : List Char)
    (files : List (List (List (List K)))) (hgood : List.Forall₂ (fun t sets => TextSets env.scan t n sets) good files)
    (hfin : ∀ sets ∈ files, ∀ s ∈ sets, ∀ r ∈ s, ∀ d < n, env.negInf ≤ obj r d ∧ obj r d ≤ env.inf) (hin : o.force = false → ∀ sets ∈ files, ∀ s ∈ sets, ∀ r ∈ s, InBounds n (obj l) (obj u) r)
    (h2 : n = 2 → o.agree = none ∨ (o.agree = some true ∧ ∀ k < n, o.mx k = true)) (hn : 0 < n) (hbad : Unreadable env.scan bad n) :
    ∃ ts, NdOutputs env o (obj l) (obj u) n some 0 files ts ∧ ndMain env args stdin (good ++ bad :: rest) = .exit 1 (if o.Writes n then ts else []) := by
  obtain ⟨st, hst, hmain⟩ := ndMain_run hs hn h (by
    intro l' u' hl' hu'
    rw [hl] at hl'; rw [hu] at hu'; cases hl'; cases hu'
    exact hord) stdin (good ++ bad :: rest)
  have hdim : st.dim = n := hst.given (Or.inl (by rw [hst.lower, hl]; simp))
  obtain ⟨d, ts, -, h4, h5⟩ := ndFiles_eq (lbound := some (arrayFn (l ++ [0]))) (ubound := some (arrayFn (u ++ [0]))) (cmin := true) (cmax := true) (dest := some) hs hsort hst hlog hgood
    (by
      intro sets hsets r hr d hd
      obtain ⟨s, hs, hr⟩ := List.mem_flatten.1 hr
      exact hfin sets hsets s hs r hr d hd)
    (fun _ _ => arrayFn_given (hst.lower_length l hl)) (fun _ _ => arrayFn_given (hst.upper_length u hu)) (by
      intro hf sets hsets r hr
      obtain ⟨s, hs, hr⟩ := List.mem_flatten.1 hr
      exact hin hf sets hsets s hs r hr) (fun _ _ _ _ _ => Or.inr h2) false st.dim 0 hst.dim
  refine ⟨ts, h4, ?_⟩
  have e : ndMain env args stdin (good ++ bad :: rest) = ndFiles env st (some (arrayFn (l ++ [0]))) (some (arrayFn (u ++ [0]))) true true some false st.dim 0 (good ++ bad :: rest) := by
    rw [hmain, hst.lower, hst.upper, hl, hu]
    match good, rest with
    | [], [] => rfl
    | [], r :: rest => rfl
    | [g], rest => rfl
    | g :: g' :: good, rest => rfl
  rw [e]
  refine (h5 (bad :: rest)).trans ?_
  rw [ndFiles, ndFile_err hs (by rw [hdim, ite_self]; exact hbad)]
  simp

end

/-! ### Two objectives and `--agree` -/

section
variable {env : NdEnv K} {args : List NdArg} {o : NdOpts K} {stdin : List Char} {texts : List (List Char)} {files : List (List (List (List K)))} {L U : ℕ → K}

theorem checkNondominated_assert {P : ℕ → ℕ → K} {minmax : ℕ → ℤ} (sets : List (List (List K))) : ∀ start, (∃ s ∈ sets, 2 ≤ s.length) →
    checkNondominated env P 2 minmax (-1) start (cumFrom start (sets.map List.length)) = .assertFail := by
  induction sets with
  | nil => rintro start ⟨s, hs, _⟩; cases hs
  | cons s sets ih =>
    intro start hex
    rw [List.map_cons, cumFrom, checkNondominated, Nat.add_sub_cancel_left]
    by_cases h2 : 2 ≤ s.length
    · unfold findNondominatedSetAgree findNondominatedSet_
      rw [if_neg (by omega), if_pos rfl, forceAgreeMinimize, if_pos (show (-1 : ℤ) = AGREE_MINIMISE from rfl)]
    · unfold findNondominatedSetAgree findNondominatedSet_
      rw [if_pos (by omega)]
      dsimp only
      rw [if_neg (lt_irrefl _), ih (start + s.length) (by
        obtain ⟨t, ht, hl⟩ := hex
        rcases List.mem_cons.1 ht with rfl | ht
        · exact absurd hl h2
        · exact ⟨t, ht, hl⟩)]

/-- **C69 (`--agree=min`)**: with two objectives and `--agree=min`, if the sets are checked and some of them has at least two points, the program fails an assertion (undefined with `NDEBUG`). -/
theorem C69_agree_min_undefined (h : NdCase env 2 args o (indInputs stdin texts) files L U) (hin : o.force = false → ∀ sets ∈ files, ∀ s ∈ sets, ∀ r ∈ s, InBounds 2 L U r)
    (ha : o.agree = some false) (hc : o.checks = true) (hex : ∃ sets ∈ files, ∃ s ∈ ndSets o L U 2 sets, 2 ≤ s.length) : ndMain env args stdin texts = .undefined := by
  obtain ⟨st, lb, ub, cmin, cmax, dim, hst, hdim, hL, hU, -, -, e⟩ := ndMain_eq stdin texts h.pos (indInputs_ne _ _) rfl h
  rw [e]
  have hfin := h.finite'
  have ht := h.texts
  generalize indInputs stdin texts = inputs at ht
  generalize false = dominated
  generalize 0 = k
  clear e
  have hin' : o.force = false → ∀ sets ∈ files, ∀ r ∈ sets.flatten, InBounds 2 L U r := by
    intro hf sets hsets r hr
    obtain ⟨s, hs, hr⟩ := List.mem_flatten.1 hr
    exact hin hf sets hsets s hs r hr
  have hscan := h.scan
  have hsort := h.sort
  have hlog := h.log
  clear h hin
  induction ht generalizing dominated k dim with
  | nil => obtain ⟨s, hs, _⟩ := hex; cases hs
  | @cons text sets inputs files ht _ ih =>
    rw [ndFiles]
    by_cases hx : ∃ s ∈ ndSets o L U 2 sets, 2 ≤ s.length
    · obtain ⟨P, minmax, m, M, hP, hm, hmM, e⟩ := ndFile_read (lbound := lb) (ubound := ub) (cmin := cmin) (cmax := cmax) (dest := if texts = [] then none else some k) hscan hst ht hdim
        (hfin sets (by simp))
      have hL0 := hL sets (by simp)
      have hU0 := hU sets (by simp)
      have hL' : ∀ d < 2, lb.getD m d = L d := by
        intro d hd
        cases lb with
        | none => exact (hmM d hd).1.unique (hL0 d hd)
        | some l => exact hL0 d hd
      have hU' : ∀ d < 2, ub.getD M d = U d := by
        intro d hd
        cases ub with
        | none => exact (hmM d hd).2.unique (hU0 d hd)
        | some l => exact hU0 d hd
      rw [e, if_neg, if_neg]
      · unfold ndProcess
        have hne' : (if o.union then [sets.flatten] else sets) ≠ [] := by split_ifs <;> simp [ht.shape.2.1]
        obtain ⟨P', e1, hP'⟩ := ndForce_eq hst (lb.getD m) (ub.getD M) hne' hP
        change ndForce st 2 P _ (lb.getD m) (ub.getD M) = some (P', cumFrom 0 ((ndSets o (lb.getD m) (ub.getD M) 2 sets).map List.length)) at e1
        rw [e1, ndSets_congr hL' hU']
        dsimp only
        rw [hst.check, hc, if_pos rfl, hst.agree, ha]
        rw [show agreeInt (some false) = -1 from rfl, checkNondominated_assert _ _ hx]
      · cases ub with
        | none => simp
        | some u =>
          rw [Option.any_some, Bool.and_eq_true, Bool.and_eq_true, anyLessThan_iff]
          rintro ⟨⟨-, hf⟩, d, hd, hlt⟩
          obtain ⟨r, hr, he⟩ := (hmM d hd).2.1
          have := (hin' (by simpa using hf) sets (by simp) r hr d hd).2
          rw [← he, ← hU' d hd] at this
          exact absurd hlt (not_lt.2 this)
      · cases lb with
        | none => simp
        | some l =>
          rw [Option.any_some, Bool.and_eq_true, Bool.and_eq_true, anyLessThan_iff]
          rintro ⟨⟨-, hf⟩, d, hd, hlt⟩
          obtain ⟨r, hr, he⟩ := (hmM d hd).1.1
          have := (hin' (by simpa using hf) sets (by simp) r hr d hd).1
          rw [← he, ← hL' d hd] at this
          exact absurd hlt (not_lt.2 this)
    · obtain ⟨dom, t, e, hd, hw⟩ := ndFile_eq (cmin := cmin) (cmax := cmax) (dest := if texts = [] then none else some k) hscan hsort hst ht hdim (hfin sets (by simp)) (hL sets (by simp))
        (hU sets (by simp)) hlog (fun hf => hin' hf sets (by simp)) (fun _ s hs => Or.inl (by push Not at hx; exact hx s hs))
      rw [e]
      dsimp only
      rw [ih (by
        obtain ⟨s, hs, h2⟩ := hex
        rcases List.mem_cons.1 hs with rfl | hs
        · exact absurd h2 hx
        · exact ⟨s, hs, h2⟩) 2 (Or.inr rfl) (fun s hs => hL s (by simp [hs])) (fun s hs => hU s (by simp [hs])) (fun s hs => hfin s (by simp [hs])) _ _ (fun hf s hs => hin' hf s (by simp [hs]))]

end

/-! ### Examples -/

/-- A sort as needed. -/
def sortPP (pp : ℕ → ℕ → ℚ) (m : ℕ) : List ℕ := (List.range m).insertionSort fun a b => compareXascYasc (pp a) (pp b) ≤ 0

theorem sortPP_ok (pp : ℕ → ℕ → ℚ) (m : ℕ) : SortedPP2d pp m (sortPP pp m) := by
  refine ⟨List.perm_insertionSort _ _, ?_⟩
  have : Std.Total fun a b => compareXascYasc (pp a) (pp b) ≤ 0 := ⟨fun a b => by
    simp only [compareXascYasc_le]
    rcases lt_trichotomy (pp a 0) (pp b 0) with h | h | h
    · exact Or.inl (Or.inl h)
    · rcases le_total (pp a 1) (pp b 1) with h' | h'
      · exact Or.inl (Or.inr ⟨h, h'⟩)
      · exact Or.inr (Or.inr ⟨h.symm, h'⟩)
    · exact Or.inr (Or.inl h)⟩
  have : IsTrans ℕ fun a b => compareXascYasc (pp a) (pp b) ≤ 0 := ⟨fun a b c hab hbc => by
    simp only [compareXascYasc_le] at *
    rcases hab with h | h <;> rcases hbc with h' | h'
    · exact Or.inl (h.trans h')
    · exact Or.inl (h'.1 ▸ h)
    · exact Or.inl (h.1 ▸ h')
    · exact Or.inr ⟨h.1.trans h'.1, h.2.trans h'.2⟩⟩
  exact List.pairwise_insertionSort _ _

/-- An environment in which numbers are read as integers and written as their integer parts, without a header. -/
def ratEnv : NdEnv ℚ := ⟨scanRat, fun _ => 0, 1000000, -1000000, id, sortPP, fun _ => false, fun x => intText x.floor, fun _ => []⟩

/-- What the program writes, as strings. -/
def ndShow (r : ProgOut (Option ℕ × List Char)) : Option (ℕ × List (Option ℕ × String)) := r.toOption.map fun p => (p.1, p.2.map fun q => (q.1, String.ofList q.2))

/-- **C69 (false status)**: (1, 2) and (2, 1) are mutually nondominated, and the status is 1. -/
theorem C69_false_status : ndShow (ndMain ratEnv [] "1 2\n2 1\n".toList []) = some (1, []) := by decide +kernel

/-- **C69 (`--agree=max`)**: two objectives to be minimised; of (1, 2) and (2, 3), only the second one is written: the dominated one. -/
theorem C69_agree_max_keeps_dominated : ndShow (ndMain ratEnv [.agree "max".toList, .filter] "1 2\n2 3\n".toList []) = some (1, [(none, "-2 -3\n\n")]) := by decide +kernel

/-- **C69 (short bounds)**: a missing last number of `--lower-bound` counts as 0; if two are missing the program reads beyond the array. -/
theorem C69_short_bounds : ndShow (ndMain ratEnv [.lower "1 1".toList, .upper "5 5 5".toList, .forceBounds] "2 2 -1\n2 3 3\n".toList []) = some (0, [(none, "2 3 3\n\n")]) ∧
    ndShow (ndMain ratEnv [.lower "1".toList, .upper "5 5 5".toList, .forceBounds] "2 2 -1\n2 3 3\n".toList []) = none := by
  constructor <;> decide +kernel

/-- Three objectives, the second one to be maximised, two sets in a file; lower bounds are given, the upper ones are those of the points; points out of bounds are removed, and the rest is filtered. -/
theorem ndCase_example : NdCase ratEnv 3 [.obj "-+-".toList, .lower "0 0 0".toList, .forceBounds, .filter] ⟨true, true, true, false, none, none, some [0, 0, 0], none, none, fun k => k == 1⟩
    ["1 2 3\n1 1 3\n-1 5 1\n\n4 4 4\n".toList] [[[[1, 2, 3], [1, 1, 3], [-1, 5, 1]], [[4, 4, 4]]]] (fun _ => 0) (fun k => if k = 0 then 4 else if k = 1 then 5 else 4) where
  scan := scanRat_ok
  sort := sortPP_ok
  means :=
    { checks := by simp
      filter := by simp
      force := by simp
      union := by simp
      directions := by
        intro str h
        simp only [List.mem_cons, NdArg.obj.injEq, reduceCtorEq, List.not_mem_nil, or_false] at h
        subst h
        exact ⟨rfl, by intro k hk; interval_cases k <;> rfl⟩
      no_directions := fun h => absurd (List.mem_cons_self) (h _)
      agree := by simp
      no_agree := by simp
      range := by simp
      no_range := by simp
      lower := by
        intro str h
        simp only [List.mem_cons, NdArg.lower.injEq, reduceCtorEq, List.not_mem_nil, or_false, false_or] at h
        subst h
        exact ⟨_, rfl, .cons _ " 0 0".toList _ _ (by decide +kernel) (.cons _ " 0".toList _ _ (by decide +kernel) (.cons _ [] _ _ (by decide +kernel) (.nil _ (by simp)))), rfl⟩
      no_lower := fun h => absurd (by simp) (h "0 0 0".toList)
      upper := by simp
      no_upper := by simp
      log := by simp
      no_log := by simp }
  texts := .cons (by
    have := (checkText_sound (scan := scanInt) (s := "1 2 3\n1 1 3\n-1 5 1\n\n4 4 4\n".toList) (n := 3) (sets := [[[1, 2, 3], [1, 1, 3], [-1, 5, 1]], [[4, 4, 4]]])
      (by decide +kernel)).scanMap (fun z : ℤ => (z : ℚ))
    change TextSets (scanMap (fun z : ℤ => (z : ℚ)) scanInt) _ _ _
    simpa using this) .nil
  finite := by
    intro sets h1 s h2 r h3 d hd
    simp only [List.mem_cons, List.not_mem_nil, or_false] at h1
    subst h1
    simp only [List.mem_cons, List.not_mem_nil, or_false] at h2
    rcases h2 with rfl | rfl <;> simp only [List.mem_cons, List.not_mem_nil, or_false] at h3 <;> rcases h3 with rfl | rfl | rfl <;> interval_cases d <;> norm_num [ratEnv, obj]
  lower := by
    intro d hd
    interval_cases d <;> rfl
  upper := by
    intro d hd
    interval_cases d <;> constructor <;> first
      | (rintro x ⟨r, hr, rfl⟩
         simp only [List.flatten_cons, List.flatten_nil, List.append_nil, List.cons_append, List.nil_append, List.mem_cons, List.not_mem_nil, or_false] at hr
         rcases hr with rfl | rfl | rfl | rfl <;> norm_num [obj])
      | simp [obj]
  ordered := fun _ h => absurd rfl h
  log := by
    intro d _ h
    simp [NdOpts.logs] at h

/-- The theorems apply to it, and the program writes this. -/
example : ∃ (status : ℕ) (ts : List (Option ℕ × List Char)),
    ndMain ratEnv [.obj "-+-".toList, .lower "0 0 0".toList, .forceBounds, .filter] "1 2 3\n1 1 3\n-1 5 1\n\n4 4 4\n".toList [] = .exit status ts ∧ status ≤ 1 := by
  obtain ⟨status, ts, h, _, h'⟩ := C69_output_partial (stdin := "1 2 3\n1 1 3\n-1 5 1\n\n4 4 4\n".toList) (texts := []) ndCase_example (fun h => by cases h) (by omega)
  exact ⟨status, _, h, h'⟩

example : ndShow (ndMain ratEnv [.obj "-+-".toList, .lower "0 0 0".toList, .forceBounds, .filter] "1 2 3\n1 1 3\n-1 5 1\n\n4 4 4\n".toList []) = some (1, [(none, "1 2 3\n\n4 4 4\n\n")]) := by
  decide +kernel

/-- Two files; the first objective is normalised between 1 and the greatest value 5 of both files (and so on), to the range [0, 8]. -/
example : ndShow (ndMain ratEnv [.normalise "0 8".toList, .noCheck] [] ["1 7\n3 5\n".toList, "5 3\n".toList]) = some (0, [(some 0, "0 8\n4 4\n\n"), (some 1, "8 0\n\n")]) := by
  decide +kernel

/-- A point out of bounds. -/
example : ndShow (ndMain ratEnv [.upper "4 8 9".toList, .filter] [] ["1 7 1\n3 5 1\n".toList, "5 3 1\n".toList, "1 1 1".toList]) = some (1, [(some 0, "1 7 1\n3 5 1\n\n")]) := by
  decide +kernel

/-- Two objectives, `--agree=min`. -/
example : ndShow (ndMain ratEnv [.agree "min".toList] "1 2\n2 1\n".toList []) = none := by decide +kernel

/-- A wrong option after a right one. -/
example : ndMain ratEnv [.filter, .agree "most".toList, .union] "1 2\n2 1\n".toList [] = .exit 1 [] :=
  C69_bad_option (n := 2) scanRat_ok (by omega) [.filter] [.union] (.agree "most".toList) ⟨true, true, false, false, none, none, none, none, none, fun _ => false⟩
    ⟨by simp, by simp, by simp, by simp, by simp, by simp, by simp, by simp, by simp, by simp, by simp, by simp, by simp, by simp, by simp, by simp⟩ ⟨by decide, by decide, rfl⟩ _ _

end Moo
