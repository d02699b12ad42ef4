import Verif.Lemmas.NdMain4
import Verif.Lemmas.CliExample

/-!
# Lemmas for the program `nondominated`: the text that is written, and the program
-/

set_option autoImplicit false
set_option linter.unusedSectionVars false

namespace Moo

/-- What the lines of `setLines` are read as. -/
theorem textSets_setLines {V : Type*} [Zero V] {fmt : V → List Char} {scan : NumScan V} {rd : V → V} (hf : FmtOk fmt scan rd) {n : ℕ} (hn : 0 < n)
    {pre : List (List Char)} {sets : List (List (List V))} (hpre : ∀ l ∈ pre, SepLine l) (hrows : ∀ s ∈ sets, ∀ r ∈ s, r.length = n) (hne : ∃ s ∈ sets, s ≠ []) :
    TextSets scan (unlinesC (setLines (vectorFprintf fmt) pre (sets.map fun s => (s, [[]])))) n ((sets.filter fun s => !s.isEmpty).map (List.map (List.map rd))) := by
  have hsep : ∀ p ∈ sets.map (fun s => (s, ([[]] : List (List Char)))), ∀ l ∈ p.2, SepLine l := by
    intro p hp l hl
    obtain ⟨s, _, rfl⟩ := List.mem_map.1 hp
    rw [List.mem_singleton] at hl
    subst hl
    exact ⟨Or.inr (by simp), by simp⟩
  have hr' : ∀ p ∈ sets.map (fun s => (s, ([[]] : List (List Char)))), ∀ r ∈ p.1, r ≠ [] := by
    intro p hp r hr h0
    obtain ⟨s, hs, rfl⟩ := List.mem_map.1 hp
    have := hrows s hs r hr
    rw [h0] at this; simp at this; omega
  have hch := setLines_chars hf (sets := sets.map fun s => (s, [[]])) hpre hsep
  have hkinds := setLines_kinds hf hpre hsep hr'
  have hks := forall₂_append' hkinds (show List.Forall₂ (IsLine scan) [[]] (List.replicate 1 .sep) from .cons (Or.inr (by simp)) .nil)
  rw [← textLines_unlines _ (fun l hl hc => (hch l hl _ hc).1 rfl)] at hks
  refine ⟨cleanText_unlines hch, _, hks, ?_, ?_, ?_⟩
  · intro k hk
    rw [setKinds, List.mem_append, List.mem_append, List.mem_flatten] at hk
    rcases hk with (hk | ⟨l, hl, hk⟩) | hk
    · exact Or.inl (List.eq_of_mem_replicate hk)
    · simp only [List.map_map, List.mem_map, Function.comp] at hl
      obtain ⟨s, hs, rfl⟩ := hl
      rcases List.mem_append.1 hk with hk | hk
      · obtain ⟨r, hr, rfl⟩ := List.mem_map.1 hk
        exact Or.inr ⟨_, rfl, by rw [List.length_map]; exact hrows s hs r hr⟩
      · exact Or.inl (List.eq_of_mem_replicate hk)
    · exact Or.inl (List.eq_of_mem_replicate hk)
  · obtain ⟨s, hs, hne⟩ := hne
    obtain ⟨r, hr⟩ := List.exists_mem_of_ne_nil _ hne
    refine ⟨r.map rd, ?_⟩
    rw [setKinds]
    refine List.mem_append_left _ (List.mem_append_right _ (List.mem_flatten.2
      ⟨_, List.mem_map.2 ⟨_, List.mem_map.2 ⟨_, List.mem_map.2 ⟨s, hs, rfl⟩, rfl⟩, rfl⟩, List.mem_append_left _ ?_⟩))
    exact List.mem_map.2 ⟨r.map rd, List.mem_map.2 ⟨r, hr, rfl⟩, rfl⟩
  · rw [setsOf_setKinds _ _ (by
      intro p hp
      simp only [List.map_map, List.mem_map, Function.comp] at hp
      obtain ⟨s, _, rfl⟩ := hp
      simp)]
    clear hks hkinds hch hr' hsep hrows hne
    induction sets with
    | nil => rfl
    | cons s sets ih =>
      simp only [List.map_cons, List.filter_cons, List.isEmpty_map] at ih ⊢
      rw [List.map_map] at ih ⊢
      split_ifs with h <;> simp_all

variable {K : Type*} [Field K] [LinearOrder K] [IsStrictOrderedRing K]

theorem ndForall₂_mem_right {A B : Type*} {R : A → B → Prop} {l : List A} {m : List B} (h : List.Forall₂ R l m) {b : B} (hb : b ∈ m) : ∃ a ∈ l, R a b := by
  induction h with
  | nil => cases hb
  | @cons x y l m h1 _ ih =>
    rcases List.mem_cons.1 hb with rfl | hb
    · exact ⟨x, by simp, h1⟩
    · obtain ⟨a, ha, h2⟩ := ih hb
      exact ⟨a, by simp [ha], h2⟩

/-! ### The program -/

/-- The hypotheses of the theorems about the program: the options mean `o` for `n` objectives; the inputs are texts of data sets with `n` objectives; the values are between -DBL_MAX and INFINITY;
the bounds are `L` and `U`, and given bounds are ordered; the logarithm is increasing from the lower bound on in the objectives to be transformed. -/
structure NdCase (env : NdEnv K) (n : ℕ) (args : List NdArg) (o : NdOpts K) (inputs : List (List Char)) (files : List (List (List (List K)))) (L U : ℕ → K) : Prop where
  scan : ScanOk env.scan
  sort : ∀ pp n, SortedPP2d pp n (env.sortFn pp n)
  means : NdMeans env.scan n args o
  texts : List.Forall₂ (fun t sets => TextSets env.scan t n sets) inputs files
  finite : ∀ sets ∈ files, ∀ s ∈ sets, ∀ r ∈ s, ∀ d < n, env.negInf ≤ obj r d ∧ obj r d ≤ env.inf
  lower : LowerBounds n o.lower (files.flatten.flatten) L
  upper : UpperBounds n o.upper (files.flatten.flatten) U
  ordered : o.lower ≠ none → o.upper ≠ none → ∀ d < n, L d ≤ U d
  log : LogOk env.lg o L n

section
variable {env : NdEnv K} {n : ℕ} {args : List NdArg} {o : NdOpts K} {inputs : List (List Char)} {files : List (List (List (List K)))} {L U : ℕ → K}

theorem NdCase.finite' (h : NdCase env n args o inputs files L U) : ∀ sets ∈ files, NdFinite env n sets.flatten := by
  intro sets hsets r hr d hd
  obtain ⟨s, hs, hr⟩ := List.mem_flatten.1 hr
  exact h.finite sets hsets s hs r hr d hd

theorem map_flatten_flatten (files : List (List (List (List K)))) : (files.map List.flatten).flatten = files.flatten.flatten := by
  rw [List.flatten_flatten]

theorem arrayFn_given {l : List K} (hl : l.length = n) : ∀ d < n, arrayFn (l ++ [0]) d = obj l d := by
  intro d hd
  unfold arrayFn obj
  rw [List.getD_eq_getElem?_getD, List.getD_eq_getElem?_getD, List.getElem?_append_left (by omega)]

theorem ndMain_run (hs : ScanOk env.scan) (hn : 0 < n) (h : NdMeans env.scan n args o) (hord : ∀ l u, o.lower = some l → o.upper = some u → ∀ d < n, obj l d ≤ obj u d) (stdin : List Char)
    (texts : List (List Char)) : ∃ st, StOk n st o ∧ ndMain env args stdin texts = ndRun env st (st.lower.map arrayFn) (st.upper.map arrayFn) stdin texts := by
  obtain ⟨st, e, hst⟩ := ndOptions_ok hs hn h
  refine ⟨st, hst, ?_⟩
  unfold ndMain
  rw [e]
  dsimp only
  rw [if_neg, if_neg]
  · rw [hst.lower, hst.upper]
    cases hl : o.lower with
    | none => simp
    | some l =>
      cases hu : o.upper with
      | none => simp
      | some u =>
        simp only [Option.map_some, Option.any_some]
        rw [anyLessThan_iff, hst.given (Or.inl (by rw [hst.lower, hl]; simp))]
        rintro ⟨d, hd, hlt⟩
        rw [arrayFn_given (hst.lower_length l hl) d hd, arrayFn_given (hst.upper_length u hu) d hd] at hlt
        exact absurd hlt (not_lt.2 (hord l u hl hu d hd))
  · rw [hst.lower, hst.upper]
    cases hl : o.lower with
    | none => simp
    | some l =>
      cases hu : o.upper with
      | none => simp
      | some u =>
        have h1 := hst.lower_length l hl
        have h2 := hst.upper_length u hu
        rcases hst.dim with h3 | h3 <;> simp [h1, h2, h3]

/-- The program after the options: the calls for the files, with the bounds. -/
theorem ndMain_eq (stdin : List Char) (texts : List (List Char)) (hn : 0 < n) (hne : inputs ≠ []) (hin : indInputs stdin texts = inputs) (h : NdCase env n args o inputs files L U) :
    ∃ st lb ub cmin cmax dim, StOk n st o ∧ (dim = 0 ∨ dim = n) ∧ (∀ sets ∈ files, LowerArg n lb sets.flatten L) ∧ (∀ sets ∈ files, UpperArg n ub sets.flatten U) ∧
      (o.lower ≠ none → cmin = true ∧ lb ≠ none) ∧ (o.upper ≠ none → cmax = true ∧ ub ≠ none) ∧
      ndMain env args stdin texts = ndFiles env st lb ub cmin cmax (fun k => if texts = [] then none else some k) false dim 0 inputs := by
  obtain ⟨st, hst, hmain⟩ := ndMain_run h.scan hn h.means (by
    intro l u hl hu d hd
    have h1 := h.lower
    have h2 := h.upper
    rw [hl] at h1
    rw [hu] at h2
    have := h.ordered (by rw [hl]; simp) (by rw [hu]; simp) d hd
    rwa [h1 d hd, h2 d hd] at this) stdin texts
  -- the bounds that are given
  have hLg : o.lower ≠ none → ∃ l, st.lower.map arrayFn = some l ∧ ∀ d < n, l d = L d := by
    intro hne
    obtain ⟨l, hl⟩ := Option.ne_none_iff_exists'.1 hne
    have h1 := h.lower
    rw [hl] at h1
    refine ⟨_, by rw [hst.lower, hl]; rfl, fun d hd => ?_⟩
    rw [arrayFn_given (hst.lower_length l hl) d hd, h1 d hd]
  have hUg : o.upper ≠ none → ∃ l, st.upper.map arrayFn = some l ∧ ∀ d < n, l d = U d := by
    intro hne
    obtain ⟨l, hl⟩ := Option.ne_none_iff_exists'.1 hne
    have h1 := h.upper
    rw [hl] at h1
    refine ⟨_, by rw [hst.upper, hl]; rfl, fun d hd => ?_⟩
    rw [arrayFn_given (hst.upper_length l hl) d hd, h1 d hd]
  have hLn : o.lower = none → st.lower.map arrayFn = none := fun hl => by rw [hst.lower, hl]; rfl
  have hUn : o.upper = none → st.upper.map arrayFn = none := fun hl => by rw [hst.upper, hl]; rfl
  -- a single input
  have single : ∀ (text : List Char) (dest : ℕ → Option ℕ), inputs = [text] →
      (∀ sets ∈ files, LowerArg n (st.lower.map arrayFn) sets.flatten L) ∧ (∀ sets ∈ files, UpperArg n (st.upper.map arrayFn) sets.flatten U) := by
    intro text dest hi
    have ht := h.texts
    rw [hi] at ht
    obtain ⟨sets, _, _, h2, h3⟩ := List.forall₂_cons_left_iff.1 ht
    rw [List.forall₂_nil_left_iff] at h2
    subst h2
    have hl := h.lower
    have hu := h.upper
    subst h3
    simp only [List.flatten_cons, List.flatten_nil, List.append_nil] at hl hu
    constructor
    · intro sets' hs'
      rw [List.mem_singleton] at hs'
      subst hs'
      by_cases hx : o.lower = none
      · rw [hLn hx]
        rw [hx] at hl
        exact hl
      · obtain ⟨l, e1, e2⟩ := hLg hx
        rw [e1]
        exact e2
    · intro sets' hs'
      rw [List.mem_singleton] at hs'
      subst hs'
      by_cases hx : o.upper = none
      · rw [hUn hx]
        rw [hx] at hu
        exact hu
      · obtain ⟨l, e1, e2⟩ := hUg hx
        rw [e1]
        exact e2
  have hLne : o.lower ≠ none → st.lower.map arrayFn ≠ none := fun hx => by obtain ⟨l, e1, _⟩ := hLg hx; rw [e1]; simp
  have hUne : o.upper ≠ none → st.upper.map arrayFn ≠ none := fun hx => by obtain ⟨l, e1, _⟩ := hUg hx; rw [e1]; simp
  match texts, hin, hmain with
  | [], hin, hmain =>
    obtain ⟨h1, h2⟩ := single stdin (fun _ => none) hin.symm
    refine ⟨st, _, _, true, true, st.dim, hst, hst.dim, h1, h2, fun hx => ⟨rfl, hLne hx⟩, fun hx => ⟨rfl, hUne hx⟩, ?_⟩
    rw [hmain, ← hin]
    rfl
  | [file], hin, hmain =>
    obtain ⟨h1, h2⟩ := single file some hin.symm
    refine ⟨st, _, _, true, true, st.dim, hst, hst.dim, h1, h2, fun hx => ⟨rfl, hLne hx⟩, fun hx => ⟨rfl, hUne hx⟩, ?_⟩
    rw [hmain, ← hin]
    rfl
  | t1 :: t2 :: ts, hin, hmain =>
    have hin' : t1 :: t2 :: ts = inputs := hin
    have hdest : (fun k => if t1 :: t2 :: ts = [] then none else some k) = (some : ℕ → Option ℕ) := by funext k; simp
    rw [hdest]
    unfold ndRun at hmain
    dsimp only at hmain
    rw [hin'] at hmain
    by_cases hb : ((st.lower.map arrayFn).isNone || (st.upper.map arrayFn).isNone) = true
    · rw [if_pos hb, ndFileBounds_none _ hne] at hmain
      obtain ⟨m, M, h1, h2⟩ := ndFileBounds_eq h.scan h.texts [] _ _ st.dim (seenBounds_nil env n) hst.dim
      rw [List.nil_append, map_flatten_flatten] at h1
      have h3 := h2 []
      rw [List.append_nil, ndFileBounds] at h3
      rw [h3] at hmain
      dsimp only at hmain
      have hfne : files ≠ [] := by
        rintro rfl
        have := h.texts
        rw [List.forall₂_nil_right_iff] at this
        exact hne this
      rw [if_neg hfne] at hmain
      have hpts : files.flatten.flatten ≠ [] := by
        obtain ⟨sets, hsets⟩ := List.exists_mem_of_ne_nil _ hfne
        obtain ⟨t, ht, h4⟩ := ndForall₂_mem_right h.texts hsets
        have h5 := h4.shape
        obtain ⟨s, hs⟩ := List.exists_mem_of_ne_nil _ h5.2.1
        obtain ⟨r, hr⟩ := List.exists_mem_of_ne_nil _ (h5.2.2.1 s hs)
        exact List.ne_nil_of_mem (List.mem_flatten.2 ⟨s, List.mem_flatten.2 ⟨sets, hsets, hs⟩, hr⟩)
      have hmM := h1.least hpts (by
        intro r hr d hd
        obtain ⟨s, hs, hr⟩ := List.mem_flatten.1 hr
        obtain ⟨sets, hsets, hs⟩ := List.mem_flatten.1 hs
        exact h.finite sets hsets s hs r hr d hd)
      refine ⟨st, _, _, _, _, n, hst, Or.inr rfl, ?_, ?_, ?_, ?_, by rw [hin']; exact hmain⟩
      · intro sets _
        by_cases hx : o.lower = none
        · rw [hLn hx]
          have hl := h.lower
          rw [hx] at hl
          intro d hd
          exact (hmM d hd).1.unique (hl d hd)
        · obtain ⟨l, e1, e2⟩ := hLg hx
          rw [e1]
          exact e2
      · intro sets _
        by_cases hx : o.upper = none
        · rw [hUn hx]
          have hl := h.upper
          rw [hx] at hl
          intro d hd
          exact (hmM d hd).2.unique (hl d hd)
        · obtain ⟨l, e1, e2⟩ := hUg hx
          rw [e1]
          exact e2
      · intro hx
        obtain ⟨l, e1, _⟩ := hLg hx
        rw [e1]
        exact ⟨rfl, by simp⟩
      · intro hx
        obtain ⟨l, e1, _⟩ := hUg hx
        rw [e1]
        exact ⟨rfl, by simp⟩
    · rw [if_neg hb] at hmain
      have hxl : o.lower ≠ none := fun hx => hb (by rw [hLn hx]; rfl)
      have hxu : o.upper ≠ none := fun hx => hb (by rw [hUn hx]; simp)
      obtain ⟨l, e1, e2⟩ := hLg hxl
      obtain ⟨u, e3, e4⟩ := hUg hxu
      rw [e1, e3] at hmain
      exact ⟨st, some l, some u, true, true, st.dim, hst, hst.dim, fun _ _ => e2, fun _ _ => e4, fun _ => ⟨rfl, by simp⟩, fun _ => ⟨rfl, by simp⟩, by rw [hin']; exact hmain⟩

end

end Moo
