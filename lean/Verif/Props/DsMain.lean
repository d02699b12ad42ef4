import Verif.Lemmas.DsMain
import Verif.Lemmas.CliExample
import Verif.Props.IndMain

/-!
# The program `dominatedsets` (C71)

The claim: for at least two files of nondominated sets, `dominatedsets` writes for every pair of files the number of pairs of sets in which the set of the first is better, and for every file the number
of times that it is beaten.  It is false for sets of one point, which the check of the input rejects.
-/

set_option autoImplicit false
set_option linter.unusedSectionVars false

namespace Moo

section
variable {K : Type*} [Field K] [LinearOrder K] [IsStrictOrderedRing K] {env : DsEnv K}

theorem map_zipIdx_range {α β : Type*} (F : List α) (e : α) (φ : α → ℕ → β) : F.zipIdx.map (fun f => φ f.1 f.2) = (List.range F.length).map fun k => φ (F.getD k e) k := by
  apply List.ext_getElem
  · simp
  · intro k h1 h2
    have hk : k < F.length := by simpa using h1
    simp [hk]

theorem filter_zipIdx_range {α β : Type*} (F : List α) (e : α) (p : ℕ → Bool) (φ : α → ℕ → β) :
    (F.zipIdx.filter fun g => p g.2).map (fun f => φ f.1 f.2) = ((List.range F.length).filter p).map fun k => φ (F.getD k e) k := by
  have h := map_zipIdx_range F e (fun a k => (a, k))
  simp only [Prod.mk.eta, List.map_id'] at h
  rw [h, List.filter_map, List.map_map]
  rfl

/-- What `print_results` writes for the right table. -/
theorem dsPrint_eq {n : ℕ} {dir : ℕ → ℤ} {F : List (List (List (List K)))} {results : ℕ → ℕ → ℤ} {nruns : ℕ → ℕ} (percentages : Bool)
    (h : ∀ a < F.length, ∀ b < F.length, a ≠ b → results a b = betterPairs n dir (F.getD a []) (F.getD b [])) (hn : ∀ a < F.length, nruns a = (F.getD a []).length) :
    dsPrint percentages F.length nruns results = dsTables n dir percentages F := by
  unfold dsPrint dsTables
  refine congr_arg₂ _ (congr_arg₂ _ ?_ ?_) ?_
  · rw [map_zipIdx_range F [] (fun a k => DsLine.counts (F.zipIdx.map fun g => if k = g.2 then none else some (betterPairs n dir a g.1 : ℤ)))]
    apply List.map_congr_left
    intro k hk
    rw [List.mem_range] at hk
    rw [map_zipIdx_range F [] (fun b j => if k = j then none else some (betterPairs n dir (F.getD k []) b : ℤ))]
    congr 1
    apply List.map_congr_left
    intro j hj
    rw [List.mem_range] at hj
    by_cases hkj : k = j
    · rw [if_pos hkj, if_pos hkj]
    · rw [if_neg hkj, if_neg hkj, h k hk j hj hkj]
  · cases percentages with
    | false => rfl
    | true =>
      rw [if_pos rfl, if_pos rfl]
      rw [map_zipIdx_range F [] (fun a k => DsLine.percentages (F.zipIdx.map fun g => if k = g.2 then none else some ((100 : K) * betterPairs n dir a g.1 / (a.length * g.1.length))))]
      apply List.map_congr_left
      intro k hk
      rw [List.mem_range] at hk
      rw [map_zipIdx_range F [] (fun b j => if k = j then none else some ((100 : K) * betterPairs n dir (F.getD k []) b / ((F.getD k []).length * b.length)))]
      congr 1
      apply List.map_congr_left
      intro j hj
      rw [List.mem_range] at hj
      by_cases hkj : k = j
      · rw [if_pos hkj, if_pos hkj]
      · rw [if_neg hkj, if_neg hkj, h k hk j hj hkj, hn k hk, hn j hj]
        push_cast
        rw [mul_comm (100 : K)]
  · congr 2
    rw [map_zipIdx_range F [] (fun a k => ((F.zipIdx.filter fun g => g.2 ≠ k).map fun g => (betterPairs n dir g.1 a : ℤ)).sum)]
    apply List.map_congr_left
    intro k hk
    rw [List.mem_range] at hk
    rw [C39_rank, filter_zipIdx_range F [] (fun j => decide (j ≠ k)) (fun b _ => (betterPairs n dir b (F.getD k []) : ℤ))]
    congr 1
    apply List.map_congr_left
    intro j hj
    rw [List.mem_filter, List.mem_range] at hj
    exact h j hj.1 k hk (by simpa using hj.2)

theorem forall₂_getD {α β : Type*} {R : α → β → Prop} {l : List α} {m : List β} (h : List.Forall₂ R l m) (a : α) (b : β) (i : ℕ) (hi : i < m.length) : R (l.getD i a) (m.getD i b) := by
  induction h generalizing i with
  | nil => simp at hi
  | cons h1 _ ih =>
    cases i with
    | zero => exact h1
    | succ i => exact ih i (by simpa using hi)

/-- What is known of `main` for readable files, up to the check. -/
theorem dsMain_read (hs : ScanOk env.scan) {n : ℕ} {texts : List (List Char)} {F : List (List (List (List K)))} (h : List.Forall₂ (fun t s => TextSets env.scan t n s) texts F)
    (h2 : 2 ≤ texts.length) {args : List DsArg} (hargs : DsArgsOk args) {dir : ℕ → ℤ} (hdir : DirectionsArg n dir (args.filterMap DsArg.obj?).getLast?) :
    ∃ (data : List ((ℕ → ℕ → K) × List ℕ)) (dir' : ℕ → ℤ), List.Forall₂ (FileHolds n) data F ∧ (∀ k < n, dir' k = dir k) ∧
      ((∀ sets ∈ F, ∀ s ∈ sets, FrontDir n dir s) → (DsArg.noCheck ∈ args ∨ dsCheckAll env n dir' data = some false) →
        dsMain env args texts = .exit 0 (dsTables n dir (decide (DsArg.percentages ∈ args)) F)) ∧
      (DsArg.noCheck ∉ args → dsCheckAll env n dir' data = some true → dsMain env args texts = .exit 1 []) := by
  obtain ⟨dim, mm, e1, e2, e3⟩ := dsOptions_ok env.junk n dir args ⟨false, true, 0, none⟩ hargs (by intro str hstr; rw [hstr] at hdir; exact hdir) (by
    intro hn
    rw [hn] at hdir
    exact ⟨Or.inl rfl, fun k hk => (hdir k hk).symm⟩)
  obtain ⟨data, e4, hdata⟩ := dsRead_eq hs h dim e2 (by rintro rfl; simp at h2)
  refine ⟨data, _, hdata, e3, ?_, ?_⟩
  · intro hfront hchk
    have hne : ∀ sets ∈ F, ∀ s ∈ sets, s ≠ [] := by
      intro sets hsets
      obtain ⟨i, hi, rfl⟩ := List.getElem_of_mem hsets
      have := forall₂_getD h [] [] i hi
      rw [List.getD_eq_getElem _ _ hi] at this
      exact this.shape.2.2.1
    classical
    -- the counts as a function of the arrays
    have hcmp : ∀ (f g : (ℕ → ℕ → K) × List ℕ) (F G : List (List (List K))), FileHolds n f F → FileHolds n g G → (∀ s ∈ F, s ≠ [] ∧ FrontDir n dir s) → (∀ s ∈ G, s ≠ [] ∧ FrontDir n dir s) →
        cmpparetos n (mm.getD fun _ => AGREE_MINIMISE) f.1 f.2 g.1 g.2 = some (betterPairs n dir F G, betterPairs n dir G F) := fun f g F G hf hg hF hG => cmpparetos_eq e3 hf hg hF hG
    set cnt : (ℕ → ℕ → K) × List ℕ → (ℕ → ℕ → K) × List ℕ → ℕ := fun f g => ((cmpparetos n (mm.getD fun _ => AGREE_MINIMISE) f.1 f.2 g.1 g.2).getD (0, 0)).1 with hcnt
    have hlen : data.length = F.length := hdata.length_eq
    have hF : ∀ i < F.length, ∀ s ∈ F.getD i [], s ≠ [] ∧ FrontDir n dir s := by
      intro i hi s hs
      rw [List.getD_eq_getElem _ _ hi] at hs
      exact ⟨hne _ (List.getElem_mem hi) s hs, hfront _ (List.getElem_mem hi) s hs⟩
    obtain ⟨results, g1, g2⟩ := dsCompare_eq n (mm.getD fun _ => AGREE_MINIMISE) cnt (fun _ _ => 0, []) data 0 (fun _ _ => -1) (by
      intro f hf g hg
      obtain ⟨i, hi, rfl⟩ := List.getElem_of_mem hf
      obtain ⟨j, hj, rfl⟩ := List.getElem_of_mem hg
      rw [hlen] at hi hj
      have hfi := forall₂_getD hdata (fun _ _ => 0, []) [] i hi
      have hgj := forall₂_getD hdata (fun _ _ => 0, []) [] j hj
      rw [List.getD_eq_getElem _ _ (by omega)] at hfi hgj
      simp only [hcnt]
      rw [hcmp _ _ _ _ hfi hgj (hF i hi) (hF j hj), hcmp _ _ _ _ hgj hfi (hF j hj) (hF i hi)]
      rfl)
    have hprint : dsPrint (decide (DsArg.percentages ∈ args)) texts.length (fun k => (data.getD k (fun _ _ => 0, [])).2.length) results = dsTables n dir (decide (DsArg.percentages ∈ args)) F := by
      rw [show texts.length = F.length from h.length_eq]
      apply dsPrint_eq
      · intro a ha b hb hab
        rw [g2, if_pos (by omega), Nat.sub_zero, Nat.sub_zero]
        simp only [hcnt]
        rw [hcmp _ _ _ _ (forall₂_getD hdata _ [] a ha) (forall₂_getD hdata _ [] b hb) (hF a ha) (hF b hb)]
        rfl
      · intro a ha
        exact (forall₂_getD hdata _ [] a ha).length
    unfold dsMain
    rw [e1]
    dsimp only
    rw [if_neg (by omega), e4]
    dsimp only
    rw [g1]
    simp only [Bool.false_or, Bool.true_and]
    rw [hprint]
    rcases hchk with hc | hc
    · rw [if_neg (by simpa using hc)]
    · rw [hc]
      simp
  · intro hno hc
    unfold dsMain
    rw [e1]
    dsimp only
    rw [if_neg (by omega), e4]
    dsimp only
    rw [if_pos (by simpa using hno), hc]

theorem textSets_ne {scan : NumScan K} {n : ℕ} {texts : List (List Char)} {F : List (List (List (List K)))} (h : List.Forall₂ (fun t s => TextSets scan t n s) texts F) :
    ∀ sets ∈ F, ∀ s ∈ sets, s ≠ [] := by
  intro sets hsets
  obtain ⟨i, hi, rfl⟩ := List.getElem_of_mem hsets
  have := forall₂_getD h [] [] i hi
  rw [List.getD_eq_getElem _ _ hi] at this
  exact this.shape.2.2.1

/-- **C71 (`dominatedsets`)**: for at least two readable files, all with `n` objectives, whose sets are nondominated and have at least two points each, the tables are written.  What is missing: sets of
one point (see `C71_false_single`) and directions with ignored objectives (see `C71_false_ignored`); both are handled with `--no-check`, see `C71_no_check`. -/
theorem C71_counts_partial (hs : ScanOk env.scan) (hsort : ∀ pp m, SortedPP2d pp m (env.sortFn pp m)) (n : ℕ) (texts : List (List Char)) (F : List (List (List (List K))))
    (h : List.Forall₂ (fun t s => TextSets env.scan t n s) texts F) (h2 : 2 ≤ texts.length) (args : List DsArg) (hargs : DsArgsOk args) (dir : ℕ → ℤ)
    (hdir : DirectionsArg n dir (args.filterMap DsArg.obj?).getLast?) (hdir' : ∀ k < n, dir k = -1 ∨ dir k = 1)
    (hfront : ∀ sets ∈ F, ∀ s ∈ sets, 2 ≤ s.length ∧ FrontDir n dir s) :
    dsMain env args texts = .exit 0 (dsTables n dir (decide (DsArg.percentages ∈ args)) F) := by
  obtain ⟨data, dir', g1, g2, g3, -⟩ := dsMain_read hs h h2 hargs hdir
  obtain ⟨b, e1, e2⟩ := dsCheckAll_eq (env := env) hsort g2 hdir' g1 (textSets_ne h)
  rw [e2.2 hfront] at e1
  exact g3 (fun sets hs s h => (hfront sets hs s h).2) (Or.inr e1)

/-- **C71 (`dominatedsets --no-check`)**: without the check, the tables are written for all nondominated sets, also with ignored objectives. -/
theorem C71_no_check (hs : ScanOk env.scan) (n : ℕ) (texts : List (List Char)) (F : List (List (List (List K))))
    (h : List.Forall₂ (fun t s => TextSets env.scan t n s) texts F) (h2 : 2 ≤ texts.length) (args : List DsArg) (hargs : DsArgsOk args) (dir : ℕ → ℤ)
    (hdir : DirectionsArg n dir (args.filterMap DsArg.obj?).getLast?) (hno : DsArg.noCheck ∈ args) (hfront : ∀ sets ∈ F, ∀ s ∈ sets, FrontDir n dir s) :
    dsMain env args texts = .exit 0 (dsTables n dir (decide (DsArg.percentages ∈ args)) F) := by
  obtain ⟨data, dir', -, -, g3, -⟩ := dsMain_read hs h h2 hargs hdir
  exact g3 hfront (Or.inl hno)

/-- **C71 (check)**: with the check, and without ignored objectives, a set that is not nondominated is a failure, and nothing is compared; the same for a set of one point. -/
theorem C71_rejects (hs : ScanOk env.scan) (hsort : ∀ pp m, SortedPP2d pp m (env.sortFn pp m)) (n : ℕ) (texts : List (List Char)) (F : List (List (List (List K))))
    (h : List.Forall₂ (fun t s => TextSets env.scan t n s) texts F) (h2 : 2 ≤ texts.length) (args : List DsArg) (hargs : DsArgsOk args) (dir : ℕ → ℤ)
    (hdir : DirectionsArg n dir (args.filterMap DsArg.obj?).getLast?) (hdir' : ∀ k < n, dir k = -1 ∨ dir k = 1) (hno : DsArg.noCheck ∉ args)
    (hbad : ∃ sets ∈ F, ∃ s ∈ sets, s.length = 1 ∨ ¬ FrontDir n dir s) : dsMain env args texts = .exit 1 [] := by
  obtain ⟨data, dir', g1, g2, -, g4⟩ := dsMain_read hs h h2 hargs hdir
  obtain ⟨b, e1, e2⟩ := dsCheckAll_eq (env := env) hsort g2 hdir' g1 (textSets_ne h)
  cases b with
  | true => exact g4 hno e1
  | false =>
    obtain ⟨sets, hsets, s, hs', hb⟩ := hbad
    obtain ⟨k1, k2⟩ := e2.1 rfl sets hsets s hs'
    rcases hb with hb | hb
    · omega
    · exact absurd k2 hb

/-- **C71**: fewer than two files are a failure. -/
theorem C71_few_files (args : List DsArg) (hargs : DsArgsOk args) (texts : List (List Char)) (h2 : texts.length ≤ 1) : dsMain env args texts = .exit 1 [] := by
  have key : ∀ (args : List DsArg) (st : DsSt), DsArgsOk args → ∃ st', dsOptions env.junk st args = .ok st' := by
    intro args
    induction args with
    | nil => intro st _; exact ⟨st, rfl⟩
    | cons a args ih =>
      intro st h
      have h' : DsArgsOk args := fun str hs => h str (by simp [hs])
      cases a with
      | percentages => rw [dsOptions]; exact ih _ h'
      | noCheck => rw [dsOptions]; exact ih _ h'
      | obj str =>
        rw [dsOptions]
        obtain ⟨g1, g2⟩ := h str (by simp)
        obtain ⟨minmax, e1, -⟩ := C44_directions env.junk str st.dim g1 g2
        rw [e1]
        exact ih _ h'
  obtain ⟨st, e⟩ := key args _ hargs
  unfold dsMain
  rw [e]
  dsimp only
  rw [if_pos h2]

/-- **C71**: a file that cannot be read, or whose number of objectives differs from that of the files before it (or of `-o`), is a failure. -/
theorem C71_unreadable (hs : ScanOk env.scan) (n : ℕ) (texts : List (List Char)) (F : List (List (List (List K)))) (h : List.Forall₂ (fun t s => TextSets env.scan t n s) texts F) (bad : List Char)
    (rest : List (List Char)) (h2 : 1 ≤ texts.length + rest.length) (hn : Unreadable env.scan bad n) (hn0 : texts = [] → Unreadable env.scan bad 0) (args : List DsArg) (hargs : DsArgsOk args)
    (hdir : ∀ str, (args.filterMap DsArg.obj?).getLast? = some str → str.length = n) : dsMain env args (texts ++ bad :: rest) = .exit 1 [] := by
  have key : ∀ (args : List DsArg) (st : DsSt), DsArgsOk args → (∀ str, (args.filterMap DsArg.obj?).getLast? = some str → str.length = n) →
      ((args.filterMap DsArg.obj?).getLast? = none → st.dim = 0 ∨ st.dim = n) → ∃ st', dsOptions env.junk st args = .ok st' ∧ (st'.dim = 0 ∨ st'.dim = n) := by
    intro args
    induction args with
    | nil => intro st _ _ h; exact ⟨st, rfl, h rfl⟩
    | cons a args ih =>
      intro st h hd h0
      have h' : DsArgsOk args := fun str hs => h str (by simp [hs])
      cases a with
      | percentages => rw [dsOptions]; exact ih _ h' hd h0
      | noCheck => rw [dsOptions]; exact ih _ h' hd h0
      | obj str =>
        rw [dsOptions]
        obtain ⟨g1, g2⟩ := h str (by simp)
        obtain ⟨minmax, e1, -⟩ := C44_directions env.junk str st.dim g1 g2
        rw [e1]
        have hlast : (List.filterMap DsArg.obj? (DsArg.obj str :: args)).getLast? = some ((args.filterMap DsArg.obj?).getLast?.getD str) := by
          rw [List.filterMap_cons]
          simp only [DsArg.obj?]
          rw [List.getLast?_cons]
        refine ih _ h' (fun s hs => hd s (by rw [hlast, hs]; rfl)) (fun hn => Or.inr (hd str (by rw [hlast, hn]; rfl)))
  obtain ⟨st, e, hst⟩ := key args ⟨false, true, 0, none⟩ hargs hdir (fun _ => Or.inl rfl)
  unfold dsMain
  rw [e]
  dsimp only
  rw [if_neg (by simp; omega), dsRead_err hs h rest st.dim hst]
  split_ifs with ht
  · rcases hst with h0 | h0 <;> rw [h0]
    · exact hn0 ht
    · exact hn
  · exact hn

/-- **C71**: a wrong argument of `-o` ends the program, before anything is read. -/
theorem C71_bad_option (pre : List DsArg) (hpre : ∀ a ∈ pre, a.obj? = none) (str : List Char) (post : List DsArg) (hbad : ∃ c ∈ str, directionOf c = none) (texts : List (List Char)) :
    dsMain env (pre ++ .obj str :: post) texts = .exit 1 [] := by
  have key : ∀ (pre : List DsArg) (st : DsSt), (∀ a ∈ pre, a.obj? = none) → dsOptions env.junk st (pre ++ .obj str :: post) = .exit 1 := by
    intro pre
    induction pre with
    | nil =>
      intro st _
      rw [List.nil_append, dsOptions, (C44_null env.junk str st.dim).2 hbad]
    | cons a pre ih =>
      intro st h
      cases a with
      | percentages => rw [List.cons_append, dsOptions]; exact ih _ (fun a ha => h a (by simp [ha]))
      | noCheck => rw [List.cons_append, dsOptions]; exact ih _ (fun a ha => h a (by simp [ha]))
      | obj s => exact absurd (h (.obj s) (by simp)) (by simp [DsArg.obj?])
  unfold dsMain
  rw [key pre _ hpre]

/-! ### What the tables say -/

theorem setBetter_asymm {n : ℕ} {dir : ℕ → ℤ} {A B : List (List K)} (h : SetBetter n dir A B) : ¬ SetBetter n dir B A := fun h' => h'.2 h.1

/-- **C71**: in every pair of sets at most one is better: the two numbers for a pair of files add up to at most the number of pairs of sets. -/
theorem C71_pairs_le (n : ℕ) (dir : ℕ → ℤ) (F G : List (List (List K))) : betterPairs n dir F G + betterPairs n dir G F ≤ F.length * G.length := by
  classical
  unfold betterPairs
  rw [length_filter_product, length_filter_product, sum_countP_swap (fun a b => decide (SetBetter n dir (a, b).1 (a, b).2))]
  induction G with
  | nil => simp
  | cons t G ih =>
    simp only [List.map_cons, List.sum_cons, List.length_cons] at ih ⊢
    have : ∀ F : List (List (List K)), (F.countP fun s => decide (SetBetter n dir s t)) + (F.countP fun s => decide (SetBetter n dir t s)) ≤ F.length := by
      intro F
      induction F with
      | nil => simp
      | cons s F ihF =>
        rw [List.countP_cons, List.countP_cons, List.length_cons]
        by_cases h1 : SetBetter n dir s t
        · have h2 := setBetter_asymm h1
          simp only [h1, h2, decide_true, decide_false, if_true, Bool.false_eq_true, if_false]
          omega
        · by_cases h2 : SetBetter n dir t s
          · simp only [h1, h2, decide_true, decide_false, if_true, Bool.false_eq_true, if_false]
            omega
          · simp only [h1, h2, decide_false, Bool.false_eq_true, if_false]
            omega
    have := this F
    rw [Nat.mul_succ]
    omega

theorem setBetter_trans {n : ℕ} {dir : ℕ → ℤ} {A B C : List (List K)} (h1 : SetBetter n dir A B) (h2 : SetBetter n dir B C) : SetBetter n dir A C := by
  obtain ⟨a1, a2⟩ := h1
  obtain ⟨b1, b2⟩ := h2
  refine ⟨?_, ?_⟩
  · intro c hc
    obtain ⟨b, hb, hbc⟩ := b1 c hc
    obtain ⟨a, ha, hab⟩ := a1 b hb
    exact ⟨a, ha, weakDomDir_trans hab hbc⟩
  · intro h
    apply a2
    intro a ha
    obtain ⟨c, hc, hca⟩ := h a ha
    obtain ⟨b, hb, hbc⟩ := b1 c hc
    exact ⟨b, hb, weakDomDir_trans hbc hca⟩

/-- **C71**: "better in all pairs" is transitive: if every set of `F` is better than every set of `G`, and every set of `G` better than every set of `H`, then every set of `F` is better than every set
of `H`, and the count is the number of all pairs. -/
theorem C71_all_pairs (n : ℕ) (dir : ℕ → ℤ) (F G : List (List (List K))) : betterPairs n dir F G = F.length * G.length ↔ ∀ s ∈ F, ∀ t ∈ G, SetBetter n dir s t := by
  classical
  unfold betterPairs
  rw [← List.length_product F G, show (F ×ˢ G : List _) = F.product G from rfl, List.length_filter_eq_length_iff]
  constructor
  · intro h s hs t ht
    simpa using h (s, t) (List.mem_product.2 ⟨hs, ht⟩)
  · rintro h ⟨s, t⟩ hst
    have := List.mem_product.1 hst
    simpa using h s this.1 t this.2

theorem C71_all_pairs_trans (n : ℕ) (dir : ℕ → ℤ) (F G H : List (List (List K))) (hG : G ≠ []) (h1 : betterPairs n dir F G = F.length * G.length) (h2 : betterPairs n dir G H = G.length * H.length) :
    betterPairs n dir F H = F.length * H.length := by
  rw [C71_all_pairs] at *
  intro s hs t ht
  obtain ⟨g, hg⟩ := List.exists_mem_of_ne_nil G hG
  exact setBetter_trans (h1 s hs g hg) (h2 g hg t ht)

end

/-! ### Examples and counterexamples -/

/-- An environment for computations. -/
def dsRatEnv : DsEnv ℚ := ⟨scanRat, fun _ => 0, fun pp m => (List.range m).insertionSort fun a b => compareXascYasc (pp a) (pp b) ≤ 0, fun _ => true⟩

/-- What the program writes. -/
def dsShow (r : ProgOut (DsLine ℚ)) : Option (ℕ × List (DsLine ℚ)) := r.toOption

/-- **C71 is false for sets of one point**: both files have one set of one point, the first better than the second, and the program fails. -/
theorem C71_false_single : dsShow (dsMain dsRatEnv [] ["1 1\n".toList, "2 2\n".toList]) = some (1, []) ∧
    dsShow (dsMain dsRatEnv [.noCheck] ["1 1\n".toList, "2 2\n".toList]) = some (0, [.counts [none, some 1], .counts [some 0, none], .ranks [0, 1]]) := by
  constructor <;> decide +kernel

/-- **C71 is false with an ignored objective**: with `-o -i` the check accepts the set {(0, 1), (1, 0)}, although its second point is dominated when the second objective is ignored, and then the program
aborts. -/
theorem C71_false_ignored : dsShow (dsMain dsRatEnv [.obj "-i".toList] ["0 1\n1 0\n".toList, "0 1\n1 0\n".toList]) = none ∧ ¬ FrontDir 2 (fun k => if k = 0 then -1 else 0) [[(0 : ℚ), 1], [1, 0]] := by
  refine ⟨by decide +kernel, ?_⟩
  unfold FrontDir
  rw [List.pairwise_pair]
  rintro ⟨h, -⟩
  apply h
  intro d hd
  interval_cases d <;> simp [obj]

/-- **C71**: without the check, sets that are not nondominated make the program abort. -/
theorem C71_no_check_abort : dsShow (dsMain dsRatEnv [.noCheck] ["0 0\n1 1\n".toList, "0 0\n".toList]) = none := by decide +kernel

/-- Three files, with percentages. -/
example : dsShow (dsMain dsRatEnv [.percentages, .obj "--".toList] ["0 2\n2 0\n\n1 3\n3 1\n".toList, "1 2\n2 1\n".toList, "5 6\n6 5\n\n0 2\n2 0\n".toList]) =
    some (0, [.counts [none, some 1, some 2], .counts [some 1, none, some 1], .counts [some 1, some 1, none],
      .percentages [none, some 50, some 50], .percentages [some 50, none, some 50], .percentages [some 25, some 50, none], .ranks [2, 2, 3]]) := by decide +kernel

/-- The hypotheses can be met: two files, one with two sets. -/
example : ∃ env : DsEnv ℚ, dsMain env [.obj "-+".toList] ["0 2\n2 3\n\n1 3\n3 4\n".toList, "1 2\n2 3\n".toList] =
    .exit 0 (dsTables 2 (fun k => if k = 0 then -1 else 1) false [[[[0, 2], [2, 3]], [[1, 3], [3, 4]]], [[[1, 2], [2, 3]]]]) := by
  obtain ⟨sortFn, hsort⟩ := sortedPP2d_exists (β := ℚ)
  refine ⟨⟨scanRat, fun _ => 0, sortFn, fun _ => true⟩, ?_⟩
  have h1 : TextSets scanRat "0 2\n2 3\n\n1 3\n3 4\n".toList 2 [[[0, 2], [2, 3]], [[1, 3], [3, 4]]] := checkText_sound (by decide +kernel)
  have h2 : TextSets scanRat "1 2\n2 3\n".toList 2 [[[1, 2], [2, 3]]] := checkText_sound (by decide +kernel)
  have := C71_counts_partial (env := ⟨scanRat, fun _ => 0, sortFn, fun _ => true⟩) scanRat_ok hsort 2 _ _ (.cons h1 (.cons h2 .nil)) (by simp) [.obj "-+".toList] (by
    intro str h
    simp only [List.mem_cons, DsArg.obj.injEq, List.not_mem_nil, or_false] at h
    subst h
    exact ⟨by decide, by decide⟩) (fun k => if k = 0 then -1 else 1) (by
    refine ⟨rfl, ⟨0, by omega, by simp⟩, ?_⟩
    intro k hk
    interval_cases k <;> simp) (by intro k _; by_cases h : k = 0 <;> simp [h]) (by
    have key : ∀ a b c d : ℚ, a < c → b < d → FrontDir 2 (fun k => if k = 0 then -1 else 1) [[a, b], [c, d]] := by
      intro a b c d h1 h2
      unfold FrontDir
      rw [List.pairwise_pair]
      constructor
      · intro h
        have := (h 1 (by omega)).2 (by simp)
        simp only [obj, List.getD_cons_succ, List.getD_cons_zero] at this
        linarith
      · intro h
        have := (h 0 (by omega)).1 (by simp)
        simp only [obj, List.getD_cons_zero] at this
        linarith
    intro sets hsets s hs
    simp only [List.mem_cons, List.not_mem_nil, or_false] at hsets
    rcases hsets with rfl | rfl <;> simp only [List.mem_cons, List.not_mem_nil, or_false] at hs
    · rcases hs with rfl | rfl
      · exact ⟨by simp, key _ _ _ _ (by norm_num) (by norm_num)⟩
      · exact ⟨by simp, key _ _ _ _ (by norm_num) (by norm_num)⟩
    · subst hs
      exact ⟨by simp, key _ _ _ _ (by norm_num) (by norm_num)⟩)
  simpa using this

end Moo
