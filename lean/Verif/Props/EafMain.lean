import Verif.Lemmas.EafMain3
import Verif.Lemmas.CliExample
import Verif.Props.IndMain

/-!
# The program `eaf` (C72)

The claim: `eaf` reads the runs of all the files and writes, for every level asked for, each point of the attainment surface of that level once, and where it is asked to the runs that attain it and their
numbers in the two halves.  It is false for the indices of a single run, for a file that is named twice, for 50 levels or more, and without data.
-/

set_option autoImplicit false
set_option linter.unusedSectionVars false

namespace Moo

section
variable {K : Type*} [Field K] [LinearOrder K] [IsStrictOrderedRing K] [FloorRing K] {env : EafMainEnv K}

/-- The number of objectives and of points that the program can handle: two, or three with coordinates between the sentinels. -/
def EafInput (env : EafMainEnv K) (n : ℕ) (runs : List (List (List K))) : Prop :=
  n = 2 ∧ runs.flatten.length ≤ 1073741823 ∨ n = 3 ∧ runs.flatten.length ≤ 32767 ∧ ∀ t ∈ runs, ∀ r ∈ t, ∀ d < 2, env.mn < obj r d ∧ obj r d < env.mx

theorem eafMain_eq (he : EafEnvOk env) {args : List EafArg} {ps : List K} {ls : List ℤ} (hp : ArgNumbers env.scan (args.filterMap EafArg.percentile?) ps)
    (hl : ArgNumbers env.scanInt (args.filterMap EafArg.level?) ls) (hps : ps.length < 50) (hls : ls.length < 50) (fuelP : ℕ) (files : List (List Char)) :
    eafMain env fuelP args files =
      match eafRead env.scan 0 [] [] files with
      | none => .undefined
      | some none => .exit 1 []
      | some (some (nobj, cum, data)) =>
        match eafLevels env.tol (eafFinal (eafStart K) args ps ls) cum.length with
        | none => .undefined
        | some none => .exit 1 []
        | some (some level) =>
          if (eafFinal (eafStart K) args ps ls).verbose ∧ cum = [] then .undefined
          else
            match attsurf env fuelP (blockTable (fun j => data.getD j 0) nobj 0) nobj (fun r => cum.getD r 0) cum.length level with
            | none => .undefined
            | some none => .exit 1 []
            | some (some es) =>
              match eafPrint nobj (eafStreams (eafFinal (eafStart K) args ps ls)).1 (eafStreams (eafFinal (eafStart K) args ps ls)).2.1 (eafStreams (eafFinal (eafStart K) args ps ls)).2.2 es with
              | none => .undefined
              | some written => .exit 0 written := by
  unfold eafMain
  rw [eafOptions_ok env he.scan he.scanInt args _ ps ls hp hl (by simpa [maxLevels] using hps) (by simpa [maxLevels] using hls)]
  rfl

/-- **C72**, with these hypotheses: fewer than 50 percentiles and fewer than 50 levels; no file is named twice; there is at least one run, and at least two if the indices are asked for.  Then there are
levels `ks`, those asked for, and surfaces of these levels, and what the program writes to any stream is the text of these surfaces for that stream.  Missing are the other cases, where the claim is false
(`C72_false_single_run`, `C72_false_same_file`, `C72_overflow`, `C72_no_data_undefined`). -/
theorem C72_eaf_partial (he : EafEnvOk env) {args : List EafArg} {ps : List K} {ls : List ℤ} (hp : ArgNumbers env.scan (args.filterMap EafArg.percentile?) ps)
    (hl : ArgNumbers env.scanInt (args.filterMap EafArg.level?) ls) (hps : ps.length < 50) (hls : ls.length < 50) (hd : NamesDiffer args) {files : List (List Char)} {n : ℕ}
    {runs : List (List (List K))} (hf : FilesRuns env.scan n files runs) (hr : runs ≠ []) (hin : EafInput env n runs) (hw : ¬ LevelsWrong runs.length args ps ls)
    (hi : 2 ≤ runs.length ∨ indicesTo args = none) :
    ∃ N, ∀ fuelP ≥ N, ∃ ks surfaces written, eafMain env fuelP args files = .exit 0 written ∧ LevelsOf env.tol runs.length args ps ls ks ∧ List.Forall₂ (IsSurface n runs) ks surfaces ∧
      ∀ s, (written.filter fun t => t.1 = s).map (·.2) = eafText s (pointsTo args) (indicesTo args) (countsTo args) surfaces := by
  obtain ⟨hne, hlen, -⟩ := hf.shape
  have hpos : 1 ≤ runs.length := List.length_pos_iff.2 hr
  obtain ⟨ks, hk1, hk2, hk3⟩ := eafLevels_ok env.tol he.tol.1 he.tol.2 hpos args ps ls hw
  have hsurf : ∃ N, ∀ fuelP ≥ N, ∃ es surfaces, attsurf env fuelP (blockTable (fun j => runs.flatten.flatten.getD j 0) n 0) n (fun r => (cumFrom 0 (runs.map List.length)).getD r 0) runs.length
        (ks.map Int.ofNat) = some (some es) ∧
      List.Forall₂ (fun e pts => e.nruns = runs.length ∧ ∃ rows, EafHolds n e rows ∧ pts = rows.map (rowLine n runs.length)) es surfaces ∧ List.Forall₂ (IsSurface n runs) ks surfaces := by
    rcases hin with ⟨rfl, hs⟩ | ⟨rfl, hs, hb⟩
    · exact ⟨0, fun fuelP _ => attsurf_two he hr hne hlen hs hk3 fuelP⟩
    · obtain ⟨N, hN⟩ := attsurf_three he hr hne hlen hs hb
      exact ⟨N, fun fuelP hfp => hN fuelP hfp hk3⟩
  obtain ⟨N, hN⟩ := hsurf
  refine ⟨N, fun fuelP hfp => ?_⟩
  obtain ⟨es, surfaces, h1, h2, h3⟩ := hN fuelP hfp
  refine ⟨ks, surfaces, _, ?_, hk2, h3, eafText_filter _ _ _ surfaces⟩
  rw [eafMain_eq he hp hl hps hls, eafRead_ok he.scan hf, if_neg hr]
  dsimp only
  have hcl : (cumFrom 0 (runs.map List.length)).length = runs.length := by rw [cumFrom_length, List.length_map]
  rw [hcl, hk1]
  dsimp only
  rw [if_neg (by
    rintro ⟨-, hc⟩
    rw [hc] at hcl
    simp at hcl
    omega), h1]
  dsimp only
  rw [show eafStreams (eafFinal (eafStart K) args ps ls) = _ from eafStreams_eq args hd ps ls]
  dsimp only
  rw [eafPrint_ok hpos _ _ _ hi h2]

/-- **C72**: a percentile that is not in (0, 100], or a level that is not between 1 and the number of runs, is an error. -/
theorem C72_level_error (he : EafEnvOk env) {args : List EafArg} {ps : List K} {ls : List ℤ} (hp : ArgNumbers env.scan (args.filterMap EafArg.percentile?) ps)
    (hl : ArgNumbers env.scanInt (args.filterMap EafArg.level?) ls) (hps : ps.length < 50) (hls : ls.length < 50) {files : List (List Char)} {n : ℕ}
    {runs : List (List (List K))} (hf : FilesRuns env.scan n files runs) (hw : LevelsWrong runs.length args ps ls) (fuelP : ℕ) : eafMain env fuelP args files = .exit 1 [] := by
  rw [eafMain_eq he hp hl hps hls, eafRead_ok he.scan hf]
  dsimp only
  have hcl : (cumFrom 0 (runs.map List.length)).length = runs.length := by rw [cumFrom_length, List.length_map]
  rw [hcl, eafLevels_wrong env.tol args ps ls hw]

/-- **C72**: an argument of `-p` or `-l` that is not a list of numbers is an error (the arguments have fewer than 50 characters in all). -/
theorem C72_argument_error (he : EafEnvOk env) {args : List EafArg} (hlen : argLength args < 50)
    (h : (∃ str, EafArg.percentile str ∈ args ∧ ¬ ∃ vs, vs ≠ [] ∧ SepNumbers env.scan str vs) ∨ ∃ str, EafArg.level str ∈ args ∧ ¬ ∃ vs, vs ≠ [] ∧ SepNumbers env.scanInt str vs)
    (fuelP : ℕ) (files : List (List Char)) : eafMain env fuelP args files = .exit 1 [] := by
  unfold eafMain
  rw [eafOptions_err env he.scan he.scanInt args _ (by simpa [maxLevels] using hlen) (by simpa [maxLevels] using hlen) h]

/-- **C72**: a file with a bad line, or with another number of objectives than the files before it, is an error. -/
theorem C72_file_error (he : EafEnvOk env) {args : List EafArg} {ps : List K} {ls : List ℤ} (hp : ArgNumbers env.scan (args.filterMap EafArg.percentile?) ps)
    (hl : ArgNumbers env.scanInt (args.filterMap EafArg.level?) ls) (hps : ps.length < 50) (hls : ls.length < 50) {files : List (List Char)} {n : ℕ}
    {runs : List (List (List K))} (hf : FilesRuns env.scan n files runs) {file : List Char} (hu : Unreadable env.scan file (if runs = [] then 0 else n)) (hno : ¬ NoData env.scan file)
    (rest : List (List Char)) (fuelP : ℕ) : eafMain env fuelP args (files ++ file :: rest) = .exit 1 [] := by
  rw [eafMain_eq he hp hl hps hls]
  have := eafRead_files he.scan hf (file :: rest) [] (by simp)
  simp only [List.nil_append] at this
  rw [eafRead_err he.scan hf.shape hu hno rest] at this
  rw [show eafRead env.scan 0 [] [] (files ++ file :: rest) = some none from this]

/-- **C72**: one objective, or more than three, is an error. -/
theorem C72_objectives_error (he : EafEnvOk env) {args : List EafArg} {ps : List K} {ls : List ℤ} (hp : ArgNumbers env.scan (args.filterMap EafArg.percentile?) ps)
    (hl : ArgNumbers env.scanInt (args.filterMap EafArg.level?) ls) (hps : ps.length < 50) (hls : ls.length < 50) {files : List (List Char)} {n : ℕ}
    {runs : List (List (List K))} (hf : FilesRuns env.scan n files runs) (hr : runs ≠ []) (hn : n ≠ 2 ∧ n ≠ 3) (fuelP : ℕ) : eafMain env fuelP args files = .exit 1 [] := by
  by_cases hw : LevelsWrong runs.length args ps ls
  · exact C72_level_error he hp hl hps hls hf hw fuelP
  have hpos : 1 ≤ runs.length := List.length_pos_iff.2 hr
  obtain ⟨ks, hk1, hk2, hk3⟩ := eafLevels_ok env.tol he.tol.1 he.tol.2 hpos args ps ls hw
  rw [eafMain_eq he hp hl hps hls, eafRead_ok he.scan hf, if_neg hr]
  dsimp only
  have hcl : (cumFrom 0 (runs.map List.length)).length = runs.length := by rw [cumFrom_length, List.length_map]
  rw [hcl, hk1]
  dsimp only
  rw [if_neg (by
    rintro ⟨-, hc⟩
    rw [hc] at hcl
    simp at hcl
    omega)]
  unfold attsurf
  rw [if_neg hn.1, if_neg hn.2]

/-! ### Where the claim is false -/

theorem eafOptions_overflow (env : EafMainEnv K) (hs : ScanOk env.scan) (hi : ScanOk env.scanInt) : ∀ (args : List EafArg) (st : EafMainSt K) (ps : List K) (ls : List ℤ),
    ArgNumbers env.scan (args.filterMap EafArg.percentile?) ps → ArgNumbers env.scanInt (args.filterMap EafArg.level?) ls →
    st.percentiles.length < maxLevels → st.levels.length < maxLevels →
    maxLevels ≤ st.percentiles.length + ps.length ∨ maxLevels ≤ st.levels.length + ls.length → eafOptions env st args = .undefined := by
  intro args
  induction args with
  | nil =>
    intro st ps ls hp hl h1 h2 h
    cases hp
    cases hl
    simp at h
    omega
  | cons a args ih =>
    intro st ps ls hp hl h1 h2 h
    cases a with
    | best => rw [eafOptions, ih _ ps ls hp hl (by exact h1) (by exact h2) (by exact h)]
    | median => rw [eafOptions, ih _ ps ls hp hl (by exact h1) (by exact h2) (by exact h)]
    | worst => rw [eafOptions, ih _ ps ls hp hl (by exact h1) (by exact h2) (by exact h)]
    | quiet => rw [eafOptions, ih _ ps ls hp hl (by exact h1) (by exact h2) (by exact h)]
    | verbose => rw [eafOptions, ih _ ps ls hp hl (by exact h1) (by exact h2) (by exact h)]
    | output name => rw [eafOptions, ih _ ps ls hp hl (by exact h1) (by exact h2) (by exact h)]
    | indices name =>
      cases name with
      | none => rw [eafOptions, ih _ ps ls hp hl (by exact h1) (by exact h2) (by exact h)]
      | some f => rw [eafOptions, ih _ ps ls hp hl (by split_ifs <;> exact h1) (by split_ifs <;> exact h2) (by split_ifs <;> exact h)]
    | diff name =>
      cases name with
      | none => rw [eafOptions, ih _ ps ls hp hl (by exact h1) (by exact h2) (by exact h)]
      | some f => rw [eafOptions, ih _ ps ls hp hl (by split_ifs <;> exact h1) (by split_ifs <;> exact h2) (by split_ifs <;> exact h)]
    | percentile str =>
      rw [show (EafArg.percentile str :: args).filterMap EafArg.percentile? = str :: args.filterMap EafArg.percentile? from by simp [EafArg.percentile?]] at hp
      cases hp with
      | cons _ _ vs ws g1 g2 g3 =>
        rw [List.length_append] at h
        rw [eafOptions, if_neg (by omega)]
        by_cases hv : vs.length < maxLevels - st.percentiles.length
        · rw [readNums_ok hs g1 hv g2]
          dsimp only
          rw [ih _ ws ls g3 hl (by simp; omega) (by exact h2) (by simp; omega)]
        · rw [readNums_overflow g1 (by omega)]
    | level str =>
      rw [show (EafArg.level str :: args).filterMap EafArg.level? = str :: args.filterMap EafArg.level? from by simp [EafArg.level?]] at hl
      cases hl with
      | cons _ _ vs ws g1 g2 g3 =>
        rw [List.length_append] at h
        rw [eafOptions, if_neg (by omega)]
        by_cases hv : vs.length < maxLevels - st.levels.length
        · rw [readNums_ok hi g1 hv g2]
          dsimp only
          rw [ih _ ps ws hp g3 (by exact h1) (by simp; omega) (by simp; omega)]
        · rw [readNums_overflow g1 (by omega)]

/-- **C72 is false for 50 levels**: whatever the files are, the program stores after the end of an array (or fails an assertion). -/
theorem C72_overflow (he : EafEnvOk env) {args : List EafArg} {ps : List K} {ls : List ℤ} (hp : ArgNumbers env.scan (args.filterMap EafArg.percentile?) ps)
    (hl : ArgNumbers env.scanInt (args.filterMap EafArg.level?) ls) (h : 50 ≤ ps.length ∨ 50 ≤ ls.length) (fuelP : ℕ) (files : List (List Char)) :
    eafMain env fuelP args files = .undefined := by
  unfold eafMain
  rw [eafOptions_overflow env he.scan he.scanInt args _ ps ls hp hl (by simp [maxLevels]) (by simp [maxLevels]) (by simpa [maxLevels] using h)]

theorem percentile2level_zero (tol : K) (h0 : 0 ≤ tol) (p : K) : percentile2level tol p ((0 : ℕ) : ℤ) = some 1 := by
  unfold percentile2level
  simp [h0]

theorem eafLevels_zero (tol : K) (h0 : 0 ≤ tol) (args : List EafArg) (ps : List K) (ls : List ℤ) (hw : ¬ LevelsWrong 0 args ps ls) :
    ∃ level, eafLevels tol (eafFinal (eafStart K) args ps ls) 0 = some (some level) := by
  unfold eafLevels eafFinal eafStart
  simp only [Bool.false_or, List.nil_append, decide_eq_true_eq]
  by_cases hb : EafArg.best ∈ args
  · rw [if_pos hb]; exact ⟨_, rfl⟩
  rw [if_neg hb]
  by_cases hm : EafArg.median ∈ args
  · rw [if_pos hm, percentile2level_zero tol h0]; exact ⟨_, rfl⟩
  rw [if_neg hm]
  by_cases hwo : EafArg.worst ∈ args
  · rw [if_pos hwo]; exact ⟨_, rfl⟩
  rw [if_neg hwo]
  by_cases hps : ps = []
  · rw [if_neg (by simpa using hps)]
    by_cases hls : ls = []
    · rw [if_neg (by simpa using hls)]; exact ⟨_, rfl⟩
    · exfalso
      obtain ⟨l, hl⟩ := List.exists_mem_of_ne_nil ls hls
      exact hw ⟨hb, hm, hwo, Or.inr ⟨hps, l, hl, by omega⟩⟩
  · rw [if_pos hps, if_neg, mapM_some _ (fun _ => (1 : ℤ)) ps (fun p _ => percentile2level_zero tol h0 p)]
    · exact ⟨_, rfl⟩
    · rw [List.any_eq_true]
      rintro ⟨p, hp, hc⟩
      exact hw ⟨hb, hm, hwo, Or.inl ⟨p, hp, by simpa using hc⟩⟩

theorem verbose_default (args : List EafArg) (hq : EafArg.quiet ∉ args) : args.foldl verboseStep true = true := by
  induction args with
  | nil => rfl
  | cons a args ih =>
    simp only [List.mem_cons, not_or] at hq
    rw [List.foldl_cons, show verboseStep true a = true by cases a <;> first | rfl | exact absurd rfl hq.1, ih hq.2]

theorem verbose_quiet (args : List EafArg) (hv : EafArg.verbose ∉ args) : ∀ b, (b = false ∨ EafArg.quiet ∈ args) → args.foldl verboseStep b = false := by
  induction args with
  | nil => intro b h; simpa using h
  | cons a args ih =>
    intro b h
    simp only [List.mem_cons, not_or] at hv h
    rw [List.foldl_cons]
    refine ih hv.2 _ ?_
    cases a with
    | quiet => exact Or.inl rfl
    | verbose => exact absurd rfl hv.1
    | _ => simpa [verboseStep] using h

/-- **C72, without data**: unless `--quiet` is given, the program reads from a null pointer. -/
theorem C72_no_data_undefined (he : EafEnvOk env) {args : List EafArg} {ps : List K} {ls : List ℤ} (hp : ArgNumbers env.scan (args.filterMap EafArg.percentile?) ps)
    (hl : ArgNumbers env.scanInt (args.filterMap EafArg.level?) ls) (hps : ps.length < 50) (hls : ls.length < 50) (hq : EafArg.quiet ∉ args) {files : List (List Char)} {n : ℕ}
    (hf : FilesRuns env.scan n files []) (hw : ¬ LevelsWrong 0 args ps ls) (fuelP : ℕ) : eafMain env fuelP args files = .undefined := by
  rw [eafMain_eq he hp hl hps hls, eafRead_ok he.scan hf]
  rw [show cumFrom 0 (List.map List.length ([] : List (List (List K)))) = [] from rfl]
  dsimp only [List.length_nil]
  obtain ⟨level, h⟩ := eafLevels_zero env.tol he.tol.1 args ps ls hw
  rw [h]
  dsimp only
  rw [if_pos ⟨verbose_default args hq, rfl⟩]

/-- **C72, without data**: with `--quiet` it is an error. -/
theorem C72_no_data_error (he : EafEnvOk env) {args : List EafArg} {ps : List K} {ls : List ℤ} (hp : ArgNumbers env.scan (args.filterMap EafArg.percentile?) ps)
    (hl : ArgNumbers env.scanInt (args.filterMap EafArg.level?) ls) (hps : ps.length < 50) (hls : ls.length < 50) (hq : EafArg.quiet ∈ args) (hv : EafArg.verbose ∉ args)
    {files : List (List Char)} {n : ℕ} (hf : FilesRuns env.scan n files []) (fuelP : ℕ) : eafMain env fuelP args files = .exit 1 [] := by
  by_cases hw : LevelsWrong 0 args ps ls
  · exact C72_level_error he hp hl hps hls hf hw fuelP
  rw [eafMain_eq he hp hl hps hls, eafRead_ok he.scan hf]
  rw [show cumFrom 0 (List.map List.length ([] : List (List (List K)))) = [] from rfl]
  dsimp only [List.length_nil]
  obtain ⟨level, h⟩ := eafLevels_zero env.tol he.tol.1 args ps ls hw
  rw [h]
  dsimp only
  rw [if_neg (by
    rintro ⟨h1, -⟩
    rw [show (eafFinal (eafStart K) args ps ls).verbose = false from verbose_quiet args hv true (Or.inr hq)] at h1
    cases h1)]
  rw [if_pos rfl]
  unfold attsurf
  rw [if_neg (by omega), if_neg (by omega)]

end

/-! ### Examples and counterexamples -/

/-- An environment for computations. -/
def eafRatEnv : EafMainEnv ℚ where
  scan := scanRat
  scanInt := scanInt
  tol := 1 / 67108864
  mem := ⟨fun _ => 0, fun _ => 0, fun _ m => m + 1⟩
  sortX := fun pts n => (List.range n).insertionSort fun a b => compareXasc (pts a) (pts b) ≤ 0
  sortY := fun pts n => (List.range n).insertionSort fun a b => compareYdesc (pts a) (pts b) ≤ 0
  sortZ := fun pts n => (List.range n).insertionSort fun a b => compareNode3 (pts a) (pts b) ≤ 0
  mn := -1000
  mx := 1000
  junk := 0


theorem insertionSort_qsort (cmp : ℕ → ℕ → ℤ) (htrans : ∀ a b c, cmp a b ≤ 0 → cmp b c ≤ 0 → cmp a c ≤ 0) (htot : ∀ a b, cmp a b ≤ 0 ∨ cmp b a ≤ 0) (l : List ℕ) :
    Qsort cmp l (l.insertionSort fun a b => cmp a b ≤ 0) := by
  have : Std.Total (fun a b => cmp a b ≤ 0) := ⟨htot⟩
  have : IsTrans ℕ (fun a b => cmp a b ≤ 0) := ⟨htrans⟩
  exact ⟨List.perm_insertionSort _ _, List.pairwise_insertionSort _ _⟩

/-- The environment can be met. -/
theorem eafRatEnv_ok : EafEnvOk eafRatEnv where
  scan := scanRat_ok
  scanInt := scanInt_ok
  tol := by constructor <;> norm_num [eafRatEnv]
  grow := fun _ m => Nat.le_succ m
  sortX := fun pts n => insertionSort_qsort (fun a b => compareXasc (pts a) (pts b)) (fun _ _ _ h1 h2 => compareXasc_le.2 ((compareXasc_le.1 h1).trans (compareXasc_le.1 h2)))
    (fun a b => (le_total (pts a 0) (pts b 0)).imp compareXasc_le.2 compareXasc_le.2) _
  sortY := fun pts n => insertionSort_qsort (fun a b => compareYdesc (pts a) (pts b)) (fun _ _ _ h1 h2 => compareYdesc_le.2 ((compareYdesc_le.1 h2).trans (compareYdesc_le.1 h1)))
    (fun a b => (le_total (pts b 1) (pts a 1)).imp compareYdesc_le.2 compareYdesc_le.2) _
  sortZ := fun pts n => insertionSort_qsort (fun a b => compareNode3 (pts a) (pts b)) (fun _ _ _ h1 h2 => compareNode3_le.2 ((compareNode3_le.1 h1).trans (compareNode3_le.1 h2)))
    (fun a b => (le_total (pts a 2) (pts b 2)).imp compareNode3_le.2 compareNode3_le.2) _

/-- **C72 is false for the indices of a single run**: the run is written twice, and counted twice. -/
theorem C72_false_single_run : (eafMain eafRatEnv 0 [.indices none, .diff none] ["1 2\n".toList]).toOption =
      some (0, [(.stdout, .point [1, 2]), (.stdout, .tab), (.stdout, .indices [true, true]), (.stdout, .tab), (.stdout, .counts 1 1), (.stdout, .newline), (.stdout, .newline)]) ∧
    (eafMain eafRatEnv 0 [.diff none] ["1 2\n".toList]).toOption =
      some (0, [(.stdout, .point [1, 2]), (.stdout, .tab), (.stdout, .counts 0 1), (.stdout, .newline), (.stdout, .newline)]) := by
  constructor <;> decide +kernel

/-- **C72 is false for a file that is named twice**: the indices are not written when their file is that of the points, nor are the counts when their file is that of the indices. -/
theorem C72_false_same_file : (eafMain eafRatEnv 0 [.best, .output ['f'], .indices (some ['f'])] ["1 2\n\n2 2\n".toList]).toOption =
      some (0, [(.file ['f'], .point [1, 2]), (.file ['f'], .newline), (.file ['f'], .newline)]) ∧
    (eafMain eafRatEnv 0 [.best, .indices (some ['f']), .diff (some ['f'])] ["1 2\n\n2 2\n".toList]).toOption =
      some (0, [(.stdout, .point [1, 2]), (.stdout, .newline), (.file ['f'], .indices [true, false]), (.file ['f'], .newline), (.stdout, .newline)]) := by
  constructor <;> decide +kernel

/-- Two runs in one file and one in another one, points and counts on the standard output and indices in a file. -/
example : (eafMain eafRatEnv 0 [.level "1,3".toList, .indices (some ['f']), .diff none] ["1 2\n2 1\n\n1 1\n".toList, "0 3\n2 2\n".toList]).toOption =
    some (0, [(.stdout, .point [0, 3]), (.stdout, .tab), (.file ['f'], .indices [false, false, true]), (.file ['f'], .newline), (.stdout, .counts 0 1), (.stdout, .newline),
      (.stdout, .point [1, 1]), (.stdout, .tab), (.file ['f'], .indices [false, true, false]), (.file ['f'], .newline), (.stdout, .counts 0 1), (.stdout, .newline), (.stdout, .newline),
      (.stdout, .point [1, 3]), (.stdout, .tab), (.file ['f'], .indices [true, true, true]), (.file ['f'], .newline), (.stdout, .counts 1 2), (.stdout, .newline),
      (.stdout, .point [2, 2]), (.stdout, .tab), (.file ['f'], .indices [true, true, true]), (.file ['f'], .newline), (.stdout, .counts 1 2), (.stdout, .newline), (.stdout, .newline)]) := by
  decide +kernel

/-- Three objectives. -/
example : (eafMain eafRatEnv 99 [.median] ["1 2 3\n2 1 3\n\n1 1 1\n\n0 0 5".toList]).toOption =
    some (0, [(.stdout, .point [2, 1, 3]), (.stdout, .newline), (.stdout, .point [1, 2, 3]), (.stdout, .newline), (.stdout, .point [1, 1, 5]), (.stdout, .newline), (.stdout, .newline)]) := by
  decide +kernel

/-- The numbers of `"1,3"`. -/
theorem sepNumbers_ex : SepNumbers scanInt "1,3".toList [1, 3] :=
  .num _ ",3".toList 1 _ (by decide) (.sep ',' "3".toList _ (Or.inl rfl) (by decide) (.num _ [] 3 _ (by decide) (.nil _ (by simp))))

/-- The files of the examples. -/
theorem filesRuns_ex : FilesRuns scanRat 2 ["1 2\n2 1\n\n1 1\n".toList, "# none\n".toList, "0 3\n2 2\n".toList] [[[1, 2], [2, 1]], [[1, 1]], [[0, 3], [2, 2]]] :=
  .data _ _ [[[1, 2], [2, 1]], [[1, 1]]] _ (checkText_sound (by decide +kernel)) (.empty _ _ _ ⟨by decide, by
    intro l hl
    have : l = "# none".toList ∨ l = [] := by simpa [textLines] using hl
    rcases this with rfl | rfl
    · exact Or.inl ⟨" none".toList, rfl⟩
    · exact Or.inr (by simp)⟩ (.data _ _ [[[0, 3], [2, 2]]] [] (checkText_sound (by decide +kernel)) .nil))

/-- The hypotheses of `C72_eaf_partial` can be met. -/
example : ∃ N, ∀ fuelP ≥ N, ∃ ks surfaces written,
    eafMain eafRatEnv fuelP [.level "1,3".toList, .indices (some ['f']), .diff none] ["1 2\n2 1\n\n1 1\n".toList, "# none\n".toList, "0 3\n2 2\n".toList] = .exit 0 written ∧
    LevelsOf eafRatEnv.tol 3 [.level "1,3".toList, .indices (some ['f']), .diff none] [] [1, 3] ks ∧
    List.Forall₂ (IsSurface 2 [[[1, 2], [2, 1]], [[1, 1]], [[0, 3], [2, 2]]]) ks surfaces ∧
    ∀ s, (written.filter fun t => t.1 = s).map (·.2) = eafText s .stdout (some (.file ['f'])) (some .stdout) surfaces :=
  C72_eaf_partial (n := 2) eafRatEnv_ok (args := [.level "1,3".toList, .indices (some ['f']), .diff none]) (ps := []) (ls := [1, 3]) .nil (.cons _ _ [1, 3] [] sepNumbers_ex (by simp) .nil) (by simp)
    (by simp) (by
      refine ⟨?_, ?_⟩
      · intro f hf _ h
        exact absurd h (by rw [show pointsTo [.level "1,3".toList, .indices (some ['f']), .diff none] = .stdout from by decide]; simp)
      · intro f hf
        rw [show (List.filterMap EafArg.diff? [.level "1,3".toList, .indices (some ['f']), .diff none]).getLast? = some none from by decide] at hf
        cases hf) filesRuns_ex (by simp) (Or.inl ⟨rfl, by decide⟩) (by
      rintro ⟨-, -, -, ⟨p, hp, -⟩ | ⟨-, l, hl, h⟩⟩
      · simp at hp
      · simp at hl
        rcases hl with rfl | rfl <;> simp at h) (Or.inl (by simp))

/-- A level that is larger than the number of runs. -/
example (fuelP : ℕ) : eafMain eafRatEnv fuelP [.level "1,3".toList] ["1 2\n\n1 1\n".toList] = .exit 1 [] :=
  C72_level_error (args := [.level "1,3".toList]) (n := 2) (runs := [[[1, 2]], [[1, 1]]]) eafRatEnv_ok (ps := []) (ls := [1, 3]) .nil (.cons _ _ [1, 3] [] sepNumbers_ex (by simp) .nil) (by simp) (by simp)
    (.data _ _ [[[1, 2]], [[1, 1]]] [] (checkText_sound (by decide +kernel)) .nil)
    ⟨by simp, by simp, by simp, Or.inr ⟨rfl, 3, by simp, by simp⟩⟩ fuelP

/-- Fifty levels in 25 options of two. -/
example (fuelP : ℕ) (files : List (List Char)) : eafMain eafRatEnv fuelP (List.replicate 25 (.level "1,3".toList)) files = .undefined := by
  refine C72_overflow eafRatEnv_ok (ps := []) (ls := (List.replicate 25 [1, 3]).flatten) ?_ ?_ (Or.inr (by decide)) fuelP files
  · exact .nil
  · have : ∀ n : ℕ, ArgNumbers scanInt ((List.replicate n (EafArg.level "1,3".toList)).filterMap EafArg.level?) (List.replicate n [1, 3]).flatten := by
      intro n
      induction n with
      | zero => exact .nil
      | succ n ih => exact .cons _ _ [1, 3] _ sepNumbers_ex (by simp) ih
    exact this 25

/-- A file with three objectives after one with two. -/
example (fuelP : ℕ) : eafMain eafRatEnv fuelP [.best] (["1 2\n".toList] ++ "1 2 3\n".toList :: []) = .exit 1 [] := by
  have h3 : TextSets scanRat "1 2 3\n".toList 3 _ := (checkText_sound (sets := [[[1, 2, 3]]]) (by decide +kernel)).scanMap _
  refine C72_file_error (n := 2) (runs := [[[1, 2]]]) eafRatEnv_ok (ps := []) (ls := []) .nil .nil (by simp) (by simp)
    (.data _ _ [[[1, 2]]] [] (checkText_sound (by decide +kernel)) .nil) ?_ ?_ [] fuelP
  · rcases textSets_or_unreadable scanRat "1 2 3\n".toList (by decide) 2 with ⟨n, sets, h0, h⟩ | h
    · have e1 := readFile_ok scanRat_ok h (Or.inl rfl)
      have e2 := readFile_ok scanRat_ok h3 (Or.inl rfl)
      rw [e1] at e2
      simp at e2
      omega
    · exact h
  · rintro ⟨-, h⟩
    have := h "1 2 3".toList (by simp [textLines])
    rcases this with ⟨t, ht⟩ | h
    · simp at ht
    · exact absurd (h '1' (by simp)) (by decide)

/-- Four objectives, and no data. -/
example (fuelP : ℕ) : eafMain eafRatEnv fuelP [] ["1 2 3 4\n".toList] = .exit 1 [] ∧ eafMain eafRatEnv fuelP [] ["".toList] = .undefined ∧ eafMain eafRatEnv fuelP [.quiet] ["".toList] = .exit 1 [] := by
  have he : FilesRuns scanRat 2 ["".toList] [] := .empty _ _ _ ⟨by simp, by simp [textLines, IsLine]⟩ .nil
  refine ⟨?_, ?_, ?_⟩
  · exact C72_objectives_error (n := 4) (runs := [[[1, 2, 3, 4]]]) eafRatEnv_ok (ps := []) (ls := []) .nil .nil (by simp) (by simp)
      (.data _ _ [[[1, 2, 3, 4]]] [] (checkText_sound (by decide +kernel)) .nil) (by simp) (by omega) fuelP
  · exact C72_no_data_undefined eafRatEnv_ok (ps := []) (ls := []) .nil .nil (by simp) (by simp) (by simp) he (by rintro ⟨-, -, -, ⟨p, hp, -⟩ | ⟨-, l, hl, -⟩⟩ <;> simp at *) fuelP
  · exact C72_no_data_error eafRatEnv_ok (ps := []) (ls := []) .nil .nil (by simp) (by simp) (by simp) (by simp) he fuelP

end Moo
