import Verif.Lemmas.Getopt

/-!
# C93: the command lines that the programs accept
-/

set_option autoImplicit false

namespace Moo

/-- A letter has one kind in the table, so the check of letters that occur in it is enough. -/
theorem argCheck_sound {I : Type} [DecidableEq I] {t : OptTable} {cases : OptVal → Option I} {G : List (OptDoc I)}
    (h : ((t.short.all fun c => ((shortKind t.short c).bind fun k => (cases (.ch c)).map fun i => G.any fun d => d.id = i ∧ d.arg = k).getD true) &&
      (t.long.all fun o => ((cases o.val).map fun i => G.any fun d => d.id = i ∧ d.arg = o.arg).getD true)) = true) (argv : List Word) (i : I) (a : Option Word)
    (hm : (i, a) ∈ (cliParse t cases argv).1) : ∃ d ∈ G, d.id = i ∧ (d.arg = .required → a ≠ none) ∧ (d.arg = .no → a = none) := by
  rw [Bool.and_eq_true, List.all_eq_true, List.all_eq_true] at h
  have hs : ∀ c k i, shortKind t.short c = some k → cases (.ch c) = some i → ∃ d ∈ G, d.id = i ∧ d.arg = k := by
    intro c k i h1 h2
    have := h.1 c (shortKind_mem _ _ _ h1)
    rw [h1, Option.bind_some, h2, Option.map_some, Option.getD_some, List.any_eq_true] at this
    obtain ⟨d, hd, e⟩ := this
    exact ⟨d, hd, by simpa using e⟩
  have hl : ∀ o ∈ t.long, ∀ i, cases o.val = some i → ∃ d ∈ G, d.id = i ∧ d.arg = o.arg := by
    intro o ho i h2
    have := h.2 o ho
    rw [h2, Option.map_some, Option.getD_some, List.any_eq_true] at this
    obtain ⟨d, hd, e⟩ := this
    exact ⟨d, hd, by simpa using e⟩
  obtain ⟨d, hd, e1, e2⟩ := cliParse_arg G hs hl argv i a hm
  refine ⟨d, hd, e1, fun hk => ?_, fun hk => ?_⟩
  · rw [hk] at e2; exact e2
  · rw [hk] at e2; exact e2

theorem hv_agree : OptAgree hvTable hvCases (hvUsage ++ hvExtra) := optAgree_of_check _ _ _ (by decide +kernel)

/-- `hv` accepts exactly the command lines of these options, and takes the options and the file names from them as they are given, in their order. -/
theorem C93_hv (argv : List Word) (os : List (HvOpt × Option Word)) (fs : List Word) :
    cliParse hvTable hvCases argv = (os, .files fs) ↔ CmdLine (hvUsage ++ hvExtra) argv os fs := cliParse_iff hv_agree argv os fs

/-- Whatever comes before on the command line of `hv` (without `--`) does not change how the rest is read. -/
theorem C93_hv_append (pre rest : List Word) (os : List (HvOpt × Option Word)) (fs : List Word) (hn : ∀ w ∈ pre, w ≠ ['-', '-']) (h : CmdLine (hvUsage ++ hvExtra) pre os fs) :
    cliParse hvTable hvCases (pre ++ rest) = (os ++ (cliParse hvTable hvCases rest).1, addFiles fs (cliParse hvTable hvCases rest).2) := cliParse_append hv_agree pre rest os fs hn h

/-- Also before an error: an option of `hv` that must have an argument has one, and an option that has none has none. -/
theorem C93_hv_args (argv : List Word) (i : HvOpt) (a : Option Word) (h : (i, a) ∈ (cliParse hvTable hvCases argv).1) :
    ∃ d ∈ hvUsage ++ hvExtra, d.id = i ∧ (d.arg = .required → a ≠ none) ∧ (d.arg = .no → a = none) := argCheck_sound (by decide +kernel) argv i a h

/-- No command line makes `hv` reach the `default` of its `switch`. -/
theorem C93_hv_no_abort (argv : List Word) : (cliParse hvTable hvCases argv).2 ≠ .abort := by
  intro h
  obtain ⟨c, hc, -⟩ := cliParse_abort _ _ (by decide +kernel) argv h
  rw [show noCase hvTable hvCases = [] from by decide +kernel] at hc
  simp at hc

theorem eps_agree : OptAgree epsTable epsCases (epsUsage ++ epsExtra) := optAgree_of_check _ _ _ (by decide +kernel)

/-- `epsilon` accepts exactly the command lines of these options, and takes the options and the file names from them as they are given, in their order. -/
theorem C93_epsilon (argv : List Word) (os : List (EpsOpt × Option Word)) (fs : List Word) :
    cliParse epsTable epsCases argv = (os, .files fs) ↔ CmdLine (epsUsage ++ epsExtra) argv os fs := cliParse_iff eps_agree argv os fs

/-- Whatever comes before on the command line of `epsilon` (without `--`) does not change how the rest is read. -/
theorem C93_epsilon_append (pre rest : List Word) (os : List (EpsOpt × Option Word)) (fs : List Word) (hn : ∀ w ∈ pre, w ≠ ['-', '-']) (h : CmdLine (epsUsage ++ epsExtra) pre os fs) :
    cliParse epsTable epsCases (pre ++ rest) = (os ++ (cliParse epsTable epsCases rest).1, addFiles fs (cliParse epsTable epsCases rest).2) := cliParse_append eps_agree pre rest os fs hn h

/-- Also before an error: an option of `epsilon` that must have an argument has one, and an option that has none has none. -/
theorem C93_epsilon_args (argv : List Word) (i : EpsOpt) (a : Option Word) (h : (i, a) ∈ (cliParse epsTable epsCases argv).1) :
    ∃ d ∈ epsUsage ++ epsExtra, d.id = i ∧ (d.arg = .required → a ≠ none) ∧ (d.arg = .no → a = none) := argCheck_sound (by decide +kernel) argv i a h

/-- `epsilon` reaches `abort()` only if one of these letters is in a word with one dash. -/
theorem C93_epsilon_abort_only (argv : List Word) (h : (cliParse epsTable epsCases argv).2 = .abort) : ∃ c ∈ (['u'] : List Char), ∃ cs, '-' :: cs ∈ argv ∧ cs.head? ≠ some '-' ∧ c ∈ cs := by
  have := cliParse_abort _ _ (by decide +kernel) argv h
  rwa [show noCase epsTable epsCases = ['u'] from by decide +kernel] at this

theorem igd_agree : OptAgree igdTable igdCases (withoutLetters ['p'] igdUsage ++ igdExtra) := optAgree_of_check _ _ _ (by decide +kernel)

/-- `igd` accepts exactly the command lines of these options, and takes the options and the file names from them as they are given, in their order. -/
theorem C93_igd (argv : List Word) (os : List (IgdOpt × Option Word)) (fs : List Word) :
    cliParse igdTable igdCases argv = (os, .files fs) ↔ CmdLine (withoutLetters ['p'] igdUsage ++ igdExtra) argv os fs := cliParse_iff igd_agree argv os fs

/-- Whatever comes before on the command line of `igd` (without `--`) does not change how the rest is read. -/
theorem C93_igd_append (pre rest : List Word) (os : List (IgdOpt × Option Word)) (fs : List Word) (hn : ∀ w ∈ pre, w ≠ ['-', '-']) (h : CmdLine (withoutLetters ['p'] igdUsage ++ igdExtra) pre os fs) :
    cliParse igdTable igdCases (pre ++ rest) = (os ++ (cliParse igdTable igdCases rest).1, addFiles fs (cliParse igdTable igdCases rest).2) := cliParse_append igd_agree pre rest os fs hn h

/-- Also before an error: an option of `igd` that must have an argument has one, and an option that has none has none. -/
theorem C93_igd_args (argv : List Word) (i : IgdOpt) (a : Option Word) (h : (i, a) ∈ (cliParse igdTable igdCases argv).1) :
    ∃ d ∈ withoutLetters ['p'] igdUsage ++ igdExtra, d.id = i ∧ (d.arg = .required → a ≠ none) ∧ (d.arg = .no → a = none) := argCheck_sound (by decide +kernel) argv i a h

/-- `igd` reaches `abort()` only if one of these letters is in a word with one dash. -/
theorem C93_igd_abort_only (argv : List Word) (h : (cliParse igdTable igdCases argv).2 = .abort) : ∃ c ∈ (['m', 'u'] : List Char), ∃ cs, '-' :: cs ∈ argv ∧ cs.head? ≠ some '-' ∧ c ∈ cs := by
  have := cliParse_abort _ _ (by decide +kernel) argv h
  rwa [show noCase igdTable igdCases = ['m', 'u'] from by decide +kernel] at this

theorem nd_agree : OptAgree ndTable ndCases (withoutLetters ['m', 'L'] ndUsage ++ ndExtra) := optAgree_of_check _ _ _ (by decide +kernel)

/-- `nondominated` accepts exactly the command lines of these options, and takes the options and the file names from them as they are given, in their order. -/
theorem C93_nondominated (argv : List Word) (os : List (NdOpt × Option Word)) (fs : List Word) :
    cliParse ndTable ndCases argv = (os, .files fs) ↔ CmdLine (withoutLetters ['m', 'L'] ndUsage ++ ndExtra) argv os fs := cliParse_iff nd_agree argv os fs

/-- Whatever comes before on the command line of `nondominated` (without `--`) does not change how the rest is read. -/
theorem C93_nondominated_append (pre rest : List Word) (os : List (NdOpt × Option Word)) (fs : List Word) (hn : ∀ w ∈ pre, w ≠ ['-', '-']) (h : CmdLine (withoutLetters ['m', 'L'] ndUsage ++ ndExtra) pre os fs) :
    cliParse ndTable ndCases (pre ++ rest) = (os ++ (cliParse ndTable ndCases rest).1, addFiles fs (cliParse ndTable ndCases rest).2) := cliParse_append nd_agree pre rest os fs hn h

/-- Also before an error: an option of `nondominated` that must have an argument has one, and an option that has none has none. -/
theorem C93_nondominated_args (argv : List Word) (i : NdOpt) (a : Option Word) (h : (i, a) ∈ (cliParse ndTable ndCases argv).1) :
    ∃ d ∈ withoutLetters ['m', 'L'] ndUsage ++ ndExtra, d.id = i ∧ (d.arg = .required → a ≠ none) ∧ (d.arg = .no → a = none) := argCheck_sound (by decide +kernel) argv i a h

/-- No command line makes `nondominated` reach the `default` of its `switch`. -/
theorem C93_nondominated_no_abort (argv : List Word) : (cliParse ndTable ndCases argv).2 ≠ .abort := by
  intro h
  obtain ⟨c, hc, -⟩ := cliParse_abort _ _ (by decide +kernel) argv h
  rw [show noCase ndTable ndCases = [] from by decide +kernel] at hc
  simp at hc

theorem ns_agree : OptAgree nsTable nsCases (nsUsage ++ nsExtra) := optAgree_of_check _ _ _ (by decide +kernel)

/-- `ndsort` accepts exactly the command lines of these options, and takes the options and the file names from them as they are given, in their order. -/
theorem C93_ndsort (argv : List Word) (os : List (NsOpt × Option Word)) (fs : List Word) :
    cliParse nsTable nsCases argv = (os, .files fs) ↔ CmdLine (nsUsage ++ nsExtra) argv os fs := cliParse_iff ns_agree argv os fs

/-- Whatever comes before on the command line of `ndsort` (without `--`) does not change how the rest is read. -/
theorem C93_ndsort_append (pre rest : List Word) (os : List (NsOpt × Option Word)) (fs : List Word) (hn : ∀ w ∈ pre, w ≠ ['-', '-']) (h : CmdLine (nsUsage ++ nsExtra) pre os fs) :
    cliParse nsTable nsCases (pre ++ rest) = (os ++ (cliParse nsTable nsCases rest).1, addFiles fs (cliParse nsTable nsCases rest).2) := cliParse_append ns_agree pre rest os fs hn h

/-- Also before an error: an option of `ndsort` that must have an argument has one, and an option that has none has none. -/
theorem C93_ndsort_args (argv : List Word) (i : NsOpt) (a : Option Word) (h : (i, a) ∈ (cliParse nsTable nsCases argv).1) :
    ∃ d ∈ nsUsage ++ nsExtra, d.id = i ∧ (d.arg = .required → a ≠ none) ∧ (d.arg = .no → a = none) := argCheck_sound (by decide +kernel) argv i a h

/-- No command line makes `ndsort` reach the `default` of its `switch`. -/
theorem C93_ndsort_no_abort (argv : List Word) : (cliParse nsTable nsCases argv).2 ≠ .abort := by
  intro h
  obtain ⟨c, hc, -⟩ := cliParse_abort _ _ (by decide +kernel) argv h
  rw [show noCase nsTable nsCases = [] from by decide +kernel] at hc
  simp at hc

theorem ds_agree : OptAgree dsTable dsCases (dsUsage ++ dsExtra) := optAgree_of_check _ _ _ (by decide +kernel)

/-- `dominatedsets` accepts exactly the command lines of these options, and takes the options and the file names from them as they are given, in their order. -/
theorem C93_dominatedsets (argv : List Word) (os : List (DsOpt × Option Word)) (fs : List Word) :
    cliParse dsTable dsCases argv = (os, .files fs) ↔ CmdLine (dsUsage ++ dsExtra) argv os fs := cliParse_iff ds_agree argv os fs

/-- Whatever comes before on the command line of `dominatedsets` (without `--`) does not change how the rest is read. -/
theorem C93_dominatedsets_append (pre rest : List Word) (os : List (DsOpt × Option Word)) (fs : List Word) (hn : ∀ w ∈ pre, w ≠ ['-', '-']) (h : CmdLine (dsUsage ++ dsExtra) pre os fs) :
    cliParse dsTable dsCases (pre ++ rest) = (os ++ (cliParse dsTable dsCases rest).1, addFiles fs (cliParse dsTable dsCases rest).2) := cliParse_append ds_agree pre rest os fs hn h

/-- Also before an error: an option of `dominatedsets` that must have an argument has one, and an option that has none has none. -/
theorem C93_dominatedsets_args (argv : List Word) (i : DsOpt) (a : Option Word) (h : (i, a) ∈ (cliParse dsTable dsCases argv).1) :
    ∃ d ∈ dsUsage ++ dsExtra, d.id = i ∧ (d.arg = .required → a ≠ none) ∧ (d.arg = .no → a = none) := argCheck_sound (by decide +kernel) argv i a h

/-- No command line makes `dominatedsets` reach the `default` of its `switch`. -/
theorem C93_dominatedsets_no_abort (argv : List Word) : (cliParse dsTable dsCases argv).2 ≠ .abort := by
  intro h
  obtain ⟨c, hc, -⟩ := cliParse_abort _ _ (by decide +kernel) argv h
  rw [show noCase dsTable dsCases = [] from by decide +kernel] at hc
  simp at hc

theorem eaf_agree : OptAgree eafTable eafCases (eafUsage ++ eafExtra) := optAgree_of_check _ _ _ (by decide +kernel)

/-- `eaf` accepts exactly the command lines of these options, and takes the options and the file names from them as they are given, in their order. -/
theorem C93_eaf (argv : List Word) (os : List (EafOpt × Option Word)) (fs : List Word) :
    cliParse eafTable eafCases argv = (os, .files fs) ↔ CmdLine (eafUsage ++ eafExtra) argv os fs := cliParse_iff eaf_agree argv os fs

/-- Whatever comes before on the command line of `eaf` (without `--`) does not change how the rest is read. -/
theorem C93_eaf_append (pre rest : List Word) (os : List (EafOpt × Option Word)) (fs : List Word) (hn : ∀ w ∈ pre, w ≠ ['-', '-']) (h : CmdLine (eafUsage ++ eafExtra) pre os fs) :
    cliParse eafTable eafCases (pre ++ rest) = (os ++ (cliParse eafTable eafCases rest).1, addFiles fs (cliParse eafTable eafCases rest).2) := cliParse_append eaf_agree pre rest os fs hn h

/-- Also before an error: an option of `eaf` that must have an argument has one, and an option that has none has none. -/
theorem C93_eaf_args (argv : List Word) (i : EafOpt) (a : Option Word) (h : (i, a) ∈ (cliParse eafTable eafCases argv).1) :
    ∃ d ∈ eafUsage ++ eafExtra, d.id = i ∧ (d.arg = .required → a ≠ none) ∧ (d.arg = .no → a = none) := argCheck_sound (by decide +kernel) argv i a h

/-- No command line makes `eaf` reach the `default` of its `switch`. -/
theorem C93_eaf_no_abort (argv : List Word) : (cliParse eafTable eafCases argv).2 ≠ .abort := by
  intro h
  obtain ⟨c, hc, -⟩ := cliParse_abort _ _ (by decide +kernel) argv h
  rw [show noCase eafTable eafCases = [] from by decide +kernel] at hc
  simp at hc

/-- `epsilon -u` aborts, whatever follows. -/
theorem C93_epsilon_u_aborts (ws : List Word) : cliParse epsTable epsCases (['-', 'u'] :: ws) = ([], .abort) := rfl

/-- So do `igd -u` and `igd -m`. -/
theorem C93_igd_u_m_abort (ws : List Word) : cliParse igdTable igdCases (['-', 'u'] :: ws) = ([], .abort) ∧ cliParse igdTable igdCases (['-', 'm'] :: ws) = ([], .abort) := ⟨rfl, rfl⟩

/-- The option `-p` of the usage message of `igd` is an error, with its argument in the same word or in the next. -/
theorem C93_igd_p_rejected (arg : List Char) (ws : List Word) : cliParse igdTable igdCases (('-' :: 'p' :: arg) :: ws) = ([], .bad) := rfl

/-- The options `-m` and `-L` of the usage message of `nondominated` are errors. -/
theorem C93_nondominated_m_L_rejected (arg : List Char) (ws : List Word) :
    cliParse ndTable ndCases (('-' :: 'm' :: arg) :: ws) = ([], .bad) ∧ cliParse ndTable ndCases (('-' :: 'L' :: arg) :: ws) = ([], .bad) := ⟨rfl, rfl⟩

/-- What the usage messages say about `-p`, `-m` and `-L`. -/
theorem C93_usage_has : ShortIs igdUsage 'p' .exponent .required ∧ ShortIs ndUsage 'm' .maximise .no ∧ ShortIs ndUsage 'L' .log .required := by
  refine ⟨(shortIs_iff ..).2 (by decide), (shortIs_iff ..).2 (by decide), (shortIs_iff ..).2 (by decide)⟩

/-- `hv a -vr "1 1" --suf=.hv b -- -c`: flags in one word, an argument in the next word, an abbreviation, and a file name that begins with a dash. -/
example : CmdLine (hvUsage ++ hvExtra) ["a".toList, "-vr".toList, "1 1".toList, "--suf=.hv".toList, "b".toList, "--".toList, "-c".toList]
    [(.verbose, none), (.reference, some "1 1".toList), (.suffix, some ".hv".toList)] ["a".toList, "b".toList, "-c".toList] :=
  (C93_hv _ _ _).1 (by decide +kernel)

/-- The same derivation by hand. -/
example : CmdLine (hvUsage ++ hvExtra) [['a'], ['-', 'v', 'r'], ['1'], ['-', '-', 'u']] [(.verbose, none), (.reference, some ['1']), (.union, none)] [['a']] := by
  refine .file ['a'] _ _ _ (.inr (by decide)) ?_
  refine .shortNext 'v' ['r'] [(HvOpt.verbose, none)] .reference ['1'] _ _ _ (by decide) ?_ ?_
  · exact .flag _ _ _ _ _ ((shortIs_iff ..).2 (by decide)) (.next _ _ ((shortIs_iff ..).2 (by decide)))
  · exact .long ['u'] HvOpt.union .no _ _ _ ((longIs_iff ..).2 (by decide)) (by decide) .nil

/-- `eaf -i -dD f`: optional arguments are in the same word. -/
example : CmdLine (eafUsage ++ eafExtra) [['-', 'i'], ['-', 'd', 'D'], ['f']] [(.indices, none), (.diff, some ['D'])] [['f']] := (C93_eaf _ _ _).1 (by decide +kernel)

/-- `--f` is not an abbreviation for `nondominated`: it has `--filter` and `--force-bounds`. -/
example : cliParse ndTable ndCases ["--f".toList] = ([], .bad) ∧ cliParse ndTable ndCases ["--max".toList] = ([(.maximise, none)], .files []) := by decide +kernel

end Moo
