import Verif.Props.FsMain
import Verif.Props.FsInd
import Verif.Props.FsNd
import Verif.Props.IndMain
import Verif.Props.NdMain

/-!
# C94: examples, and what goes wrong
-/

set_option autoImplicit false

namespace Moo

/-- The status, the standard output and some of the files after a run. -/
def RunOut.view (names : List Word) : RunOut → Option (ℕ × String × List (Option String))
  | .undefined => none
  | .abort => none
  | .exit status out files => some (status, String.ofList out, names.map fun n => (files n).map String.ofList)

/-- Files with these names and contents. -/
def fsOf (l : List (String × String)) : Files := fun n => (l.lookup (String.ofList n)).map String.toList

/-- A command line. -/
def wordsOf (l : List String) : List Word := l.map String.toList

/-- The conversion of the examples. -/
def showExt (v : Ext ℚ) : List Char :=
  match v with
  | some (some x) => intText x.floor
  | _ => ['i']

/-- The library of the examples, for two objectives. -/
def ratLib : HvLib ℚ := fun _ _ n => ⟨List.range n, fun _ => [], 0, ⟨fun _ _ => 0, fun _ _ => 0, fun _ => 0, fun _ _ => 0, fun _ _ => 0, fun _ => 0, AvlHeap.empty⟩⟩

/-- **C94 ('-')**: the usage message of `hv` says that '-' is the standard input; the program takes it for the name of a file. -/
theorem C94_hv_dash {K : Type*} [Field K] [LinearOrder K] (scan : NumScan K) (lib : HvLib K) (fmt : K → List Char) (t : CliTexts) (stdin : List Char) (files : Files) (h : files ['-'] = none) :
    hvProgram scan lib fmt t [['-']] stdin files = .exit 1 [] files := by
  have hp : cliParse hvTable hvCases [['-']] = ([], .files [['-']]) := by decide +kernel
  unfold hvProgram
  simp only [hp, cliRun, hvRun, runFiles, h]

/-- **C94 (an input is overwritten)**: the output of `nondominated --filter a a_dat` for `a` goes to `a_dat`, which is read after that: the 5 5 of `a_dat` is lost, and its output is that of `a`. -/
theorem C94_nondominated_clobber :
    (ndProgram ratEnv ⟨[], []⟩ (wordsOf ["--filter", "a", "a_dat"]) [] (fsOf [("a", "1 1\n2 2\n"), ("a_dat", "5 5")])).view (wordsOf ["a", "a_dat", "a_dat_dat"]) =
      some (1, "", [some "1 1\n2 2\n", some "1 1\n\n", some "1 1\n\n"]) ∧
    ndShow (ndMain ratEnv [.filter] [] ["1 1\n2 2\n".toList, "5 5".toList]) = some (1, [(some 0, "1 1\n\n"), (some 1, "5 5\n\n")]) := by
  constructor <;> decide +kernel

/-- Without a pair like that the outputs are those of the contents. -/
example : (ndProgram ratEnv ⟨[], []⟩ (wordsOf ["-f", "a", "b"]) [] (fsOf [("a", "1 1\n2 2\n"), ("b", "5 5")])).view (wordsOf ["a", "a_dat", "b_dat", "c"]) =
    some (1, "", [some "1 1\n2 2\n", some "1 1\n\n", some "5 5\n\n", none]) := by decide +kernel

/-- The theorem applies to it. -/
example : TextsOutcome (wordsOf ["a", "b"]) "_dat".toList (fsOf [("a", "1 1\n2 2\n"), ("b", "5 5")]) (ndMain ratEnv [.filter] [] ["1 1\n2 2\n".toList, "5 5".toList])
    (ndProgram ratEnv ⟨[], []⟩ (wordsOf ["-f", "a", "b"]) [] (fsOf [("a", "1 1\n2 2\n"), ("b", "5 5")])) :=
  C94_nondominated ratEnv ⟨[], []⟩ _ [(.filter, none)] (wordsOf ["a", "b"]) ((C93_nondominated _ _ _).1 (by decide +kernel)) (by decide) (by decide) (by decide) [] _ _
    (.cons (by decide +kernel) (.cons (by decide +kernel) .nil)) (by decide) (by unfold NoClobber; decide +kernel)

/-- An unreadable file: with both bounds given, the output for the files that come earlier was written; without a bound all files were read first, and nothing was. -/
example : (ndProgram ratEnv ⟨[], []⟩ (wordsOf ["-f", "-l", "0 0", "-u9 9", "a", "b"]) [] (fsOf [("a", "1 1\n2 2\n"), ("b", "5 x")])).view (wordsOf ["a_dat", "b_dat"]) = some (1, "", [some "1 1\n\n", none]) ∧
    (ndProgram ratEnv ⟨[], []⟩ (wordsOf ["-f", "a", "b"]) [] (fsOf [("a", "1 1\n2 2\n"), ("b", "5 x")])).view (wordsOf ["a_dat", "b_dat"]) = some (1, "", [none, none]) := by
  constructor <;> decide +kernel

/-- A file that does not exist. -/
example (status : ℕ) (out : List Char) (files' : Files)
    (h : ndProgram ratEnv ⟨[], []⟩ (wordsOf ["-f", "a", "b"]) [] (fsOf [("a", "1 1\n2 2\n")]) = .exit status out files') : status = 1 ∧ out = [] ∧ files' = fsOf [("a", "1 1\n2 2\n")] := by
  have := C94_nondominated_missing ratEnv ⟨[], []⟩ _ [(.filter, none)] (wordsOf ["a", "b"]) ((C93_nondominated _ _ _).1 (by decide +kernel)) (by decide) (by decide) [] _ _ rfl ['b'] (by decide)
    (by decide +kernel) (by decide +kernel) status out files' h
  exact ⟨this.1, this.2 (Or.inl (by decide))⟩

/-- A check writes nothing. -/
example : (ndProgram ratEnv ⟨[], []⟩ (wordsOf ["a"]) [] (fsOf [("a", "1 1\n2 2\n")])).view (wordsOf ["a", "a_dat"]) = some (1, "", [some "1 1\n2 2\n", none]) := by decide +kernel

/-- `epsilon a -r r --suff=_e b`: the program fails after the negative value (C68), and there is no output file for `b`. -/
example : (epsilonProgram scanRat (fun _ => 0) showExt ⟨[], []⟩ (wordsOf ["a", "-r", "r", "--suff=_e", "b"]) [] (fsOf [("a", "2 1\n3 3\n\n0 0\n"), ("b", "4 1"), ("r", "1 2\n2 3\n")])).view
    (wordsOf ["a", "a_e", "b_e"]) = some (1, "", [some "2 1\n3 3\n\n0 0\n", some "1\n-1\n", none]) := by decide +kernel

/-- The theorem applies to it. -/
example (junk : ℕ → ℤ) : FilesOutcome showExt (fun text => ∃ n, ¬ Unreadable scanRat text n) (wordsOf ["a", "b"]) ["2 1\n3 3\n\n0 0\n".toList, "4 1".toList] (some "_e".toList)
    (fsOf [("a", "2 1\n3 3\n\n0 0\n"), ("b", "4 1"), ("r", "1 2\n2 3\n")]) (epsilonMain scanRat junk true true [.reference "1 2\n2 3\n".toList] [] ["2 1\n3 3\n\n0 0\n".toList, "4 1".toList])
    (epsilonProgram scanRat junk showExt ⟨[], []⟩ (wordsOf ["a", "-r", "r", "--suff=_e", "b"]) [] (fsOf [("a", "2 1\n3 3\n\n0 0\n"), ("b", "4 1"), ("r", "1 2\n2 3\n")])) := by
  have := C94_epsilon (junk := junk) scanRat_ok showExt ⟨[], []⟩ (wordsOf ["a", "-r", "r", "--suff=_e", "b"]) [(.reference, some ['r']), (.suffix, some "_e".toList)] (wordsOf ["a", "b"])
    ((C93_epsilon _ _ _).1 (by decide +kernel)) (by decide) (by decide) (by decide) [] (fsOf [("a", "2 1\n3 3\n\n0 0\n"), ("b", "4 1"), ("r", "1 2\n2 3\n")])
    (by intro name h; simp at h; subst h; decide +kernel) ["2 1\n3 3\n\n0 0\n".toList, "4 1".toList] (.cons (by decide +kernel) (.cons (by decide +kernel) .nil))
    (by intro s h; simp [lastArg] at h; subst h; unfold NoClobber; decide +kernel)
  exact this

/-- `igd` on the same files. -/
example (junk : ℕ → ℤ) (scan : NumScan ℝ) (hs : ScanOk scan) (fmt : List (WithTop ℝ) → List Char) (atoi : Word → ℕ) (t : CliTexts) : ∀ p, p = igdMain scan junk ⟨true, true, true, true, true⟩ (atoi ['2']) false
    [.reference "1 2\n2 3\n".toList] [] ["2 1\n3 3\n\n0 0\n".toList, "4 1".toList] → ∀ status w, p = .exit status w →
    igdProgram scan atoi junk fmt t (wordsOf ["--all", "-r", "r", "a", "b", "--exponent=2"]) [] (fsOf [("a", "2 1\n3 3\n\n0 0\n"), ("b", "4 1"), ("r", "1 2\n2 3\n")]) =
      .exit status (valueLines fmt (w.map Prod.snd)) (fsOf [("a", "2 1\n3 3\n\n0 0\n"), ("b", "4 1"), ("r", "1 2\n2 3\n")]) := by
  intro p hp status w hw
  have := C94_igd (junk := junk) atoi hs fmt t (wordsOf ["--all", "-r", "r", "a", "b", "--exponent=2"]) [(.all, none), (.reference, some ['r']), (.exponent, some ['2'])] (wordsOf ["a", "b"])
    ((C93_igd _ _ _).1 (by decide +kernel)) (by decide) (by decide) (by decide) [] (fsOf [("a", "2 1\n3 3\n\n0 0\n"), ("b", "4 1"), ("r", "1 2\n2 3\n")])
    (by intro name h; simp at h; subst h; decide +kernel) ["2 1\n3 3\n\n0 0\n".toList, "4 1".toList] (.cons (by decide +kernel) (.cons (by decide +kernel) .nil))
    (by intro s h; simp [lastArg] at h)
  rw [hp] at hw
  change FilesOutcome fmt _ _ _ none _ (igdMain scan junk ⟨true, true, true, true, true⟩ (atoi ['2']) false [.reference "1 2\n2 3\n".toList] [] _) _ at this
  rw [hw] at this
  exact this

/-- The reference file is missing. -/
example (junk : ℕ → ℤ) (files : Files) (h : files ['r'] = none) : epsilonProgram scanRat junk showExt ⟨[], []⟩ (wordsOf ["a", "-r", "r"] ++ wordsOf ["--help"]) [] files = .exit 1 [] files :=
  C94_epsilon_no_reference_file showExt ⟨[], []⟩ _ _ [] _ (by decide +kernel) ['r'] ((C93_epsilon (wordsOf ["a", "-r", "r"]) _ (wordsOf ["a"])).1 (by decide +kernel)) rfl rfl [] files h (by simp)
    ⟨0, none, none⟩ rfl

/-- `hv a b -r "3 3" -s .hv`: the values in files of their own; the program fails for `b`, whose hypervolume is zero, and leaves an empty output file. -/
example : (hvProgram scanRat ratLib (fun x => intText x.floor) ⟨[], []⟩ (wordsOf ["a", "b", "-r", "3 3", "-s", ".hv"]) [] (fsOf [("a", "1 2\n2 1\n\n0 0\n"), ("b", "# b\n4 1\n")])).view
    (wordsOf ["a", "a.hv", "b.hv"]) = some (1, "", [some "1 2\n2 1\n\n0 0\n", some "3\n9\n", some ""]) := by decide +kernel

/-- The theorem applies to it. -/
example (lib : HvLib ℚ) : FilesOutcome (fun x : ℚ => intText x.floor) (fun text => ∃ n, ¬ Unreadable scanRat text n) (wordsOf ["a", "b"]) ["1 2\n2 1\n\n0 0\n".toList, "# b\n4 1\n".toList] (some ".hv".toList)
    (fsOf [("a", "1 2\n2 1\n\n0 0\n"), ("b", "# b\n4 1\n")]) (hvMain scanRat lib ⟨false, false, true, some "3 3".toList⟩ [] ["1 2\n2 1\n\n0 0\n".toList, "# b\n4 1\n".toList])
    (hvProgram scanRat lib (fun x => intText x.floor) ⟨[], []⟩ (wordsOf ["a", "b", "-r", "3 3", "-s", ".hv"]) [] (fsOf [("a", "1 2\n2 1\n\n0 0\n"), ("b", "# b\n4 1\n")])) := by
  have := C94_hv (lib := lib) scanRat_ok (fun x => intText x.floor) ⟨[], []⟩ (wordsOf ["a", "b", "-r", "3 3", "-s", ".hv"]) [(.reference, some "3 3".toList), (.suffix, some ".hv".toList)] (wordsOf ["a", "b"])
    ((C93_hv _ _ _).1 (by decide +kernel)) (by decide) (by decide)
    (by
      intro str h
      simp at h
      subst h
      exact ⟨[3, 3], by simp, .cons _ " 3".toList _ _ (by decide +kernel) (.cons _ [] _ _ (by decide +kernel) (.nil _ (by simp)))⟩) (by decide) []
    (fsOf [("a", "1 2\n2 1\n\n0 0\n"), ("b", "# b\n4 1\n")]) ["1 2\n2 1\n\n0 0\n".toList, "# b\n4 1\n".toList] (.cons (by decide +kernel) (.cons (by decide +kernel) .nil))
    (by intro s h; simp [lastArg] at h; subst h; unfold NoClobber; decide +kernel)
  exact this

/-- What follows `--help` is not read. -/
example (lib : HvLib ℚ) (t : CliTexts) (files : Files) : hvProgram scanRat lib (fun x => intText x.floor) t (wordsOf ["a", "--he"] ++ wordsOf ["--nonsense", "b"]) [] files = .exit 0 t.usage files :=
  C94_hv_help scanRat_ok _ t _ _ [] (wordsOf ["a"]) (by decide +kernel) .help (Or.inl rfl) ((C93_hv _ _ _).1 (by decide +kernel)) rfl rfl (by simp) [] files

end Moo
