import Verif.Spec.Cli
import Verif.Spec.NdMain
import Verif.Spec.EafLabels

/-!
# Specification of the program `eaf`

A run is one data set; all runs of all files together are the input.  All objectives are minimised.
-/

set_option autoImplicit false

namespace Moo

/-- The options of `eaf`, in the order in which they are given.  The argument of `-i` and `-d` is optional. -/
inductive EafArg
  | best
  | median
  | worst
  | quiet
  | verbose
  | percentile (str : List Char)
  | level (str : List Char)
  | output (name : List Char)
  | indices (name : Option (List Char))
  | diff (name : Option (List Char))
deriving DecidableEq

/-- The argument of `-p`. -/
def EafArg.percentile? : EafArg → Option (List Char)
  | .percentile s => some s
  | _ => none

/-- The argument of `-l`. -/
def EafArg.level? : EafArg → Option (List Char)
  | .level s => some s
  | _ => none

/-- The argument of `-o`. -/
def EafArg.output? : EafArg → Option (List Char)
  | .output s => some s
  | _ => none

/-- The argument of `-i`, if the option is given. -/
def EafArg.indices? : EafArg → Option (Option (List Char))
  | .indices s => some s
  | _ => none

/-- The argument of `-d`, if the option is given. -/
def EafArg.diff? : EafArg → Option (Option (List Char))
  | .diff s => some s
  | _ => none

/-- Where the program may write. -/
inductive OutStream
  | stdin
  | stdout
  | file (name : List Char)
deriving DecidableEq

/-- A piece of the output: the coordinates of a point, for every run whether it attains the point, the numbers of runs of the first and of the second half that do, a tabulator, or the end of a line. -/
inductive EafTok (K : Type*)
  | point (xs : List K)
  | indices (bits : List Bool)
  | counts (left right : ℕ)
  | tab
  | newline
deriving DecidableEq

/-! ## Where the output goes -/

/-- `-` is the standard output. -/
def streamOf (name : List Char) : OutStream := if name = ['-'] then .stdout else .file name

/-- The stream for the points: that of the last option `-o`. -/
def pointsTo (args : List EafArg) : OutStream := ((args.filterMap EafArg.output?).getLast?.map streamOf).getD .stdout

/-- The stream of an option with an optional argument: without argument it is that for the points. -/
def optionTo (args : List EafArg) : Option (Option (List Char)) → Option OutStream
  | none => none
  | some none => some (pointsTo args)
  | some (some name) => some (streamOf name)

/-- The stream for the indices, if they are asked for. -/
def indicesTo (args : List EafArg) : Option OutStream := optionTo args (args.filterMap EafArg.indices?).getLast?

/-- The stream for the counts, if they are asked for. -/
def countsTo (args : List EafArg) : Option OutStream := optionTo args (args.filterMap EafArg.diff?).getLast?

/-- No file is named twice: neither the argument of `-i` nor that of `-d` is the file of `-o`, and they are not the same file. -/
def NamesDiffer (args : List EafArg) : Prop :=
  (∀ f, (args.filterMap EafArg.indices?).getLast? = some (some f) → f ≠ ['-'] → pointsTo args ≠ .file f) ∧
  ∀ f, (args.filterMap EafArg.diff?).getLast? = some (some f) → f ≠ ['-'] →
    pointsTo args ≠ .file f ∧ (args.filterMap EafArg.indices?).getLast? ≠ some (some f)

/-! ## What is written -/

/-- The line of a point (with the runs that attain it) on stream `s`: what goes there, separated by tabulators. -/
def eafLine {K : Type*} (s co : OutStream) (ind dif : Option OutStream) (p : List K × List Bool) : List (EafTok K) :=
  let fields := (if co = s then [.point p.1] else []) ++ (if ind = some s then [.indices p.2] else []) ++
    (if dif = some s then [.counts ((p.2.take (p.2.length / 2)).count true) ((p.2.drop (p.2.length / 2)).count true)] else [])
  if fields = [] then [] else fields.intersperse .tab ++ [.newline]

/-- The text written to stream `s` for these surfaces: the lines of the points, with an empty line after every surface where the points are written. -/
def eafText {K : Type*} (s co : OutStream) (ind dif : Option OutStream) (surfaces : List (List (List K × List Bool))) : List (EafTok K) :=
  surfaces.flatMap fun pts => pts.flatMap (eafLine s co ind dif) ++ (if co = s then [.newline] else [])

/-! ## Attainment surfaces -/

section
variable {K : Type*} [LinearOrder K] [Zero K]

/-- The run attains the point: one of its points is at least as good in every objective. -/
def RunAttains (n : ℕ) (run : List (List K)) (z : List K) : Prop := ∃ p ∈ run, ∀ d < n, obj p d ≤ obj z d

open Classical in
/-- The number of runs that attain the point. -/
noncomputable def runsAttaining (n : ℕ) (runs : List (List (List K))) (z : List K) : ℕ := (runs.filter fun run => RunAttains n run z).length

/-- `z` is on the surface of level `k`: it is attained by at least `k` runs, and no other point that is as least as good is. -/
def OnSurface (n : ℕ) (runs : List (List (List K))) (k : ℕ) (z : List K) : Prop :=
  z.length = n ∧ k ≤ runsAttaining n runs z ∧ ∀ w : List K, w.length = n → k ≤ runsAttaining n runs w → (∀ d < n, obj w d ≤ obj z d) → w = z

open Classical in
/-- The list has exactly the points of the surface of level `k`, each once, and says for each of them which runs attain it. -/
def IsSurface (n : ℕ) (runs : List (List (List K))) (k : ℕ) (pts : List (List K × List Bool)) : Prop :=
  (pts.map Prod.fst).Nodup ∧ (∀ z, z ∈ pts.map Prod.fst ↔ OnSurface n runs k z) ∧ ∀ p ∈ pts, p.2 = runs.map fun run => decide (RunAttains n run p.1)

end

/-! ## The input -/

/-- The text has no data: only comments and blank lines. -/
def NoData {V : Type*} (scan : NumScan V) (s : List Char) : Prop :=
  (∀ c ∈ s, c ≠ '\x0b' ∧ c ≠ '\x0c') ∧ ∀ l ∈ textLines s, IsLine scan l .sep

/-- The files have these runs, with `n` objectives.  A file may have no data. -/
inductive FilesRuns {V : Type*} (scan : NumScan V) (n : ℕ) : List (List Char) → List (List (List V)) → Prop
  | nil : FilesRuns scan n [] []
  | empty (s : List Char) (files : List (List Char)) (runs : List (List (List V))) : NoData scan s → FilesRuns scan n files runs → FilesRuns scan n (s :: files) runs
  | data (s : List Char) (files : List (List Char)) (sets runs : List (List (List V))) : TextSets scan s n sets → FilesRuns scan n files runs → FilesRuns scan n (s :: files) (sets ++ runs)

/-- The numbers of an argument: separated by white space, or by commas and semicolons. -/
inductive SepNumbers {V : Type*} (scan : NumScan V) : List Char → List V → Prop
  | nil (l : List Char) : (∀ c ∈ l, isSpaceC c = true) → SepNumbers scan l []
  | num (l r : List Char) (v : V) (vs : List V) : scan (l.dropWhile isSpaceC) = some (v, r) → SepNumbers scan r vs → SepNumbers scan l (v :: vs)
  | sep (c : Char) (l : List Char) (vs : List V) : c = ',' ∨ c = ';' → scan (c :: l) = none → SepNumbers scan l vs → SepNumbers scan (c :: l) vs

/-- The arguments are nonempty lists of numbers, and these are all of them. -/
inductive ArgNumbers {V : Type*} (scan : NumScan V) : List (List Char) → List V → Prop
  | nil : ArgNumbers scan [] []
  | cons (str : List Char) (strs : List (List Char)) (vs ws : List V) : SepNumbers scan str vs → vs ≠ [] → ArgNumbers scan strs ws → ArgNumbers scan (str :: strs) (vs ++ ws)

/-- The levels that are asked for, with `n` runs: `ps` and `ls` are the percentiles and the levels given with `-p` and `-l`. -/
def LevelsOf {K : Type*} [Field K] [LinearOrder K] (tol : K) (n : ℕ) (args : List EafArg) (ps : List K) (ls : List ℤ) (ks : List ℕ) : Prop :=
  if .best ∈ args then ks = [1]
  else if .median ∈ args then ∃ k, LeastLevel tol n 50 k ∧ ks = [k]
  else if .worst ∈ args then ks = [n]
  else if ps ≠ [] then (∀ p ∈ ps, 0 < p ∧ p ≤ 100) ∧ List.Forall₂ (LeastLevel tol n) ps ks
  else if ls ≠ [] then (∀ k ∈ ks, 1 ≤ k ∧ k ≤ n) ∧ ls = ks.map Int.ofNat
  else ks = (List.range n).map (· + 1)

/-- A percentile is not in (0, 100] or, if no percentiles are given, a level is not between 1 and the number of runs.  The options for the best, the median and the worst surface come first. -/
def LevelsWrong {K : Type*} [Field K] [LinearOrder K] (n : ℕ) (args : List EafArg) (ps : List K) (ls : List ℤ) : Prop :=
  .best ∉ args ∧ .median ∉ args ∧ .worst ∉ args ∧ ((∃ p ∈ ps, p ≤ 0 ∨ 100 < p) ∨ ps = [] ∧ ∃ l ∈ ls, l ≤ 0 ∨ (n : ℤ) < l)

end Moo
