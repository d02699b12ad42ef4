import Verif.Spec.Usage

/-!
# Model of the command lines of the programs

`getopt_long` of the GNU C library (not part of the repository; modelled after its documentation, with `POSIXLY_CORRECT` unset), the tables of options of the seven programs, and the labels of
the `switch` over the options.  The argument vector is given without the name of the program.  `getopt_long` is called again only after the `switch` has dealt with the previous option; all programs
exit when it returns `?`, so the model stops there.  Letters are characters; a word with other bytes is not an option of any program.
-/

set_option autoImplicit false

namespace Moo

/-- The value of an option: a letter, or a number above all characters (c/igd.c:257-258). -/
inductive OptVal
  | ch (c : Char)
  | code (n : ℕ)
deriving DecidableEq

/-- `struct option` without `flag`, which is NULL in all tables. -/
structure LongOpt where
  name : Word
  arg : HasArg
  val : OptVal

/-- The string of short options and the table of long options. -/
structure OptTable where
  short : List Char
  long : List LongOpt

/-- The kind of a short option, by what follows its letter in the string. -/
def argKind : List Char → HasArg
  | ':' :: ':' :: _ => .optional
  | ':' :: _ => .required
  | _ => .no

/-- The kind of the short option `c`; a letter that is not in the string is not an option, and neither are `:` and `;`. -/
def shortKind : List Char → Char → Option HasArg
  | [], _ => none
  | a :: os, c =>
    if c = ':' ∨ c = ';' then none
    else if a = c then some (argKind os)
    else shortKind os c

/-- The long option with the name `w`: an exact match, or the first option that begins with `w` if all others that do are equivalent. -/
def findLong (long : List LongOpt) (w : Word) : Option LongOpt :=
  match long.find? fun o => o.name = w with
  | some o => some o
  | none =>
    match long.filter fun o => w.isPrefixOf o.name with
    | [] => none
    | o :: os => if os.all fun o' => o'.arg = o.arg ∧ o'.val = o.val then some o else none

/-- What follows the options of a word: the next word is looked at; the next word is the argument of an option; or `?` is returned. -/
inductive WordEnd
  | done
  | needs (v : OptVal)
  | bad

/-- The letters of a word after its dash. -/
def shortWord (t : OptTable) : List Char → List (OptVal × Option Word) × WordEnd
  | [] => ([], .done)
  | c :: cs =>
    match shortKind t.short c with
    | none => ([], .bad)
    | some .no =>
      let r := shortWord t cs
      ((.ch c, none) :: r.1, r.2)
    | some .required => if cs = [] then ([], .needs (.ch c)) else ([(.ch c, some cs)], .done)
    | some .optional => if cs = [] then ([(.ch c, none)], .done) else ([(.ch c, some cs)], .done)

/-- A word after its two dashes. -/
def longWord (t : OptTable) (w : Word) : List (OptVal × Option Word) × WordEnd :=
  match findLong t.long (w.takeWhile (· ≠ '=')) with
  | none => ([], .bad)
  | some o =>
    match w.dropWhile (· ≠ '=') with
    | _ :: arg => if o.arg = .no then ([], .bad) else ([(o.val, some arg)], .done)
    | [] => if o.arg = .required then ([], .needs o.val) else ([(o.val, none)], .done)

/-- A word that is neither a file name nor `--`: its characters after the first dash. -/
def optWord (t : OptTable) : List Char → List (OptVal × Option Word) × WordEnd
  | '-' :: w => longWord t w
  | w => shortWord t w

/-- The calls of `getopt_long`: the values returned with `optarg`; then `none` if `?` is returned, and otherwise the words that are not options, which come last in the permuted argument vector.
The first parameter is the option that has the next word as its argument. -/
def getoptGo (t : OptTable) : Option OptVal → List Word → List (OptVal × Option Word) × Option (List Word)
  | some _, [] => ([], none)
  | some v, w :: ws =>
    let r := getoptGo t none ws
    ((v, some w) :: r.1, r.2)
  | none, [] => ([], some [])
  | none, w :: ws =>
    if w = ['-', '-'] then ([], some ws)
    else
      match w with
      | '-' :: c :: cs =>
        let o := optWord t (c :: cs)
        match o.2 with
        | .bad => (o.1, none)
        | .done =>
          let r := getoptGo t none ws
          (o.1 ++ r.1, r.2)
        | .needs v =>
          let r := getoptGo t (some v) ws
          (o.1 ++ r.1, r.2)
      | _ =>
        let r := getoptGo t none ws
        (r.1, r.2.map (w :: ·))

/-- How the loop over the options ends. -/
inductive CliEnd
  | files (fs : List Word)
  | bad
  | abort
deriving DecidableEq

variable {I : Type}

/-- The loop over the options with a `switch` that has these cases: the cases with their arguments, and the end.  A value without a case is `default: abort()`. -/
def cliSwitch (cases : OptVal → Option I) : List (OptVal × Option Word) → CliEnd → List (I × Option Word) × CliEnd
  | [], e => ([], e)
  | (v, arg) :: evs, e =>
    match cases v with
    | none => ([], .abort)
    | some i =>
      let r := cliSwitch cases evs e
      ((i, arg) :: r.1, r.2)

/-- The loop over the options of a command line. -/
def cliParse (t : OptTable) (cases : OptVal → Option I) (argv : List Word) : List (I × Option Word) × CliEnd :=
  let r := getoptGo t none argv
  cliSwitch cases r.1 (match r.2 with | none => .bad | some fs => .files fs)

/-- c/main-hv.c:317-327, 331. -/
def hvTable : OptTable where
  short := "hVvqur:s:S".toList
  long := [⟨"help".toList, .no, .ch 'h'⟩, ⟨"version".toList, .no, .ch 'V'⟩, ⟨"verbose".toList, .no, .ch 'v'⟩, ⟨"quiet".toList, .no, .ch 'q'⟩, ⟨"reference".toList, .required, .ch 'r'⟩,
    ⟨"union".toList, .no, .ch 'u'⟩, ⟨"suffix".toList, .required, .ch 's'⟩, ⟨"shift".toList, .no, .ch 'S'⟩]

/-- c/main-hv.c:333-378. -/
def hvCases : OptVal → Option HvOpt
  | .ch 'r' => some .reference
  | .ch 'u' => some .union
  | .ch 's' => some .suffix
  | .ch 'S' => some .shift
  | .ch 'V' => some .version
  | .ch 'q' => some .quiet
  | .ch 'v' => some .verbose
  | .ch 'h' => some .help
  | _ => none

/-- c/epsilon.c:182-194, 200. -/
def epsTable : OptTable where
  short := "hVvqamr:us:o:".toList
  long := [⟨"help".toList, .no, .ch 'h'⟩, ⟨"version".toList, .no, .ch 'V'⟩, ⟨"verbose".toList, .no, .ch 'v'⟩, ⟨"quiet".toList, .no, .ch 'q'⟩, ⟨"additive".toList, .no, .ch 'a'⟩,
    ⟨"multiplicative".toList, .no, .ch 'm'⟩, ⟨"reference".toList, .required, .ch 'r'⟩, ⟨"suffix".toList, .required, .ch 's'⟩, ⟨"obj".toList, .required, .ch 'o'⟩]

/-- c/epsilon.c:202-254. -/
def epsCases : OptVal → Option EpsOpt
  | .ch 'a' => some .additive
  | .ch 'm' => some .multiplicative
  | .ch 'o' => some .obj
  | .ch 'r' => some .reference
  | .ch 's' => some .suffix
  | .ch 'V' => some .version
  | .ch 'q' => some .quiet
  | .ch 'v' => some .verbose
  | .ch 'h' => some .help
  | _ => none

/-- c/igd.c:257-280, 286. -/
def igdTable : OptTable where
  short := "hVvqamr:us:o:".toList
  long := [⟨"gd".toList, .no, .code 1000⟩, ⟨"igd".toList, .no, .code 1001⟩, ⟨"gd-p".toList, .no, .code 1002⟩, ⟨"igd-p".toList, .no, .code 1003⟩, ⟨"igd-plus".toList, .no, .code 1004⟩,
    ⟨"hausdorff".toList, .no, .code 1005⟩, ⟨"all".toList, .no, .ch 'a'⟩, ⟨"exponent-p".toList, .required, .ch 'p'⟩,
    ⟨"help".toList, .no, .ch 'h'⟩, ⟨"version".toList, .no, .ch 'V'⟩, ⟨"verbose".toList, .no, .ch 'v'⟩, ⟨"quiet".toList, .no, .ch 'q'⟩,
    ⟨"reference".toList, .required, .ch 'r'⟩, ⟨"suffix".toList, .required, .ch 's'⟩, ⟨"obj".toList, .required, .ch 'o'⟩]

/-- c/igd.c:288-370. -/
def igdCases : OptVal → Option IgdOpt
  | .ch 'p' => some .exponent
  | .ch 'a' => some .all
  | .code 1000 => some .gd
  | .code 1001 => some .igd
  | .code 1002 => some .gdP
  | .code 1003 => some .igdP
  | .code 1004 => some .igdPlus
  | .code 1005 => some .hausdorff
  | .ch 'o' => some .obj
  | .ch 'r' => some .reference
  | .ch 's' => some .suffix
  | .ch 'V' => some .version
  | .ch 'q' => some .quiet
  | .ch 'v' => some .verbose
  | .ch 'h' => some .help
  | _ => none

/-- c/nondominated.c:610-631, 636. -/
def ndTable : OptTable where
  short := "hVvqfo:a:n:u:l:Us:b".toList
  long := [⟨"help".toList, .no, .ch 'h'⟩, ⟨"version".toList, .no, .ch 'V'⟩, ⟨"verbose".toList, .no, .ch 'v'⟩, ⟨"quiet".toList, .no, .ch 'q'⟩,
    ⟨"no-check".toList, .no, .ch 'c'⟩, ⟨"filter".toList, .no, .ch 'f'⟩, ⟨"force-bounds".toList, .no, .ch 'b'⟩, ⟨"obj".toList, .required, .ch 'o'⟩, ⟨"agree".toList, .required, .ch 'a'⟩,
    ⟨"maximise".toList, .no, .ch 'm'⟩, ⟨"maximize".toList, .no, .ch 'm'⟩, ⟨"normalise".toList, .required, .ch 'n'⟩, ⟨"upper-bound".toList, .required, .ch 'u'⟩,
    ⟨"lower-bound".toList, .required, .ch 'l'⟩, ⟨"union".toList, .no, .ch 'U'⟩, ⟨"suffix".toList, .required, .ch 's'⟩, ⟨"log".toList, .required, .ch 'L'⟩]

/-- c/nondominated.c:638-739. -/
def ndCases : OptVal → Option NdOpt
  | .ch 'V' => some .version
  | .ch 'q' => some .quiet
  | .ch 'v' => some .verbose
  | .ch 'c' => some .noCheck
  | .ch 'f' => some .filter
  | .ch 'b' => some .forceBounds
  | .ch 'U' => some .union
  | .ch 'o' => some .obj
  | .ch 'a' => some .agree
  | .ch 'm' => some .maximise
  | .ch 'n' => some .normalise
  | .ch 'u' => some .upper
  | .ch 'l' => some .lower
  | .ch 's' => some .suffix
  | .ch 'L' => some .log
  | .ch 'h' => some .help
  | _ => none

/-- c/ndsort.c:136-147, 152. -/
def nsTable : OptTable where
  short := "hVvqkro:".toList
  long := [⟨"help".toList, .no, .ch 'h'⟩, ⟨"version".toList, .no, .ch 'V'⟩, ⟨"verbose".toList, .no, .ch 'v'⟩, ⟨"quiet".toList, .no, .ch 'q'⟩,
    ⟨"keep-uevs".toList, .no, .ch 'k'⟩, ⟨"rank".toList, .no, .ch 'r'⟩, ⟨"obj".toList, .required, .ch 'o'⟩]

/-- c/ndsort.c:154-196. -/
def nsCases : OptVal → Option NsOpt
  | .ch 'V' => some .version
  | .ch 'q' => some .quiet
  | .ch 'v' => some .verbose
  | .ch 'r' => some .rank
  | .ch 'k' => some .keepUevs
  | .ch 'o' => some .obj
  | .ch 'h' => some .help
  | _ => none

/-- c/dominatedsets.c:321-331, 335. -/
def dsTable : OptTable where
  short := "hVvqpo:".toList
  long := [⟨"help".toList, .no, .ch 'h'⟩, ⟨"version".toList, .no, .ch 'V'⟩, ⟨"verbose".toList, .no, .ch 'v'⟩, ⟨"quiet".toList, .no, .ch 'q'⟩,
    ⟨"percentages".toList, .no, .ch 'p'⟩, ⟨"no-check".toList, .no, .ch 'c'⟩, ⟨"obj".toList, .required, .ch 'o'⟩]

/-- c/dominatedsets.c:337-377. -/
def dsCases : OptVal → Option DsOpt
  | .ch 'V' => some .version
  | .ch 'q' => some .quiet
  | .ch 'v' => some .verbose
  | .ch 'p' => some .percentages
  | .ch 'c' => some .noCheck
  | .ch 'o' => some .obj
  | .ch 'h' => some .help
  | _ => none

/-- c/eaf_main.c:202-221, 230. -/
def eafTable : OptTable where
  short := "hVvqbmwl:p:o:i::d::P".toList
  long := [⟨"help".toList, .no, .ch 'h'⟩, ⟨"version".toList, .no, .ch 'V'⟩, ⟨"verbose".toList, .no, .ch 'v'⟩, ⟨"quiet".toList, .no, .ch 'q'⟩,
    ⟨"best".toList, .no, .ch 'b'⟩, ⟨"median".toList, .no, .ch 'm'⟩, ⟨"worst".toList, .no, .ch 'w'⟩, ⟨"output".toList, .required, .ch 'o'⟩,
    ⟨"indices".toList, .optional, .ch 'i'⟩, ⟨"diff".toList, .optional, .ch 'd'⟩, ⟨"percentile".toList, .required, .ch 'p'⟩, ⟨"level".toList, .required, .ch 'l'⟩,
    ⟨"polygons".toList, .no, .ch 'P'⟩]

/-- c/eaf_main.c:232-319. -/
def eafCases : OptVal → Option EafOpt
  | .ch 'l' => some .level
  | .ch 'p' => some .percentile
  | .ch 'o' => some .output
  | .ch 'i' => some .indices
  | .ch 'd' => some .diff
  | .ch 'b' => some .best
  | .ch 'm' => some .median
  | .ch 'w' => some .worst
  | .ch 'P' => some .polygons
  | .ch 'q' => some .quiet
  | .ch 'v' => some .verbose
  | .ch 'V' => some .version
  | .ch 'h' => some .help
  | _ => none

end Moo
