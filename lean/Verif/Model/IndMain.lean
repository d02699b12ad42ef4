import Verif.Model.Cli
import Verif.Model.Epsilon
import Verif.Model.Igd

/-!
# Model of the programs `epsilon` (c/epsilon.c) and `igd` (c/igd.c)

The two programs have the same structure; what they share is modelled once, with the indicator as a parameter.  Not modelled: `getopt_long`, messages on the standard error, what `--verbose`
writes, and the conversion of the values to text.
-/

set_option autoImplicit false

namespace Moo

variable {V W : Type*}

/-- The options that are not only flags, in the order in which they are given; a reference set is given by the contents of its file. -/
inductive IndArg
  | obj (str : List Char)
  | reference (text : List Char)

/-- `nobj`, `minmax` and `reference` of `main`; a reference set has its elements, the number of columns it was read with and `reference_size`. -/
structure IndSt (V : Type*) where
  nobj : ℕ
  minmax : Option (ℕ → ℤ)
  reference : Option (List V × ℕ × ℕ)

/-- What the options lead to: undefined behaviour or a failed assertion, `exit`, or the variables of `main`. -/
inductive IndRes (V : Type*)
  | undefined
  | exit (status : ℕ)
  | ok (st : IndSt V)

/-- c/epsilon.c:201-216, c/igd.c:318-333: the options `-o` and `-r`, with `read_reference_set`, c/cmdline.h:79-98. -/
def indOptions (scan : NumScan V) (junk : ℕ → ℤ) : IndSt V → List IndArg → IndRes V
  | st, [] => .ok st
  | st, .obj str :: args =>
    match readMinmax junk str st.nobj with
    | .null => .exit 1
    | .exit => .exit 0
    | .ok minmax nobj => indOptions scan junk { st with nobj := nobj, minmax := some minmax } args
  | st, .reference text :: args =>
    match readFile scan st.nobj text with
    | none => .undefined
    | some none => .exit 1
    | some (some out) =>
      if out.cum.length ≠ 1 then .undefined
      else indOptions scan junk { st with nobj := out.nobjs, reference := some (out.data, out.nobjs, out.cum.getLastD 0) } args

/-- An indicator: number of objectives, directions, a set and its size, the reference set and its size; `none` is `fatal_error`. -/
abbrev Indicator (V W : Type*) := ℕ → (ℕ → ℤ) → (ℕ → ℕ → V) → ℕ → (ℕ → ℕ → V) → ℕ → Option W

/-- c/epsilon.c:138-159, c/igd.c:190-242, the loop over the sets from the set that starts at row `cumsize`: whether the loop was finished, and the values written.  After a `bad` value the program exits. -/
def indSets (ind : (ℕ → ℕ → V) → ℕ → Option W) (bad : W → Bool) (nobj : ℕ) (data : ℕ → V) : ℕ → List ℕ → Bool × List W
  | _, [] => (true, [])
  | cumsize, c :: cs =>
    match ind (blockTable data nobj cumsize) (c - cumsize) with
    | none => (false, [])
    | some v =>
      if bad v then (false, [v])
      else
        let r := indSets ind bad nobj data c cs
        (r.1, v :: r.2)

/-- `do_file`, c/epsilon.c:99-171 and c/igd.c:119-254: whether the program goes on, the values written, and `*nobj_p`.  A reference set that was read with fewer columns is read beyond its end. -/
def indFile [Zero V] (scan : NumScan V) (ind : Indicator V W) (bad : W → Bool) (minmax : Option (ℕ → ℤ)) (reference : List V × ℕ × ℕ) (nobj : ℕ) (text : List Char) : Option (Bool × List W × ℕ) :=
  match readFile scan nobj text with
  | none => none
  | some none => some (false, [], nobj)
  | some (some out) =>
    if reference.2.1 < out.nobjs then none
    else
      let r := indSets (fun t n => ind out.nobjs (minmax.getD fun _ => -1) t n (blockTable (fun j => reference.1.getD j 0) out.nobjs 0) reference.2.2) bad out.nobjs
        (fun j => out.data.getD j 0) 0 out.cum
      some (r.1, r.2, out.nobjs)

/-- The calls of `do_file` for the files in turn, c/epsilon.c:287-288 and c/igd.c:399-400; `k` is the number of the next file. -/
def indFiles [Zero V] (scan : NumScan V) (ind : Indicator V W) (bad : W → Bool) (suffix : Bool) (minmax : Option (ℕ → ℤ)) (reference : List V × ℕ × ℕ) :
    ℕ → ℕ → List (List Char) → ProgOut (Option ℕ × W)
  | _, _, [] => .exit 0 []
  | nobj, k, text :: texts =>
    match indFile scan ind bad minmax reference nobj text with
    | none => .undefined
    | some (ok, vs, nobj) =>
      let w := vs.map fun v => (if suffix then some k else none, v)
      if ok then
        match indFiles scan ind bad suffix minmax reference nobj (k + 1) texts with
        | .undefined => .undefined
        | .exit status w' => .exit status (w ++ w')
      else .exit 1 w

/-- `main`, c/epsilon.c:173-292 and c/igd.c:256-404, after `getopt_long`. -/
def indMain [Zero V] (scan : NumScan V) (junk : ℕ → ℤ) (ind : Indicator V W) (bad : W → Bool) (suffix : Bool) (args : List IndArg) (stdin : List Char) (files : List (List Char)) :
    ProgOut (Option ℕ × W) :=
  match indOptions scan junk ⟨0, none, none⟩ args with
  | .undefined => .undefined
  | .exit status => .exit status []
  | .ok st =>
    match st.reference with
    | none => .exit 1 []
    | some reference =>
      match files with
      | [] => indFiles scan ind bad false st.minmax reference st.nobj 0 [stdin]
      | files => indFiles scan ind bad suffix st.minmax reference st.nobj 0 files

/-! ### `epsilon` -/

section
variable {K : Type*} [Field K] [LinearOrder K] [IsStrictOrderedRing K]

/-- c/epsilon.c:141-147. -/
def epsilonIndicator (additive : Bool) : Indicator K (Ext K) := fun nobj minmax A nA R nR =>
  if additive then some (epsilonAdditiveMinmax nobj minmax A nA R nR) else epsilonMultMinmax nobj minmax A nA R nR

/-- c/epsilon.c:150-151. -/
def epsilonBad (additive : Bool) (v : Ext K) : Bool := if additive then decide (v < fin 0) else decide (v < fin 1)

/-- The program `epsilon`; `additive` is false if the last of the options `-a` and `-m` is `-m`. -/
def epsilonMain (scan : NumScan K) (junk : ℕ → ℤ) (additive suffix : Bool) (args : List IndArg) (stdin : List Char) (files : List (List Char)) : ProgOut (Option ℕ × Ext K) :=
  indMain scan junk (epsilonIndicator additive) (epsilonBad additive) suffix args stdin files

end

/-! ### `igd` -/

/-- The flags of `igd`, c/igd.c:76-81: each is the presence of the option or of `--all`, except `igdp`, which is always set. -/
structure IgdFlags where
  gd : Bool
  igd : Bool
  gdp : Bool
  igdplus : Bool
  hausdorff : Bool

/-- c/igd.c:205-234, one line of output.  `p` is the exponent, at least 1. -/
noncomputable def igdIndicator (fl : IgdFlags) (p : ℕ) : Indicator ℝ (List (WithTop ℝ)) := fun nobj minmax A nA R nR =>
  some ((if fl.gd then [gdMinmax nobj minmax A nA R nR] else []) ++ (if fl.igd then [igdMinmax nobj minmax A nA R nR] else []) ++
    (if fl.gdp then [gdP nobj minmax A nA R nR p] else []) ++ [igdP nobj minmax A nA R nR p] ++
    (if fl.igdplus then [igdPlusMinmax nobj minmax A nA R nR] else []) ++ (if fl.hausdorff then [avgHausdorffMinmax nobj minmax A nA R nR p] else []))

/-- The program `igd`. -/
noncomputable def igdMain (scan : NumScan ℝ) (junk : ℕ → ℤ) (fl : IgdFlags) (p : ℕ) (suffix : Bool) (args : List IndArg) (stdin : List Char) (files : List (List Char)) :
    ProgOut (Option ℕ × List (WithTop ℝ)) :=
  indMain scan junk (igdIndicator fl p) (fun _ => false) suffix args stdin files

end Moo
