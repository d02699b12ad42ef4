import Verif.Spec.CommandLine

/-!
# The options of the programs

For every program: its options; the options of its usage message, as the message has them; and further spellings that the program accepts although the message does not mention them.
-/

set_option autoImplicit false

namespace Moo

/-- These options without the letters `cs`. -/
def withoutLetters {I : Type} (cs : List Char) (G : List (OptDoc I)) : List (OptDoc I) := G.map fun d => { d with short := d.short.filter fun c => c ∉ cs }

/-- The options of `hv`. -/
inductive HvOpt
  | help | version | verbose | quiet | reference | union | suffix | shift
deriving DecidableEq

/-- The usage message of `hv`, c/main-hv.c:68-98. -/
def hvUsage : List (OptDoc HvOpt) :=
  [⟨.help, ['h'], ["help".toList], .no⟩,
    ⟨.version, [], ["version".toList], .no⟩,
    ⟨.verbose, ['v'], ["verbose".toList], .no⟩,
    ⟨.quiet, ['q'], ["quiet".toList], .no⟩,
    ⟨.union, ['u'], ["union".toList], .no⟩,
    ⟨.reference, ['r'], ["reference".toList], .required⟩,
    ⟨.suffix, ['s'], ["suffix".toList], .required⟩,
    ⟨.shift, ['S'], ["shift".toList], .no⟩]

/-- Not in the usage message of `hv`. -/
def hvExtra : List (OptDoc HvOpt) := [⟨.version, ['V'], [], .no⟩]

/-- The options of `epsilon`. -/
inductive EpsOpt
  | help | version | verbose | quiet | additive | multiplicative | reference | suffix | obj
deriving DecidableEq

/-- The usage message of `epsilon`, c/epsilon.c:72-97. -/
def epsUsage : List (OptDoc EpsOpt) :=
  [⟨.help, ['h'], ["help".toList], .no⟩,
    ⟨.version, [], ["version".toList], .no⟩,
    ⟨.verbose, ['v'], ["verbose".toList], .no⟩,
    ⟨.quiet, ['q'], ["quiet".toList], .no⟩,
    ⟨.additive, ['a'], ["additive".toList], .no⟩,
    ⟨.multiplicative, ['m'], ["multiplicative".toList], .no⟩,
    ⟨.reference, ['r'], ["reference".toList], .required⟩,
    ⟨.obj, ['o'], ["obj".toList], .required⟩,
    ⟨.suffix, ['s'], ["suffix".toList], .required⟩]

/-- Not in the usage message of `epsilon`. -/
def epsExtra : List (OptDoc EpsOpt) := [⟨.version, ['V'], [], .no⟩]

/-- The options of `igd`. -/
inductive IgdOpt
  | help | version | verbose | quiet | gd | igd | gdP | igdP | igdPlus | hausdorff | all | exponent | reference | suffix | obj
deriving DecidableEq

/-- The usage message of `igd`, c/igd.c:84-117. -/
def igdUsage : List (OptDoc IgdOpt) :=
  [⟨.help, ['h'], ["help".toList], .no⟩,
    ⟨.version, [], ["version".toList], .no⟩,
    ⟨.verbose, ['v'], ["verbose".toList], .no⟩,
    ⟨.quiet, ['q'], ["quiet".toList], .no⟩,
    ⟨.gd, [], ["gd".toList], .no⟩,
    ⟨.igd, [], ["igd".toList], .no⟩,
    ⟨.gdP, [], ["gd-p".toList], .no⟩,
    ⟨.igdP, [], ["igd-p".toList], .no⟩,
    ⟨.igdPlus, [], ["igd-plus".toList], .no⟩,
    ⟨.hausdorff, [], ["hausdorff".toList], .no⟩,
    ⟨.all, ['a'], ["all".toList], .no⟩,
    ⟨.exponent, ['p'], [], .required⟩,
    ⟨.reference, ['r'], ["reference".toList], .required⟩,
    ⟨.obj, ['o'], ["obj".toList], .required⟩,
    ⟨.suffix, ['s'], ["suffix".toList], .required⟩]

/-- Not in the usage message of `igd`. -/
def igdExtra : List (OptDoc IgdOpt) := [⟨.version, ['V'], [], .no⟩, ⟨.exponent, [], ["exponent-p".toList], .required⟩]

/-- The options of `nondominated`. -/
inductive NdOpt
  | help | version | verbose | quiet | noCheck | filter | forceBounds | obj | agree | maximise | normalise | upper | lower | union | suffix | log
deriving DecidableEq

/-- The usage message of `nondominated`, c/nondominated.c:67-108. -/
def ndUsage : List (OptDoc NdOpt) :=
  [⟨.help, ['h'], ["help".toList], .no⟩,
    ⟨.version, [], ["version".toList], .no⟩,
    ⟨.verbose, ['v'], ["verbose".toList], .no⟩,
    ⟨.quiet, ['q'], ["quiet".toList], .no⟩,
    ⟨.noCheck, [], ["no-check".toList], .no⟩,
    ⟨.obj, ['o'], ["obj".toList], .required⟩,
    ⟨.maximise, ['m'], ["maximise".toList], .no⟩,
    ⟨.upper, ['u'], ["upper-bound".toList], .required⟩,
    ⟨.lower, ['l'], ["lower-bound".toList], .required⟩,
    ⟨.union, ['U'], ["union".toList], .no⟩,
    ⟨.suffix, ['s'], ["suffix".toList], .required⟩,
    ⟨.agree, ['a'], ["agree".toList], .required⟩,
    ⟨.filter, ['f'], ["filter".toList], .no⟩,
    ⟨.forceBounds, ['b'], ["force-bound".toList], .no⟩,
    ⟨.normalise, ['n'], ["normalise".toList], .required⟩,
    ⟨.log, ['L'], ["log".toList], .required⟩]

/-- Not in the usage message of `nondominated`. -/
def ndExtra : List (OptDoc NdOpt) := [⟨.version, ['V'], [], .no⟩, ⟨.maximise, [], ["maximize".toList], .no⟩, ⟨.forceBounds, [], ["force-bounds".toList], .no⟩]

/-- The options of `ndsort`. -/
inductive NsOpt
  | help | version | verbose | quiet | keepUevs | rank | obj
deriving DecidableEq

/-- The usage message of `ndsort`, c/ndsort.c:54-75. -/
def nsUsage : List (OptDoc NsOpt) :=
  [⟨.help, ['h'], ["help".toList], .no⟩,
    ⟨.version, [], ["version".toList], .no⟩,
    ⟨.verbose, ['v'], ["verbose".toList], .no⟩,
    ⟨.quiet, ['q'], ["quiet".toList], .no⟩,
    ⟨.keepUevs, ['k'], ["keep-uevs".toList], .no⟩,
    ⟨.rank, ['r'], ["rank".toList], .no⟩,
    ⟨.obj, ['o'], ["obj".toList], .required⟩]

/-- Not in the usage message of `ndsort`. -/
def nsExtra : List (OptDoc NsOpt) := [⟨.version, ['V'], [], .no⟩]

/-- The options of `dominatedsets`. -/
inductive DsOpt
  | help | version | verbose | quiet | percentages | noCheck | obj
deriving DecidableEq

/-- The usage message of `dominatedsets`, c/dominatedsets.c:70-89. -/
def dsUsage : List (OptDoc DsOpt) :=
  [⟨.help, ['h'], ["help".toList], .no⟩,
    ⟨.version, [], ["version".toList], .no⟩,
    ⟨.verbose, ['v'], ["verbose".toList], .no⟩,
    ⟨.quiet, ['q'], ["quiet".toList], .no⟩,
    ⟨.percentages, ['p'], ["percentages".toList], .no⟩,
    ⟨.noCheck, [], ["no-check".toList], .no⟩,
    ⟨.obj, ['o'], ["obj".toList], .required⟩]

/-- Not in the usage message of `dominatedsets`. -/
def dsExtra : List (OptDoc DsOpt) := [⟨.version, ['V'], [], .no⟩]

/-- The options of `eaf`. -/
inductive EafOpt
  | help | version | verbose | quiet | best | median | worst | output | indices | diff | percentile | level | polygons
deriving DecidableEq

/-- The usage message of `eaf`, c/eaf_main.c:52-79. -/
def eafUsage : List (OptDoc EafOpt) :=
  [⟨.help, ['h'], ["help".toList], .no⟩,
    ⟨.version, [], ["version".toList], .no⟩,
    ⟨.verbose, ['v'], ["verbose".toList], .no⟩,
    ⟨.quiet, ['q'], ["quiet".toList], .no⟩,
    ⟨.output, ['o'], ["output".toList], .required⟩,
    ⟨.best, ['b'], ["best".toList], .no⟩,
    ⟨.median, ['m'], ["median".toList], .no⟩,
    ⟨.worst, ['w'], ["worst".toList], .no⟩,
    ⟨.percentile, ['p'], ["percentile".toList], .required⟩,
    ⟨.level, ['l'], ["level".toList], .required⟩,
    ⟨.indices, ['i'], ["indices".toList], .optional⟩,
    ⟨.diff, ['d'], ["diff".toList], .optional⟩,
    ⟨.polygons, [], ["polygons".toList], .no⟩]

/-- Not in the usage message of `eaf`. -/
def eafExtra : List (OptDoc EafOpt) := [⟨.version, ['V'], [], .no⟩, ⟨.polygons, ['P'], [], .no⟩]

end Moo
