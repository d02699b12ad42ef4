import Verif.Model.Cli
import Verif.Model.HvShift
import Verif.Model.HvWrappers
import Verif.Model.Bounds
import Mathlib.Algebra.Field.Basic

/-!
# Model of the program `hv` (c/main-hv.c)

Numbers are elements of an ordered field with exact arithmetic.  Not modelled: the messages on the standard error, what `--verbose` writes, and the conversion of
the volumes to text (one volume is written on each line).
-/

set_option autoImplicit false

namespace Moo

variable {K : Type*} [Field K] [LinearOrder K]

/-- The options, c/main-hv.c:63-66 and 328-350; `reference` is the argument of `-r`. -/
structure HvOpts where
  union : Bool
  shift : Bool
  suffix : Bool
  reference : Option (List Char)

/-- `fpli_hv` with its assumption `d > 2`, c/hv.c:1138-1140. -/
def fpliHvCall (lib : HvLib K) (pts : ℕ → ℕ → K) (d n : ℕ) (ref : ℕ → K) : Option K :=
  if n ≠ 0 ∧ d < 2 then none else some (fpliHv pts d n ref (lib pts d n))

/-- c/main-hv.c:275-292, the loop over the sets, from the set that starts at row `cumsize`; `none` is undefined behaviour, otherwise whether the loop was finished, and the volumes written. -/
def hvSetsLoop (lib : HvLib K) (shift : Bool) (nobj : ℕ) (ref : ℕ → K) : (ℕ → K) → ℕ → List ℕ → Option (Bool × List K)
  | _, _, [] => some (true, [])
  | data, cumsize, c :: cs =>
    let t := blockTable data nobj cumsize
    let n := c - cumsize
    let r : Option (K × (ℕ → K)) :=
      if shift then
        let r := fpliHvShift t nobj n ref (lib (if nobj = 2 then t else shiftReference t nobj n ref) nobj n)
        some (r.1, writeBlock data nobj cumsize n r.2)
      else (fpliHvCall lib t nobj n ref).map fun v => (v, data)
    match r with
    | none => none
    | some (volume, data) =>
      if volume = 0 then some (false, [])
      else
        match hvSetsLoop lib shift nobj ref data c cs with
        | none => none
        | some (ok, vs) => some (ok, volume :: vs)

/-- c/main-hv.c:261-266, the default reference point. -/
def hvDefaultRef (mm : (ℕ → K) × (ℕ → K)) : ℕ → K := fun n => mm.2 n + 1 / 10 * (mm.2 n - mm.1 n)

/-- c/main-hv.c:200-307 `hv_file`: whether the program goes on, the volumes written, and `*nobj_p`. -/
def hvFile (scan : NumScan K) (lib : HvLib K) (o : HvOpts) (reference : Option (ℕ → K)) (bounds : Option ((ℕ → K) × (ℕ → K))) (nobj : ℕ) (text : List Char) :
    Option (Bool × List K × ℕ) :=
  match readFile scan nobj text with
  | none => none
  | some none => some (false, [], nobj)
  | some (some out) =>
    let data : ℕ → K := fun j => out.data.getD j 0
    let cum := if o.union then [out.cum.getLastD 0] else out.cum
    let mm := bounds.getD (dataBoundsHv out.nobjs (cum.getLastD 0) (blockTable data out.nobjs 0) none none)
    let ref := reference.getD (hvDefaultRef mm)
    match hvSetsLoop lib o.shift out.nobjs ref data 0 cum with
    | none => none
    | some (ok, vs) => some (ok, vs, out.nobjs)

/-- c/main-hv.c:163-185 `file_range`, for the files in turn (c/main-hv.c:396-397). -/
def fileRanges (scan : NumScan K) : ℕ → Option ((ℕ → K) × (ℕ → K)) → List (List Char) → Option (Option (ℕ × Option ((ℕ → K) × (ℕ → K))))
  | nobj, mm, [] => some (some (nobj, mm))
  | nobj, mm, text :: texts =>
    match readFile scan nobj text with
    | none => none
    | some none => some none
    | some (some out) =>
      fileRanges scan out.nobjs (some (dataBoundsHv out.nobjs (out.cum.getLastD 0) (blockTable (fun j => out.data.getD j 0) out.nobjs 0) (mm.map Prod.fst) (mm.map Prod.snd))) texts

/-- c/main-hv.c:408-409, the calls of `hv_file` for the files in turn; `k` is the number of the next file.  A volume is written to the standard output (`none`) or, with a suffix,
to the output file of the `k`-th input file. -/
def hvFiles (scan : NumScan K) (lib : HvLib K) (o : HvOpts) (reference : Option (ℕ → K)) (bounds : Option ((ℕ → K) × (ℕ → K))) :
    ℕ → ℕ → List (List Char) → ProgOut (Option ℕ × K)
  | _, _, [] => .exit 0 []
  | nobj, k, text :: texts =>
    match hvFile scan lib o reference bounds nobj text with
    | none => .undefined
    | some (ok, vs, nobj) =>
      let w := vs.map fun v => (if o.suffix then some k else none, v)
      if ok then
        match hvFiles scan lib o reference bounds nobj (k + 1) texts with
        | .undefined => .undefined
        | .exit status w' => .exit status (w ++ w')
      else .exit 1 w

/-- c/main-hv.c:309-417 `main`, after `getopt_long`; without file names the standard input is read. -/
def hvMain (scan : NumScan K) (lib : HvLib K) (o : HvOpts) (stdin : List Char) (files : List (List Char)) : ProgOut (Option ℕ × K) :=
  match (match o.reference with
    | none => some (some none)
    | some str => (readPoint scan str).map (fun r => r.map some) : Option (Option (Option (List K)))) with
  | none => .undefined
  | some none => .exit 1 []
  | some (some r) =>
    let reference : Option (ℕ → K) := r.map fun r => (fun k => r.getD k 0)
    let nobj := (r.map List.length).getD 0
    match files with
    | [] => hvFiles scan lib { o with suffix := false } reference none nobj 0 [stdin]
    | [f] => hvFiles scan lib o reference none nobj 0 [f]
    | _ =>
      if r.isSome then hvFiles scan lib o reference none nobj 0 files
      else
        match fileRanges scan nobj none files with
        | none => .undefined
        | some none => .exit 1 []
        | some (some (nobj, mm)) => hvFiles scan lib o reference mm nobj 0 files

end Moo
