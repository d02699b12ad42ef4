import Verif.Model.EafMain
import Verif.Model.EafPolygon

/-!
# Model of the program `eaf` with the option `--polygons`: `main` (c/eaf_main.c), `eaf_print_polygon` (c/eaf.c)

As in the model of `main` without this option.  `objective_MAX` and `objective_MIN` are elements `inf` and `ninf` of the field: nothing is computed with them, they are only compared and printed.
Three objectives are not modelled (the program does not refuse them: it takes the first two coordinates of the points of a surface).
-/

set_option autoImplicit false

namespace Moo

variable {K : Type*}

/-- A line of the output: a pair of coordinates, or the colours. -/
inductive PolyTok (K : Type*)
  | corner (x y : K)
  | colors (cs : List ℤ)
deriving DecidableEq

/-- `eaf_print_polygon`, c/eaf.c:941-960. -/
def eafPrintPolygon [LinearOrder K] (inf ninf : K) (co : OutStream) (es : List (EafT K)) : Option (List (OutStream × PolyTok K)) :=
  match eafComputePolygon inf ninf es with
  | none => none
  | some p => some (p.xy.map (fun v => (co, .corner v.1 v.2)) ++ [(co, .colors p.col)])

/-- `main`, c/eaf_main.c:187-455, with the option `--polygons` and other options `args`, two objectives. -/
def eafMainPolygons [Field K] [LinearOrder K] [IsStrictOrderedRing K] [FloorRing K] (env : EafMainEnv K) (inf ninf : K) (fuelP : ℕ) (args : List EafArg) (files : List (List Char)) :
    ProgOut (OutStream × PolyTok K) :=
  match eafOptions env ⟨true, false, false, false, [], [], none, none, none, none, none⟩ args with
  | .exit status => .exit status []
  | .undefined => .undefined
  | .ok st =>
    match eafRead env.scan 0 [] [] files with
    | none => .undefined
    | some none => .exit 1 []
    | some (some (nobj, cum, data)) =>
      let streams := eafStreams st
      match eafLevels env.tol st cum.length with
      | none => .undefined
      | some none => .exit 1 []
      | some (some level) =>
        -- `cumsizes[nruns - 1]`, c/eaf_main.c:429
        if st.verbose ∧ cum = [] then .undefined
        else
          match attsurf env fuelP (blockTable (fun j => data.getD j 0) nobj 0) nobj (fun r => cum.getD r 0) cum.length level with
          | none => .undefined
          | some none => .exit 1 []
          | some (some es) =>
            match eafPrintPolygon inf ninf streams.1 es with
            | none => .undefined
            | some written => .exit 0 written

end Moo
