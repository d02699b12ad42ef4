import Verif.Model.VorobWrappers
import Verif.Model.Io

/-!
# Model of the functions on data sets of the R package

`rbind_datasets`, `eaf` with groups, `eaf_as_list`, `attsurf2df` and `write_datasets`.  A matrix is the number of its columns and the list of its rows.
-/

set_option autoImplicit false

namespace Moo

section rbind
variable {K : Type*} [Field K] [LinearOrder K]

/-- Column `c` of a matrix. -/
def rColumn (c : ℕ) (rows : List (List K)) : List K := rows.map (fun row => row.getD c 0)

/-- `min(v) == 1L`; the minimum of no values is infinity. -/
def rMinIsOne (v : List K) : Bool :=
  match v with
  | [] => false
  | a :: l => decide (l.foldl min a = 1)

/-- `max(v)` for at least one value. -/
def rMax (v : List K) : K :=
  match v with
  | [] => 0
  | a :: l => l.foldl max a

/-- `rbind_datasets`, r/R/rbind_datasets.R:13-24; `none` is an error of `stopifnot`.  Simplification: no missing values; the numbers are exact. -/
def rbindDatasets (xcols : ℕ) (x : List (List K)) (ycols : ℕ) (y : List (List K)) : Option (List (List K)) :=
  let setcol := xcols
  if ¬ setcol > 2 then none
  else if ¬ xcols = ycols then none
  else if ¬ rMinIsOne (rColumn (setcol - 1) x) then none
  else if ¬ rMinIsOne (rColumn (setcol - 1) y) then none
  else
    let m := rMax (rColumn (setcol - 1) x)
    some (x ++ y.map (fun row => row.set (setcol - 1) (row.getD (setcol - 1) 0 + m)))

end rbind

section eaf
variable {K : Type*} [Field K] [LinearOrder K] [IsStrictOrderedRing K] [FloorRing K] [Inhabited K] {L : Type*} [LinearOrder L] [Inhabited L] {G : Type*} [LinearOrder G]

/-- `eaf` in R without groups, r/R/eaf.R:60-76 and 119-137: two or three objectives; the C code stops with an error for others (c/eaf.c, `attsurf`). -/
def rEaf (el : EafLib K L) (nobj : ℕ) (maximise : ℕ → Bool) (x : ℕ → ℕ → K) (labels : List L) (percentiles : Option (List K)) : CallOut (List (List K)) :=
  let ord := el.order labels
  let n := labels.length
  let y := orderRows (transformMax maximise x) ord
  let table (o : Option (List (List K))) : CallOut (List (List K)) :=
    match o with
    | none => .undefined
    | some rows => .value rows
  if n < 1 then .error                                                         -- as_double_matrix, r/R/utils.R:59
  else if nobj = 2 then table (rEaf2d el.V el.tol maximise x labels percentiles ord (el.sortX y n) (el.sortY y n) (2 * n + 1))
  else if nobj = 3 then table (rEaf3d el.V el.tol el.mn el.mx el.junk maximise x labels percentiles ord (el.sortZ y n) (n + 3) el.fuel)
  else .error

/-- `where <- groups == g`: the numbers of the rows of group `g`, r/R/eaf.R:81. -/
def rWhere (groups : List G) (g : G) : List ℕ := (List.range groups.length).filter (fun i => decide (groups[i]? = some g))

/-- `eaf` in R with groups, r/R/eaf.R:78-85; every row comes with its entry of the column `groups`.  Simplifications: the levels of `factor(groups)` are compared
exactly and not as text; the negation of the maximised objectives (l. 68) is done after the selection of the rows, in `rEaf`. -/
def rEafGroups (el : EafLib K L) (nobj : ℕ) (maximise : ℕ → Bool) (x : ℕ → ℕ → K) (labels : List L) (groups : List G) (percentiles : Option (List K)) :
    CallOut (List (List K × G)) :=
  match seqCalls ((npUnique groups).map (fun g =>
      let w := rWhere groups g
      match rEaf el nobj maximise (fun i => x (w.getD i 0)) (w.map (fun i => labels.getD i default)) percentiles with
      | .error => .error
      | .undefined => .undefined
      | .value rows => .value (rows.map (fun row => (row, g))))) with
  | .error => .error
  | .undefined => .undefined
  | .value tables => .value tables.flatten

/-- `eaf_as_list` without groups, r/R/eaf.R:171-180: the names of the list are the percentiles.  Simplification: the names are the numbers and not their
first 15 digits. -/
def eafAsList (ncols : ℕ) (rows : List (List K)) : List (K × List (List K)) :=
  (npUnique (rColumn (ncols - 1) rows)).map (fun p => (p, (rows.filter (fun row => decide (row.getD (ncols - 1) 0 = p))).map (fun row => row.take (ncols - 1))))

/-- `eaf_as_list` with groups, r/R/eaf.R:175-178: `split` by the interaction of the percentiles and the groups, where the percentiles vary fastest and combinations that do not
occur are kept.  `ncols` is the number of columns without the column `groups`. -/
def eafAsListGroups (ncols : ℕ) (rows : List (List K × G)) : List ((K × G) × List (List K)) :=
  ((npUnique (rows.map Prod.snd)).map (fun g => (npUnique (rColumn (ncols - 1) (rows.map Prod.fst))).map (fun p =>
    ((p, g), (rows.filter (fun row => decide (row.1.getD (ncols - 1) 0 = p ∧ row.2 = g))).map (fun row => row.1.take (ncols - 1)))))).flatten

/-- `!duplicated(x, fromLast = TRUE)`: the entries whose first component does not occur in a later entry. -/
def keepLast : List (List K × K) → List (List K × K)
  | [] => []
  | a :: l => if a.1 ∈ l.map Prod.fst then keepLast l else a :: keepLast l

/-- `attsurf2df`, r/R/eaf.R:106-117.  Simplification: as for `eafAsList`. -/
def attsurf2df (x : List (K × List (List K))) : List (List K) :=
  (keepLast ((x.map (fun s => s.2.map (fun row => (row, s.1)))).flatten)).map (fun r => r.1 ++ [r.2])

end eaf

section write
variable {V : Type*} {L : Type*} [LinearOrder L]

/-- `split.data.frame(x, sets)` for rows with labels: the rows of every set, in the order of the labels. -/
def rSplitRows (rows : List (List V × L)) : List (List (List V)) :=
  (npUnique (rows.map Prod.snd)).map (fun u => (rows.filter (fun r => decide (r.2 = u))).map Prod.fst)

/-- `write.table(x, row.names=FALSE, col.names=FALSE)`: the numbers of every row separated by spaces; `fmt` writes a number with 15 significant digits. -/
def rWriteTable (fmt : V → List Char) (rows : List (List V)) : List Char := (rows.map (fun row => vectorFprintf fmt row ++ ['\n'])).flatten

/-- `cat(paste("#", paste0(col_names, collapse="\t"), "\n"))`, r/R/read_datasets.R:104: the names are separated by tabs. -/
def rHeader (names : List (List Char)) : List Char := ['#', ' '] ++ List.intercalate ['\t'] names ++ [' ', '\n']

/-- `write_datasets`, r/R/read_datasets.R:94-113: the characters of the file; `none` is the error of `x[[1]]` for no sets.  The rows are the objectives and the label. -/
def rWriteDatasets (fmt : V → List Char) (names : Option (List (List Char))) (rows : List (List V × L)) : Option (List Char) :=
  match rSplitRows rows with
  | [] => none
  | s :: ss => some ((match names with | some ns => rHeader ns | none => []) ++ rWriteTable fmt s ++ (ss.map (fun xi => '\n' :: rWriteTable fmt xi)).flatten)

end write

end Moo
