import Verif.Spec.Cli

/-!
# Model of what the command-line programs have in common (c/cmdline.h)

`getopt_long` is not modelled: the programs get the values of their options.  The files are given by their characters; failures of `fopen` are not modelled.
-/

set_option autoImplicit false

namespace Moo

variable {V : Type*}

/-- A call of `read_double_data` with `*nobjs_p = nobj` and no data yet, followed by `handle_read_data_error`, c/cmdline.h:49-66: the outer `none` is a store outside of a block, the inner `none` is
`exit (EXIT_FAILURE)`. -/
def readFile (scan : NumScan V) (nobj : ℕ) (s : List Char) : Option (Option (RdOut V)) :=
  match readData scan (s.length + 3) nobj [] [] s with
  | none => none
  | some out => if out.code ≠ 0 then some none else some (some out)

/-- `&data[nobj * cumsize]` as a table of points. -/
def blockTable (data : ℕ → V) (nobj cumsize : ℕ) : ℕ → ℕ → V := fun i k => data (nobj * cumsize + (nobj * i + k))

/-- A function that got `&data[nobj * cumsize]` has left this table there, with `size` points. -/
def writeBlock (data : ℕ → V) (nobj cumsize size : ℕ) (t : ℕ → ℕ → V) : ℕ → V := fun j =>
  if nobj * cumsize ≤ j ∧ j < nobj * cumsize + nobj * size then t ((j - nobj * cumsize) / nobj) ((j - nobj * cumsize) % nobj) else data j

/-- `read_reference` of c/main-hv.c:99-129 and `read_point` of c/nondominated.c:139-168 (the same code): `strtod` is `scan` after white space; `none` is `NULL`.  The array grows by ten elements when it is
full; it has `size` elements, `k` of them are written.  The fuel is larger than the number of characters. -/
def readPointLoop (scan : NumScan V) : ℕ → ℕ → List V → List Char → Option (Option (List V))
  | 0, _, _, _ => none
  | fuel + 1, size, point, cursor =>
    let size := if point.length = size then size + 10 else size
    if ¬ point.length < size then none
    else
      match scan (cursor.dropWhile isSpaceC) with
      | some (v, endp) => readPointLoop scan fuel size (point ++ [v]) endp
      | none => if cursor.all isSpaceC ∧ point ≠ [] then some (some point) else some none

/-- c/main-hv.c:99-129 `read_reference`, c/nondominated.c:139-168 `read_point`: the outer `none` is a store outside of the array. -/
def readPoint (scan : NumScan V) (str : List Char) : Option (Option (List V)) := readPointLoop scan (str.length + 1) 10 [] str

end Moo
