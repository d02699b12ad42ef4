import Mathlib.Analysis.SpecialFunctions.Log.Basic

/-!
# Model of `rng_standard_normal`, c/rng.c:71-99, with the tables of c/ziggurat_constants.h

Idealisations: arithmetic, `log1p` and `exp` are exact, and the random numbers are real numbers.  The 64 random bits `r` of line 76 give an index, a sign and
`rabs`; `rabs`, an integer below `2^52`, is `2^52 u` for a real `u`, and bit 8 of `rabs`, which gives the sign of a value in the tail (l. 92), is a
separate random bit.
-/

set_option autoImplicit false

namespace Moo

/-- The tables of c/ziggurat_constants.h, scaled to `u`: `w i = 2^52 wi_double[i]`, `k i = ki_double[i] / 2^52`, `f i = fi_double[i]`,
`r = ziggurat_nor_r`, `invR = ziggurat_nor_inv_r`. -/
structure ZigTable where
  w : ℕ → ℝ
  k : ℕ → ℝ
  f : ℕ → ℝ
  r : ℝ
  invR : ℝ

/-- The random numbers that one pass of the loop c/rng.c:74-98 may use, with `N` layers (256 in the code): the index (l. 77), the sign (l. 79), the sign in
the tail (l. 92), `u` (l. 80), the number of the test in the wedge (l. 95) and the pairs of numbers of the loop for the tail (l. 87-94). -/
abbrev ZigDraw (N : ℕ) := (Fin N × Bool × Bool) × (ℝ × ℝ) × (ℕ → ℝ × ℝ)

noncomputable section

/-- `xx`, c/rng.c:89. -/
def zigXX (T : ZigTable) (t : ℝ × ℝ) : ℝ := -T.invR * Real.log (1 + -t.1)

/-- `yy`, c/rng.c:90. -/
def zigYY (t : ℝ × ℝ) : ℝ := -Real.log (1 + -t.2)

/-- The loop for the tail, c/rng.c:87-94; the result is `ziggurat_nor_r + xx`, or `none` if the loop does not end within `fuel` passes. -/
def zigTail (T : ZigTable) : ℕ → (ℕ → ℝ × ℝ) → Option ℝ
  | 0, _ => none
  | fuel + 1, t =>
    if zigYY (t 0) + zigYY (t 0) > zigXX T (t 0) * zigXX T (t 0) then some (T.r + zigXX T (t 0))
    else zigTail T fuel (fun i => t (i + 1))

/-- One pass of the loop c/rng.c:74-98: `some (some x)` is `return x`, `some none` goes on with the next pass, `none` is a loop for the tail that does not end
within `fuel` passes. -/
def zigIter (T : ZigTable) {N : ℕ} (fuel : ℕ) (D : ZigDraw N) : Option (Option ℝ) :=
  let idx : ℕ := D.1.1
  let x := if D.1.2.1 then -(D.2.1.1 * T.w idx) else D.2.1.1 * T.w idx             -- l. 81-83
  if D.2.1.1 < T.k idx then some (some x)                                          -- l. 84-85
  else if idx = 0 then                                                             -- l. 86
    match zigTail T fuel D.2.2 with
    | none => none
    | some y => some (some (if D.1.2.2 then -y else y))                            -- l. 91-93
  else if (T.f (idx - 1) - T.f idx) * D.2.1.2 + T.f idx < Real.exp (-0.5 * x * x) then some (some x)  -- l. 95-97
  else some none

/-- `rng_standard_normal`, c/rng.c:71-99, with the random numbers `D 0`, `D 1`, ... of its passes; the result is the value and the random numbers of the passes
that follow; `none` if it does not end within `fuel` passes. -/
def zigNormal (T : ZigTable) {N : ℕ} (tailFuel : ℕ) : ℕ → (ℕ → ZigDraw N) → Option (ℝ × (ℕ → ZigDraw N))
  | 0, _ => none
  | fuel + 1, D => match zigIter T tailFuel (D 0) with
    | none => none
    | some (some x) => some (x, fun i => D (i + 1))
    | some none => zigNormal T tailFuel fuel (fun i => D (i + 1))

/-- `m` successive calls of `rng_standard_normal` with the same state, as in the loop of `rng_bivariate_normal_fill`, c/rng.c:101-116. -/
def zigMany (T : ZigTable) {N : ℕ} (tailFuel fuel : ℕ) : ℕ → (ℕ → ZigDraw N) → Option (List ℝ)
  | 0, _ => some []
  | m + 1, D => match zigNormal T tailFuel fuel D with
    | none => none
    | some (x, D') => (zigMany T tailFuel fuel m D').map (x :: ·)

end

end Moo
