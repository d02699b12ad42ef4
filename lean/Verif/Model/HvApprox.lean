import Mathlib.Analysis.SpecialFunctions.Gamma.Basic
import Mathlib.Analysis.SpecialFunctions.Sqrt
import Mathlib.Data.List.Monad

/-!
# Model of `hv_approx`, python/src/moocore/_moocore.py:520-645

Exact real arithmetic.  The normal variates of sample `s` are `z s 0, z s 1, ...` (l. 638 `seed.normal(size=nobj)`).  The result `none` is an
exception or not a number.
-/

set_option autoImplicit false

namespace Moo

noncomputable section

/-- One entry after `data = ref - data` and `data *= np.where(maximise, -1, 1)`, _moocore.py:623-626. -/
def hvaShift (maximise : ℕ → Bool) (ref p : ℕ → ℝ) (k : ℕ) : ℝ := (ref k - p k) * (if maximise k then -1 else 1)

/-- `data = data[(data > 0).all(axis=1), :]`, _moocore.py:630. -/
def hvaRows (data : ℕ → ℕ → ℝ) (nobj n : ℕ) (ref : ℕ → ℝ) (maximise : ℕ → Bool) : List (ℕ → ℝ) :=
  ((List.range n).map (fun i => hvaShift maximise ref (data i))).filter (fun y => (List.range nobj).all (fun k => decide (y k > 0)))

/-- `w = np.abs(...)` and `w /= np.linalg.norm(w)`, _moocore.py:638-639. -/
def hvaDir (nobj : ℕ) (z : ℕ → ℝ) (k : ℕ) : ℝ := |z k| / √(((List.range nobj).map (fun j => |z j| ^ 2)).sum)

/-- `numpy.min` of a one-dimensional array; `none` is the ValueError for an empty one. -/
def npMin : List ℝ → Option ℝ
  | [] => none
  | x :: xs => some (xs.foldl min x)

/-- `numpy.max` of a one-dimensional array; `none` is the ValueError for an empty one. -/
def npMax : List ℝ → Option ℝ
  | [] => none
  | x :: xs => some (xs.foldl max x)

/-- `expected[k]`, _moocore.py:638-641.  Simplification: a variate that is exactly zero, where numpy divides by zero, gives `none`. -/
def hvaSample (nobj : ℕ) (rows : List (ℕ → ℝ)) (z : ℕ → ℝ) : Option ℝ :=
  if (List.range nobj).any (fun k => decide (z k = 0)) then none
  else (rows.mapM (fun y => npMin ((List.range nobj).map (fun k => y k / hvaDir nobj z k)))).bind npMax

/-- `c_m`, _moocore.py:644. -/
def hvaConst (nobj : ℕ) : ℝ := Real.pi ^ ((nobj : ℝ) / 2) / (2 ^ nobj * Real.Gamma ((nobj : ℝ) / 2 + 1))

/-- `hv_approx`, _moocore.py:605-645, after the checks of the arguments. -/
def hvApprox (data : ℕ → ℕ → ℝ) (nobj n : ℕ) (ref : ℕ → ℝ) (maximise : ℕ → Bool) (nsamples : ℕ) (z : ℕ → ℕ → ℝ) : Option ℝ :=
  ((List.range nsamples).mapM (fun s => hvaSample nobj (hvaRows data nobj n ref maximise) (z s))).bind (fun expected =>
    if expected.length = 0 then none
    else some (hvaConst nobj * ((expected.map (fun e => e ^ nobj)).sum / expected.length)))

end

end Moo
