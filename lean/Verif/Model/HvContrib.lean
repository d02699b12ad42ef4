import Verif.Model.Hv
import Mathlib.Algebra.Order.Group.Unbundled.Abs

/-!
# Model of the hypervolume contributions (c/hv_contrib.c)
-/

set_option autoImplicit false

namespace Moo

variable {K : Type*} [CommRing K] [LinearOrder K]

/-- c/hv_contrib.c:26, row `i` of the points is overwritten with the reference point. -/
def replaceRow (pts : ℕ → ℕ → K) (ref : ℕ → K) (i : ℕ) : ℕ → ℕ → K := upd pts i ref

/-- c/hv_contrib.c:24-31 in `hv_1point_diffs`, with `uev == NULL` as in the call of line 42: the value stored in `hvc[i]`.
Row `i` is restored after the call, so every iteration starts with the original points. -/
def hvOnePointDiff (pts : ℕ → ℕ → K) (d n : ℕ) (ref : ℕ → K) (env : HvEnv K) (i : ℕ) : K :=
  fpliHv (replaceRow pts ref i) d n ref env

/-- c/hv_contrib.c:37-49 `hv_contributions`: the value stored in `hvc[i]`.  `tol` is `sqrt(DBL_EPSILON)`; `env` is the
environment of the first call of `fpli_hv` and `envs i` that of the call for row `i`. -/
def hvContribution (pts : ℕ → ℕ → K) (d n : ℕ) (ref : ℕ → K) (tol : K) (env : HvEnv K) (envs : ℕ → HvEnv K) (i : ℕ) : K :=
  let c := fpliHv pts d n ref env - hvOnePointDiff pts d n ref (envs i) i
  if |c| ≥ tol then c else 0

end Moo
