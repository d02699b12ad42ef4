import Verif.Model.WithinSets
import Verif.Model.Hv
import Verif.Model.Percentile

/-!
# Model of `vorobT` and `vorobDev` of `_moocore.py`

Exact arithmetic.  `None` results model exceptions.
-/

set_option autoImplicit false

namespace Moo

section
variable {K : Type*} [Field K] [LinearOrder K] [Inhabited K]

/-- `np.mean` of a list -/
def npMean (l : List K) : K := l.sum / (l.length : K)

/-- `Hypervolume.__call__` / `_hypervolume` on a list of rows, python/src/moocore/_moocore.py:329-333, 480-517 (no maximisation): `fpli_hv`; `envs` gives what the C library
does in the call for these rows. -/
def hvRows (d : ℕ) (ref : ℕ → K) (envs : List (ℕ → K) → HvEnv K) (rows : List (ℕ → K)) : K :=
  fpliHv (fun i => rows.getD i (fun _ => 0)) d rows.length ref (envs rows)

/-- `vorobDev`, python/src/moocore/_moocore.py:1318-1378, with `VE` given: `x` has the rows `data 0, ...` with the given set labels.
`none`: `apply_within_sets` raises an error. -/
def vorobDev {L : Type*} [LinearOrder L] (d : ℕ) (ref : ℕ → K) (envs : List (ℕ → K) → HvEnv K) (data : ℕ → ℕ → K) (labels : List L) (VE : List (ℕ → K)) : Option K :=
  let H2 := hvRows d ref envs VE
  match applyWithinSets (fun g => [hvRows d ref envs g]) data labels, applyWithinSets (fun g => [hvRows d ref envs (g ++ VE)]) data labels with
  | some h1, some hU => some (2 * npMean hU - npMean h1 - H2)
  | _, _ => none

/-- The loop of `vorobT`, python/src/moocore/_moocore.py:1299-1313.  `hvq c` is the hypervolume of the EAF at percentile `c`; `prev = none` is infinity; the fuel
bounds the number of iterations (`none`: not finished). The result is the threshold. -/
def vorobLoop (hvq : K → K) (avg : K) : ℕ → K → K → Option K → Option K
  | 0, _, _, _ => none
  | f + 1, a, b, prev =>
    let c := (a + b) / 2
    let tmp := hvq c
    let a' := if tmp > avg then c else a
    let b' := if tmp > avg then b else c
    if prev = some tmp then some c else vorobLoop hvq avg f a' b' (some tmp)

/-- `vorobT`, python/src/moocore/_moocore.py:1252-1315: the threshold, given the hypervolumes of the percentiles and of the sets. -/
def vorobT (hvq : K → K) (hvs : List K) (fuel : ℕ) : Option K := vorobLoop hvq (npMean hvs) fuel 0 100 none

end

end Moo
