import Verif.Model.Normalise

/-!
# Model of the HypE estimate of the weighted hypervolume (c/whv_hype.c)

Exact arithmetic in an ordered field.  The random number generator is an arbitrary state machine; `log` and `sqrt` are arbitrary functions.
`none` is a failed assertion.
-/

set_option autoImplicit false

namespace Moo

variable {K : Type*} [Field K] [LinearOrder K] {S : Type*}

/-- c/whv_hype.c:170-176: does the point weakly dominate the sample? (the loop over the two objectives) -/
def isDominator (s : K × K) (p : ℕ → K) : Bool :=
  if s.1 < p 0 then false else if s.2 < p 1 then false else true

/-- c/whv_hype.c:165-180: `dominated[s]` and the array `is_dominator` after the loop over the points. -/
def countDominators (pts : ℕ → ℕ → K) (s : K × K) : List ℕ → ℕ × List Bool
  | [] => (0, [])
  | j :: js =>
    let r := countDominators pts s js
    let dom := isDominator s (pts j)
    (if dom then r.1 + 1 else r.1, dom :: r.2)

/-- c/whv_hype.c:182-188: the second loop over the points. -/
def addAlpha (dominated : ℕ) : List Bool → K → Option K
  | [], whv => some whv
  | dom :: ds, whv =>
    if dom then
      if ¬ dominated > 0 then none else addAlpha dominated ds (whv + 1 / (dominated : K))
    else addAlpha dominated ds whv

/-- c/whv_hype.c:154-196 `estimate_whv`: the loop over the samples. -/
def estimateWhvLoop (pts : ℕ → ℕ → K) (npoints : ℕ) : List (K × K) → K → Option K
  | [], whv => some whv
  | s :: ss, whv =>
    let r := countDominators pts s (List.range npoints)
    match addAlpha r.1 r.2 whv with
    | none => none
    | some whv' => estimateWhvLoop pts npoints ss whv'

/-- c/whv_hype.c:154-196 `estimate_whv`. -/
def estimateWhv (pts : ℕ → ℕ → K) (npoints : ℕ) (samples : List (K × K)) : Option K := estimateWhvLoop pts npoints samples 0

/-- c/whv_hype.c:198-204 `calculate_volume_between_points`. -/
def volumeBetween (p1 p2 : ℕ → K) (dim : ℕ) : K := (List.range dim).foldl (fun v k => v * (p2 k - p1 k)) 1

/-- c/whv_hype.c:206-225 `normalise01_inplace`, `normalise01`. -/
def normalise01 (pts : ℕ → ℕ → K) (dim npoints : ℕ) (lbound ubound : ℕ → K) : ℕ → ℕ → K :=
  normalise pts dim npoints (fun _ => -1) (-1) 0 1 lbound ubound

/-- c/whv_hype.c:228-244 `whv_hype_sample`, given the samples. -/
def whvHypeSample (pts : ℕ → ℕ → K) (npoints : ℕ) (ideal ref : ℕ → K) (samples : List (K × K)) : Option K :=
  match estimateWhv (normalise01 pts 2 npoints ideal ref) npoints samples with
  | none => none
  | some whv => some (whv * (volumeBetween ideal ref 2 / (samples.length : K)))

/-- The random number generator (c/rng.h, c/rng.c): uniform numbers and standard normal numbers. -/
structure Rng (S K : Type*) where
  /-- `rng_random` -/
  random : S → K × S
  /-- `rng_standard_normal` -/
  normal : S → K × S

/-- c/whv_hype.c:77-93 `uniform_dist_sample` (`lower` is 0 and `range` 1, lines 95-109). -/
def uniformSamples (rng : Rng S K) : ℕ → S → List (K × K)
  | 0, _ => []
  | n + 1, s =>
    let a := rng.random s
    let b := rng.random a.2
    (0 + a.1 * 1, 0 + b.1 * 1) :: uniformSamples rng n b.2

/-- c/whv_hype.c:50-75 `exp_dist_sample`: the first loop (`flip = false`) and the second (`flip = true`), lines 61-67 and 68-74; returns the state of the generator, too. -/
def expSamplesLoop (rng : Rng S K) (lg : K → K) (mu : K) (flip : Bool) : ℕ → S → Option (List (K × K) × S)
  | 0, s => some ([], s)
  | n + 1, s =>
    let a := rng.random s
    let b := rng.random a.2
    if flip then
      if ¬ b.1 > 0 then none
      else match expSamplesLoop rng lg mu flip n b.2 with
        | none => none
        | some (l, s') => some ((0 + a.1 * 1, 0 - mu * lg b.1) :: l, s')
    else
      if ¬ a.1 > 0 then none
      else match expSamplesLoop rng lg mu flip n b.2 with
        | none => none
        | some (l, s') => some ((0 - mu * lg a.1, 0 + b.1 * 1) :: l, s')

/-- c/whv_hype.c:50-75 `exp_dist_sample`. -/
def expSamples (rng : Rng S K) (lg : K → K) (mu : K) (nsamples : ℕ) (s : S) : Option (List (K × K)) :=
  let n := nsamples / 2
  match expSamplesLoop rng lg mu false n s with
  | none => none
  | some (l1, s1) => match expSamplesLoop rng lg mu true (nsamples - n) s1 with
    | none => none
    | some (l2, _) => some (l1 ++ l2)

/-- c/rng.c `rng_bivariate_normal_fill`. -/
def bivariateNormalFill (rng : Rng S K) (sqrt : K → K) (mu1 mu2 sigma1 sigma2 rho : K) : ℕ → S → List (K × K)
  | 0, _ => []
  | n + 1, s =>
    let sigma2rho := sigma2 * rho
    let nu := sigma2 * sqrt (1 - rho * rho)
    let x1 := rng.normal s
    let x2 := rng.normal x1.2
    (mu1 + x1.1 * sigma1, mu2 + x1.1 * sigma2rho + nu * x2.1) :: bivariateNormalFill rng sqrt mu1 mu2 sigma1 sigma2 rho n x2.2

/-- c/whv_hype.c:32-48 `gaussian_dist_sample`. -/
def gaussianSamples (rng : Rng S K) (sqrt : K → K) (mu : ℕ → K) (nsamples : ℕ) (s : S) : List (K × K) :=
  bivariateNormalFill rng sqrt (mu 0) (mu 1) (1 / 4) (1 / 4) 1 nsamples s

/-- c/whv_hype.c:260-269 `whv_hype_unif`; `s` is the state of the generator after seeding. -/
def whvHypeUnif (rng : Rng S K) (pts : ℕ → ℕ → K) (npoints : ℕ) (ideal ref : ℕ → K) (nsamples : ℕ) (s : S) : Option K :=
  whvHypeSample pts npoints ideal ref (uniformSamples rng nsamples s)

/-- c/whv_hype.c:271-280 `whv_hype_expo`. -/
def whvHypeExpo (rng : Rng S K) (lg : K → K) (pts : ℕ → ℕ → K) (npoints : ℕ) (ideal ref : ℕ → K) (nsamples : ℕ) (s : S) (mu : K) : Option K :=
  match expSamples rng lg mu nsamples s with
  | none => none
  | some samples => whvHypeSample pts npoints ideal ref samples

/-- c/whv_hype.c:282-294 `whv_hype_gaus`. -/
def whvHypeGaus (rng : Rng S K) (sqrt : K → K) (pts : ℕ → ℕ → K) (npoints : ℕ) (ideal ref : ℕ → K) (nsamples : ℕ) (s : S) (mu : ℕ → K) : Option K :=
  let mu' := normalise01 (fun _ => mu) 2 1 ideal ref 0
  whvHypeSample pts npoints ideal ref (gaussianSamples rng sqrt mu' nsamples s)

/-- python/src/moocore/_moocore.py:1847-1857: the negation of the maximised objectives of one row. -/
def negMax (maximise : ℕ → Bool) (p : ℕ → K) : ℕ → K := fun d => if maximise d then -p d else p d

/-- `whv_hype` of python/src/moocore/_moocore.py:1726-1884 for `dist = "uniform"`. -/
def pyWhvHypeUnif (rng : Rng S K) (pts : ℕ → ℕ → K) (npoints : ℕ) (ideal ref : ℕ → K) (maximise : ℕ → Bool) (nsamples : ℕ) (s : S) : Option K :=
  whvHypeUnif rng (fun i => negMax maximise (pts i)) npoints (negMax maximise ideal) (negMax maximise ref) nsamples s

/-- `whv_hype` of python/src/moocore/_moocore.py:1726-1884 for `dist = "point"`: `mu` is passed on as it is. -/
def pyWhvHypePoint (rng : Rng S K) (sqrt : K → K) (pts : ℕ → ℕ → K) (npoints : ℕ) (ideal ref : ℕ → K) (maximise : ℕ → Bool) (nsamples : ℕ) (s : S) (mu : ℕ → K) : Option K :=
  whvHypeGaus rng sqrt (fun i => negMax maximise (pts i)) npoints (negMax maximise ideal) (negMax maximise ref) nsamples s mu

end Moo
