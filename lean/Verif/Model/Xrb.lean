import Mathlib.Analysis.SpecialFunctions.Log.Base
import Mathlib.Analysis.SpecialFunctions.Pow.Real
import Mathlib.Analysis.Real.Sqrt
import Verif.Lemmas.NumpyMore

/-!
# Outbursts of X-ray binaries

`rubin_sim/maf/maf_contrib/xrb_metrics.py`.

Floats are real numbers.  A magnitude is an `Option ℝ`, where `none` is the infinity that numpy gives at the start of the outburst (a division by zero
and the logarithm of zero, with warnings).  The random draws are inputs.
-/

namespace Verif.Xrb

open Real

/-- `XrbLc.fred` (`xrb_metrics.py:137-155`), for `t` not zero. -/
noncomputable def fred (t amp rise decay : ℝ) : ℝ := amp * exp (2 * sqrt (rise / decay)) * exp (-rise / t - t / decay)

/-- What `outburst_params` draws for an outburst (`xrb_metrics.py:123-135`); the magnitudes by filter are given where they are needed. -/
structure Params where
  rise : ℝ
  decay : ℝ
  amp : ℝ
  duration : ℝ

/-- The amplitude of all outbursts (`xrb_metrics.py:114-115`). -/
noncomputable def amplitude : ℝ := 10 ^ (-(0.4 : ℝ) * -6)

/-- `duration` (`xrb_metrics.py:119`). -/
noncomputable def duration (rise decay amp : ℝ) : ℝ := (rise + decay) + log amp

/-- `XrbLc.lightcurve` (`xrb_metrics.py:157-198`) at one time, for the absolute magnitude of the filter. -/
noncomputable def lightcurve (absMag : ℝ) (p : Params) (t : ℝ) : Option ℝ :=
  if 0 ≤ t ∧ t ≤ p.duration then
    if t = 0 then none else some (absMag + -2.5 * logb 10 (fred t p.amp p.rise p.decay))
  else some 99

/-- Extinction and distance modulus added (`xrb_metrics.py:243-247`, `:401-406`). -/
noncomputable def observed (absMag : ℝ) (p : Params) (ax ebv distance t : ℝ) : Option ℝ :=
  (lightcurve absMag p t).map fun m => m + ax * ebv + (5 * logb 10 (distance * 1000) - 5)

/-- `mags <= depth` of `detectable_duration` (`xrb_metrics.py:249`). -/
noncomputable def visible (depth : ℝ) : Option ℝ → Bool
  | none => false
  | some m => decide (m ≤ depth)

/-- `np.linspace(0, duration, 10000)` (`xrb_metrics.py:225-226`). -/
noncomputable def grid (duration : ℝ) : List ℝ := (List.range 10000).map fun i : ℕ => (i : ℝ) * (duration / 9999)

section
variable {K : Type} [LinearOrder K]

/-- One filter of `detectable_duration` (`xrb_metrics.py:249-257`): `none` are the infinities. -/
def step (ts : List K) (acc : Option K × Option K) (vis : K → Bool) : Option K × Option K :=
  match (ts.filter vis).head?, (ts.filter vis).getLast? with
  | some a, some b =>
    (match acc.1 with | none => some a | some s => if a < s then some a else some s,
     match acc.2 with | none => some b | some e => if e ≤ b then some b else some e)
  | _, _ => acc

/-- `detectable_duration` (`xrb_metrics.py:200-262`) for the times and, for each filter, at which of them the outburst is bright enough; `none` for
`nan, nan`. -/
def detectable (ts : List K) (filters : List (K → Bool)) : Option (K × K) :=
  match filters.foldl (step ts) (none, none) with
  | (some s, some e) => some (s, e)
  | _ => none

end

/-- A visit: its time from the start of the outburst, the magnitude of the outburst and the depth. -/
structure Visit where
  t : ℝ
  mag : Option ℝ
  m5 : ℝ

/-- `np.where(mags < m5)` (`xrb_metrics.py:409`). -/
noncomputable def detected (l : List Visit) : List Visit := l.filter fun v => match v.mag with | none => false | some m => decide (m < v.m5)

/-- `_ever_detect` (`xrb_metrics.py:327-332`). -/
noncomputable def everDetect (needed : ℕ) (l : List Visit) : Bool := decide (needed ≤ (detected l).length)

/-- `_early_detect` (`xrb_metrics.py:338-355`). -/
noncomputable def earlyDetect (window : ℝ) (needed : ℕ) (l : List Visit) : Bool :=
  decide (needed ≤ ((detected l).filter fun v => decide (v.t ≤ window)).length)

/-- `_mean_time_between_detections` (`xrb_metrics.py:357-373`); the sorting does not change the mean and is left out. -/
noncomputable def meanDiff (ts : List ℝ) : ℝ := (Np.diff ts).sum / (Np.diff ts).length

/-- The entry of `run` (`xrb_metrics.py:419-428`). -/
noncomputable def meanTime (start stop : ℝ) (l : List Visit) : ℝ :=
  if 1 < (detected l).length then meanDiff (start :: (detected l).map Visit.t ++ [stop]) else -999

/-- `reduce_mean_time_between_detections` (`xrb_metrics.py:457-462`). -/
noncomputable def reduceMeanTime (badval tt : ℝ) : ℝ := if tt < 0 then badval else tt

/-- `_possible_to_detect` (`xrb_metrics.py:375-391`) of the duration from `detectable_duration`. -/
def possible (d : Option (ℝ × ℝ)) : Bool := d.isSome

/-! ## Random parameters -/

/-- Values put where a mask is true, the others where it is false (`xrb_metrics.py:104-107`); `none` is nan. -/
def fill {K : Type} : List Bool → List K → List K → List (Option K)
  | [], _, _ => []
  | true :: w, a :: as, bs => some a :: fill w as bs
  | true :: w, [], bs => none :: fill w [] bs
  | false :: w, as, b :: bs => some b :: fill w as bs
  | false :: w, as, [] => none :: fill w as []

/-- The rise times of `outburst_params` (`xrb_metrics.py:103-107`): `flip` from the generator of the object, `global n` are `n` draws of
`loguniform.rvs`, which uses the state of `np.random`, `own n` are `n` draws of `self.rng.lognormal`. -/
noncomputable def tauRise (flip : List ℝ) (global own : ℕ → List ℝ) : List (Option ℝ) :=
  let w := flip.map fun x => decide (0.5 < x)
  fill w (global (w.countP id)) ((own (w.countP fun b => !b)).map fun x => x + 0.3)

/-- The draws of `generate_xrb_pop_slicer` (`xrb_metrics.py:481-507`): positions and times from the generator of the seed, the parameters of the
outbursts from an `XrbLc()` of its own, with the seed 42, and from the state of `np.random`. -/
def pop {G S P Q : Type} (gen : ℕ → G) (places : G → P) (params : G → S → Q) (seed : ℕ) (global : S) : P × Q :=
  (places (gen seed), params (gen 42) global)

end Verif.Xrb
