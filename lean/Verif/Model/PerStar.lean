import Mathlib.Analysis.SpecialFunctions.Trigonometric.Basic
import Mathlib.Data.Real.Archimedean
import Mathlib.Data.List.Dedup
import Verif.Model.NumpyMore

/-!
# Periodic stars

`rubin_sim/maf/maf_contrib/periodic_star_metric.py`, `periodic_star_modulation_metric.py`, `periodic_metric.py` and `var_depth_metric.py`.

Floats are real numbers.  A fitted value is an `Option ℝ`, where `none` is an infinity.  What `curve_fit` gives for a realisation of the noise is an input, as
are the numbers drawn for the true period and amplitude.  Exceptions are values.
-/

namespace Verif.PerStar

open Real

/-! ## The light curve -/

/-- `filter2index`, `periodic_star_metric.py:29`, as the position among the six magnitudes. -/
def names : List String := ["u", "g", "r", "i", "z", "y"]

/-- `PeriodicStar.__call__` for one visit in a known filter, `periodic_star_metric.py:31-35`. -/
noncomputable def mag (period phase amp : ℝ) (means : List ℝ) (t : ℝ) (f : String) : ℝ :=
  amp * sin ((t + phase) / period * 2 * π) + means.getD (names.idxOf f) 0

/-- `PeriodicStar.__call__`, `periodic_star_metric.py:16-36`: it takes nine parameters and knows six filters. -/
noncomputable def lightcurve (period phase amp : ℝ) (means : List ℝ) (visits : List (ℝ × String)) : Except String (List ℝ) :=
  if means.length ≠ 6 then .error "TypeError"
  else if visits.all (fun v => decide (v.2 ∈ names)) then .ok (visits.map (fun v => mag period phase amp means v.1 v.2))
  else .error "KeyError"

/-! ## `PeriodicStarMetric` -/

/-- A row of `fits`, without the phase, which is not looked at. -/
structure Fit where
  period : Option ℝ
  amp : Option ℝ
  mags : List (Option ℝ)

/-- The options of the metric, `periodic_star_metric.py:110-118`. -/
structure Cfg where
  period : ℝ
  phase : ℝ
  amp : ℝ
  means : List ℝ
  nMonte : ℕ
  periodTol : ℝ
  ampTol : ℝ
  magTol : ℝ
  nBands : ℕ

/-- `periodic_star_metric.py:164-168`: the magnitudes of the filters without visits. -/
def discard (obs : List String) (f : Fit) : Fit :=
  if obs.dedup.length < 9 then { f with mags := List.zipWith (fun n m => if n ∈ obs then m else none) names f.mags } else f

/-- An error is within a tolerance; an infinite one is not. -/
def within (tol : ℝ) (err : ℝ → ℝ) : Option ℝ → Prop
  | none => False
  | some x => err x ≤ tol

/-- `periodic_star_metric.py:171-183` for one row; `period`, `amp`, `mags` are the true parameters. -/
noncomputable def recovered (c : Cfg) (period amp : ℝ) (mags : List ℝ) (f : Fit) : Bool :=
  open Classical in
  decide (within c.periodTol (fun x => |(x - period) / period|) f.period) &&
  decide (within c.ampTol (fun x => |(x - amp) / amp|) f.amp) &&
  decide (c.nBands ≤ (List.zipWith (fun x m => if within c.magTol (fun x => |x - m|) x then 1 else 0) f.mags mags).sum)

/-- `periodic_star_metric.py:177-184`. -/
noncomputable def fraction (c : Cfg) (period amp : ℝ) (mags : List ℝ) (fits : List Fit) : ℝ :=
  ((fits.filter (recovered c period amp mags)).length : ℝ) / c.nMonte

/-- `periodic_star_metric.py:135-138`. -/
noncomputable def atDistance (means : List ℝ) : Option ℝ → List ℝ
  | some x => means.map (· + x)
  | none => means

/-- `PeriodicStarMetric.run`, `periodic_star_metric.py:122-186`.  The slice point has a distance modulus or not, or is not given; the visits are given by
the time since the first and the filter; `fit` is what `curve_fit` gives for the realisations of the noise. -/
noncomputable def run (c : Cfg) (badval : ℝ) (slice : Option (Option ℝ)) (visits : List (ℝ × String)) (fit : List ℝ → ℕ → Fit) : Except String ℝ :=
  if visits.length < c.means.length + 3 then .ok badval
  else
    match slice with
    | none => .error "AttributeError"
    | some dm =>
      let mags := atDistance c.means dm
      match lightcurve c.period c.phase c.amp mags visits with
      | .error e => .error e
      | .ok lc =>
        if c.nMonte = 0 then .error "ZeroDivisionError"
        else .ok (fraction c c.period c.amp mags ((List.range c.nMonte).map (fun i => discard (visits.map Prod.snd) (fit lc i))))

/-! ## `PeriodicStarModulationMetric` -/

/-- `true_params * 0 + np.inf`, `periodic_star_modulation_metric.py:192`. -/
def infinite : Fit := ⟨none, none, List.replicate 6 none⟩

/-- `np.size` of an object that is not an array. -/
def sizeOfObject : ℕ := 1

/-- `periodic_star_modulation_metric.py:191-208`: `nParams` is the number of true parameters. -/
def chosen (nParams : ℕ) (f : Fit) : Fit := if sizeOfObject ≤ nParams then infinite else f

/-- `periodic_star_modulation_metric.py:150`, for times from zero and a positive interval. -/
noncomputable def subruns (interval : ℝ) (times : List ℝ) : ℕ := ⌊times.foldl max 0 / interval⌋₊

/-- `periodic_star_modulation_metric.py:156-159`. -/
noncomputable def window (interval : ℝ) (k : ℕ) (visits : List (ℝ × String)) : List (ℝ × String) :=
  open Classical in visits.filter (fun v => decide (interval * k ≤ v.1) && decide (v.1 ≤ interval * (k + 1)))

/-- What is drawn for a subrun, `periodic_star_modulation_metric.py:170-176`. -/
structure Truth where
  period : ℝ
  phase : ℝ
  amp : ℝ

/-- One subrun, `periodic_star_modulation_metric.py:161-233`; `none` if it has no visits. -/
noncomputable def subrun (c : Cfg) (slice : Option (Option ℝ)) (visits win : List (ℝ × String)) (tr : Truth) (fit : List ℝ → ℕ → Fit) : Except String (Option ℝ) :=
  if win = [] then .ok none
  else
    match slice with
    | none => .error "AttributeError"
    | some dm =>
      let mags := atDistance c.means dm
      match lightcurve tr.period tr.phase tr.amp mags win with
      | .error e => .error e
      | .ok lc =>
        if c.nMonte = 0 then .error "ZeroDivisionError"
        else .ok (some (fraction c tr.period tr.amp mags
          ((List.range c.nMonte).map (fun i => discard (visits.map Prod.snd) (chosen (3 + mags.length) (fit lc i))))))

/-- `PeriodicStarModulationMetric.run`, `periodic_star_modulation_metric.py:131-236`; the outer `none` of the value is nan, the mean of no fraction. -/
noncomputable def modulation (c : Cfg) (interval badval : ℝ) (slice : Option (Option ℝ)) (visits : List (ℝ × String)) (tr : ℕ → Truth)
    (fit : ℕ → List ℝ → ℕ → Fit) : Except String (Option ℝ) :=
  if visits.length < c.means.length + 3 then .ok (some badval)
  else
    match (List.range (subruns interval (visits.map Prod.fst))).mapM (fun k => subrun c slice visits (window interval k visits) (tr k) (fit k)) with
    | .error e => .error e
    | .ok rs =>
      let fs := rs.filterMap id
      .ok (if fs = [] then none else some (fs.sum / fs.length))

/-! ## `PeriodicMetric` -/

/-- The window function at a frequency, `periodic_metric.py:35-41`. -/
noncomputable def windowVal (times : List ℝ) (f : ℝ) : ℝ :=
  (times.map (fun t => cos (-2 * π * f * (t - times.headD 0)))).sum / times.length

/-- `periodic_metric.py:37-41`: at `n` frequencies from zero to below `top`. -/
noncomputable def windowVals (n : ℕ) (top : ℝ) (times : List ℝ) : List ℝ :=
  (List.range n).map (fun k : ℕ => windowVal times ((k : ℝ) * top / n))

/-- `PeriodicMetric.run`, `periodic_metric.py:31-45`; `hasFloat` says whether numpy has the name `float`, which it has no more since version 1.24. -/
noncomputable def periodic (hasFloat : Bool) (n : ℕ) (top : ℝ) (times : List ℝ) : Except String (ℝ × ℝ) :=
  if times = [] then .error "IndexError"
  else if hasFloat = false then .error "AttributeError"
  else
    let v := windowVals n top times
    let s := Np.sort v
    .ok (s.getD (n - 2) 0, (v.sum - s.getD (n - 1) 0) / ((n : ℝ) - 1))

/-- `reduce_peak`, `periodic_metric.py:47-48`. -/
noncomputable def reducePeak (d : ℝ × ℝ) : ℝ := 1 - d.1

/-! ## `VarDepth` -/

/-- `np.arange(16, stop, step)`, `var_depth_metric.py:58` and `153`. -/
noncomputable def grid (stop step : ℝ) : List ℝ := (List.range ⌈(stop - 16) / step⌉₊).map (fun i : ℕ => 16 + (i : ℝ) * step)

/-- The first of a list where a function is smallest, `np.argmin`. -/
noncomputable def argmin (f : ℝ → ℝ) : List ℝ → Option ℝ
  | [] => none
  | a :: l => some (l.foldl (fun b x => if f x < f b then x else b) a)

/-- The end of `VarDepth.run`, `var_depth_metric.py:150-157`: `res` has the differences of the thresholds at the magnitudes, `none` for nan, and `spline` the
linear interpolation of the others. -/
noncomputable def varDepth (magres mean : ℝ) (res : List (Option ℝ)) (spline : List (ℝ × ℝ) → ℝ → ℝ) : Except String ℝ :=
  let mags := grid mean 0.5
  let pts := (mags.zip res).filterMap (fun p => p.2.map (fun r => (p.1, r)))
  if 1 < pts.length then
    match argmin (fun x => |spline pts x|) (grid mean magres) with
    | some x => .ok x
    | none => .error "ValueError"
  else
    match mags.min? with
    | some m => .ok (m - 1)
    | none => .error "ValueError"

/-- The loop over the magnitudes, `var_depth_metric.py:108-146`: `diff` is the difference of the thresholds at a magnitude where the noise spans enough steps.
After the first below zero the rest stay nan. -/
noncomputable def scan (enough : ℝ → Bool) (diff : ℝ → ℝ) : Bool → List ℝ → List (Option ℝ)
  | _, [] => []
  | found, m :: l =>
    if enough m && !found then some (diff m) :: scan enough diff (decide (diff m < 0)) l
    else none :: scan enough diff found l

end Verif.PerStar
