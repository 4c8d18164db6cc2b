import Mathlib.Algebra.Field.Defs
import Mathlib.Algebra.Order.Floor.Defs
import Mathlib.Algebra.Order.Ring.Defs
import Mathlib.Algebra.BigOperators.Group.List.Basic
import Verif.Model.NumpyMore

/-!
# Model of `rubin_sim/maf/metrics/transient_metrics.py`

`TransientMetric`. Times, magnitudes and depths are elements of an ordered field with a
floor function. `np.argsort` puts rows with equal times in any order, so the sorting
function is a parameter of the model (see `Np.SortedBy`).
-/

namespace Verif.Transient

open Verif.Np

variable {K : Type*} [Field K] [LinearOrder K] [IsStrictOrderedRing K] [FloorRing K]

/-- The columns used by the metric, line 112. -/
structure Visit (K : Type*) where
  mjd : K
  band : String
  m5 : K
deriving DecidableEq

/-- Parameters, lines 82-107. `peaks` is the dictionary of lines 117-124; `years` is
`survey_duration`; `partialLC` tells whether `count_method` is `"partialLC"`. -/
structure Params (K : Type*) where
  duration : K
  peakTime : K
  rise : K
  decline : K
  years : K
  surveyStart : Option K
  plus : K
  peaks : List (String × K)
  nPrePeak : Nat
  nPerLc : Nat
  nFilters : Nat
  nPhase : Nat
  partialLC : Bool

/-- `x % y` of numpy, for `y` not zero. -/
def fmod (x y : K) : K := x - y * (⌊x / y⌋ : K)

/-- `light_curve`, lines 138-162, for one visit: the slope first, then the peak of each
key of the dictionary that equals the filter. -/
def lightCurve (p : Params K) (t : K) (band : String) : K :=
  p.peaks.foldl (fun m e => if band = e.1 then m + e.2 else m)
    (if t ≤ p.peakTime then p.rise * t - p.rise * p.peakTime else p.decline * (t - p.peakTime))

/-- One row of the arrays `data_slice`, `time`, `lc_number` and `detected`. -/
structure Row (K : Type*) where
  visit : Visit K
  time : K
  lc : Int
  det : Nat
deriving DecidableEq

/-- Lines 199-211: the row of a visit. -/
def mkRow (p : Params K) (start tshift : K) (v : Visit K) : Row K :=
  let t := fmod (v.mjd - start + tshift) p.duration
  { visit := v
    time := t
    lc := ⌊(v.mjd - start) / p.duration⌋
    det := if lightCurve p t v.band < v.m5 + p.plus then 1 else 0 }

/-- `np.unique` of the light curve numbers, lines 222 and 245. -/
def ulc (rows : List (Row K)) : List Int := sort (rows.map Row.lc).dedup

/-- `detected[le:ri] += n` -/
def bump (n : Nat) (r : Row K) : Row K := { r with det := r.det + n }

/-- The loop over `zip(left, right)`, lines 223-234 and 246-257: to the rows `le` to `ri`
is added the number that `score` gives for them. -/
def loop (score : List (Row K) → Nat) (rows : List (Row K)) : List (Row K) :=
  let lcs := rows.map Row.lc
  (ulc rows).foldl (fun rs n =>
    let le := searchsortedLeft lcs n
    let ri := searchsortedRight lcs n
    rs.take le ++ (pySlice rs le ri).map (bump (score (pySlice rs le ri))) ++ rs.drop ri) rows

/-- Lines 231-234: one if enough is detected before the peak. -/
def prePeak (p : Params K) (g : List (Row K)) : Nat :=
  let good := g.filter (fun r => decide (r.time < p.peakTime))
  if p.nPrePeak ≤ (good.map Row.det).sum then 1 else 0

/-- Lines 251-257: the number of filters in which all sections are sampled. -/
def perFilter (p : Params K) (g : List (Row K)) : Nat :=
  let points := g.filter (fun r => decide (0 < r.det))
  let ufilters := (points.map (fun r => r.visit.band)).dedup
  ufilters.countP (fun f =>
    let good := points.filter (fun r => decide (r.visit.band = f))
    decide (p.nPerLc ≤ (good.map (fun r => ⌊r.time / p.duration * (p.nPerLc : K)⌋)).dedup.length))

/-- Lines 206-261 for one phase, given the rows: number of light curves found and the rows
in their new order. `srt` is the sort of lines 217-221 and 240-244. -/
def phase (srt : List (Row K) → List (Row K)) (p : Params K) (rows : List (Row K)) : Nat × List (Row K) :=
  let s1 : Nat × List (Row K) :=
    if 0 < p.nPrePeak then (2, loop (prePeak p) (srt rows)) else (1, rows)
  let s2 : Nat × List (Row K) :=
    if 1 < p.nPerLc ∨ 1 < p.nFilters then (s1.1 + p.nFilters, loop (perFilter p) (srt s1.2)) else s1
  (((s2.2.filter (fun r => decide (s2.1 ≤ r.det))).map Row.lc).dedup.length, s2.2)

/-- Lines 184-187: transients that fit into the survey. -/
def nTransMax (p : Params K) : Int :=
  let x := p.years / (p.duration / (1461 / 4))
  if p.partialLC then ⌈x⌉ else ⌊x⌋

/-- Line 188. -/
def tshifts (p : Params K) : List K :=
  (List.range p.nPhase).map (fun i : Nat => (i : K) * p.duration / (p.nPhase : K))

/-- What `run` gives: numerator and denominator of the fraction, or the exception for an
unbound variable or an empty array. -/
inductive Res
  | fraction (detected : Nat) (trans : Int)
  | unbound
  | empty
deriving DecidableEq

/-- The loop over `tshifts`, lines 191-261; line 198 is the only place that sets
`survey_start`. -/
def phases (srt : List (Row K) → List (Row K)) (p : Params K) : List K → List (Visit K) → Nat → Int → Res
  | [], _, nd, nt => .fraction nd nt
  | s :: ss, vs, nd, nt =>
    match p.surveyStart with
    | some _ => .unbound
    | none =>
      match (vs.map Visit.mjd).min? with
      | none => .empty
      | some start =>
        let r := phase srt p (vs.map (mkRow p start s))
        phases srt p ss (r.2.map Row.visit) (nd + r.1) (nt + nTransMax p - (if s ≠ 0 then 1 else 0))

/-- `run`, lines 164-268, up to the last division. -/
def run (srt : List (Row K) → List (Row K)) (p : Params K) (vs : List (Visit K)) : Res :=
  phases srt p (tshifts p) vs 0 0

end Verif.Transient
