import Mathlib.Algebra.Field.Defs
import Mathlib.Algebra.Order.Floor.Defs
import Mathlib.Algebra.Order.Group.Abs
import Verif.Model.NumpyMore

/-!
# Model of `rubin_sim/maf/metrics/tgaps.py` and `cadence_metrics.py`

Times are elements of an ordered field. `none` is the bad value unless a comment says
otherwise. `reduce_func` arguments are left out: the functions give the array that is
reduced.
-/

namespace Verif.Gaps

open Verif.Np

section All
variable {K : Type*}

/-- `np.roll(xs, i)` -/
def roll (xs : List K) (i : Nat) : List K :=
  let k := xs.length - i % xs.length
  xs.drop k ++ xs.take k

/-- `all_diffs`, `tgaps.py:115-118`, 187-190, 249-252, before concatenation. -/
def allDiffs [Sub K] (ts : List K) : List (List K) :=
  ((List.range ts.length).drop 1).map (fun i => (List.zipWith (fun a b => a - b) ts (roll ts i)).drop i)

/-- `np.concatenate`: `none` is the `ValueError` for an empty list of arrays. -/
def concatenate (ls : List (List K)) : Option (List K) :=
  match ls with
  | [] => none
  | l :: ls => some (l :: ls).flatten

/-- The gaps of `TgapsMetric.run` (`tgaps.py:110-122`) and `TgapsPercentMetric.run`
(183-192). The outer `none` is the bad value, the inner one an exception. -/
def tGaps [Sub K] [LinearOrder K] (allGaps : Bool) (times : List K) : Option (Option (List K)) :=
  if times.length < 2 then none
  else
    let ts := sort times
    some (if allGaps then concatenate (allDiffs ts) else some (diff ts))

/-- `TgapsMetric.run`. -/
def tGapsHist [Sub K] [LinearOrder K] (allGaps : Bool) (bins : List K) (times : List K) : Option (Option (List Nat)) :=
  (tGaps allGaps times).map (fun g => g.map (histogram bins))

/-- `TgapsPercentMetric.run`, lines 183-194; `len(dts)` is never zero. -/
def tGapsPercent [Field K] [LinearOrder K] (allGaps : Bool) (tmin tmax : K) (times : List K) : Option (Option K) :=
  (tGaps allGaps times).map (fun g => g.map (fun d =>
    (d.countP (fun x => decide (tmin ≤ x) && decide (x ≤ tmax)) : K) / (d.length : K) * 100))

/-- The gaps of `NightgapsMetric.run`, lines 244-256: `np.unique` of the nights first. -/
def nightGaps [Sub K] [LinearOrder K] (allGaps : Bool) (nights : List K) : Option (Option (List K)) :=
  if nights.length < 2 then none
  else
    let ns := sort nights.dedup
    some (if allGaps then concatenate (allDiffs ns) else some (diff ns))

/-- `MaxGapMetric.run`, lines 362-368. -/
def maxGap [Sub K] [LinearOrder K] (times : List K) : Option K := (diff (sort times)).max?

end All

section Scale
variable {K : Type*} [Field K] [LinearOrder K] [IsStrictOrderedRing K] [FloorRing K]

/-- `np.arange(a, b, step)` -/
def arange (a b step : K) : List K := (List.range ⌈(b - a) / step⌉₊).map (fun i : Nat => a + (i : K) * step)

/-- `GapsMetric.run`, `tgaps.py:49-60`; `w` is `bin_size`, half the time scale. -/
def gapsSampled (w : K) (times : List K) : Option Nat :=
  if times.length < 2 then none
  else
    match times.min?, times.max? with
    | some lo, some hi =>
      let vals := histogram (arange (lo - w) (hi + w) w) (sort times)
      some ((List.zipWith (fun a b => a * b) (vals.drop 2) (vals.take (vals.length - 2))).countP (fun m => decide (0 < m)))
    | _, _ => none

end Scale

section Nights
variable {K : Type*} [LinearOrder K] [Sub K]

/-- A visit: time and night; the rows are given in the order of `sort(order=mjd)`. -/
structure Visit (K : Type*) where
  mjd : K
  night : Int
deriving DecidableEq

/-- Nights of more than one visit, `tgaps.py:403-404`. -/
def manyNights (s : List (Visit K)) : List Int :=
  (sort (s.map Visit.night).dedup).filter (fun n => decide (1 < (s.map Visit.night).count n))

/-- The time spans of `NightTimespanMetric.run`, lines 402-411, in days; `none` for an
index out of range. -/
def nightSpans (s : List (Visit K)) : List (Option K) :=
  let ns := s.map Visit.night
  (manyNights s).map (fun n =>
    match s[searchsortedRight ns n - 1]?, s[searchsortedLeft ns n]? with
    | some b, some a => some (b.mjd - a.mjd)
    | _, _ => none)

/-- `dt[good]` of `IntraNightGapsMetric.run`, `cadence_metrics.py:313-323`. -/
def intraGaps (s : List (Visit K)) : List K :=
  ((diff (s.map Visit.mjd)).zip (diff (s.map Visit.night))).filterMap (fun e => if e.2 = 0 then some e.1 else none)

/-- `diff` of `InterNightGapsMetric.run`, lines 352-363; empty for fewer than two nights. -/
def interGaps (s : List (Visit K)) : List (Option K) :=
  let ns := s.map Visit.night
  let un := sort ns.dedup
  List.zipWith (fun f l =>
      match s[searchsortedLeft ns f]?, s[searchsortedRight ns l - 1]? with
      | some a, some b => some (a.mjd - b.mjd)
      | _, _ => none)
    un.tail un.dropLast

end Nights

section Template
variable {K : Type*} [LinearOrder K]

/-- `np.minimum.accumulate` -/
def minAccumulate : List K → List K
  | [] => []
  | a :: l => l.scanl min a

/-- The number of good visits of `TemplateExistsMetric.run`, `cadence_metrics.py:53-64`;
`s` is the seeing in the order of time. -/
def templateCount [AddGroup K] (s : List K) : Nat :=
  ((List.zipWith (fun a b => a - b) s (roll (minAccumulate s) 1)).drop 1).countP (fun d => decide (0 ≤ d))

/-- `TemplateExistsMetric.run`; `none` for a division by zero. -/
def templateExists {K : Type*} [Field K] [LinearOrder K] (s : List K) : Option K :=
  if s.length = 0 then none else some ((templateCount s : K) / (s.length : K))

end Template

section Uniform
variable {K : Type*} [Field K] [LinearOrder K]

/-- `np.max(np.abs(...))` of the differences. -/
def maxAbs (l : List K) : Option K := (l.map (fun x => |x|)).max?

/-- `cadence_metrics.py` lines 97-99, 208-211: `dates` sorted, with `dates[1]` subtracted from all differences. -/
def uniformityOf (dates : List K) : Option K :=
  match dates[1]? with
  | none => none
  | some d1 => maxAbs ((dates.zipIdx).map (fun e => ((e.2 : K) + 1) / (dates.length : K) - e.1 - d1))

/-- `UniformityMetric.run`, `cadence_metrics.py:90-100`; `len` is the survey length in
days. No visits raise an exception (`none`). -/
def uniformity (len : K) (mjds : List K) : Option K :=
  if mjds.length = 1 then some 1
  else
    match mjds.min? with
    | none => none
    | some lo => uniformityOf (sort (mjds.map (fun t => (t - lo) / len)))

/-- `GeneralUniformityMetric.run`, lines 134-152, with `min_value`, `max_value` filled in.
Division by zero gives zero here, infinities in numpy; theorems exclude it. -/
def generalUniformity (minV maxV : Option K) (vals : List K) : Option K :=
  if vals.length = 1 then some 1
  else
    match minV <|> vals.min?, maxV <|> vals.max? with
    | some lo, some hi =>
      let sc := sort (vals.map (fun v => (v - lo) / hi))
      maxAbs ((sc.zipIdx).map (fun e => (e.2 : K) / ((sc.length : K) - 1) - e.1))
    | _, _ => none

end Uniform

end Verif.Gaps
