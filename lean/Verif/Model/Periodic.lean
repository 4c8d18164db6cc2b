import Mathlib.Algebra.Field.Defs
import Mathlib.Algebra.Order.Floor.Defs
import Mathlib.Algebra.Order.Ring.Defs
import Mathlib.Algebra.Order.Group.Abs
import Mathlib.Algebra.BigOperators.Group.List.Basic
import Verif.Model.NumpyMore
import Verif.Model.MoSummary

/-!
# Phases, angles and intervals between visits

Models of `phase_gap_metric.py` (`PhaseGapMetric`), `kuiper_metrics.py`,
`cumulative_metric.py`, `coverage_metric.py`, `schedview_metrics.py` and the revisit metrics
of `cadence_metrics.py`, all in `rubin_sim/maf/metrics`. Numbers are elements of an ordered
field with a floor function.
-/

namespace Verif.Periodic

open Verif.Np

section Floor
variable {K : Type*} [Field K] [LinearOrder K] [IsStrictOrderedRing K] [FloorRing K]

/-- `x % y` of numpy, for `y` not zero. -/
def fmod (x y : K) : K := x - y * (⌊x / y⌋ : K)

/-! ## Phase gaps -/

/-- `phase_gap_metric.py:63-69` for one period: the largest difference of sorted phases, with the one from
the last to the first. `none` for no visits (`phases[-1]` fails). -/
def maxGap (times : List K) (period : K) : Option K :=
  let phases := sort (times.map (fun t => fmod t period / period))
  match phases.head?, phases.getLast? with
  | some a, some b => (diff phases ++ [1 - b + a]).max?
  | _, _ => none

/-- What `PhaseGapMetric.run` gives; an entry `none` is NaN. -/
inductive Gaps (K : Type*)
  | bad
  | error
  | ok (periods : List (Option K)) (gaps : List (Option K))

/-- `phase_gap_metric.py:53-58`. With one period and different limits `np.max(periods)` is zero and the
period 0/0. -/
def periods (n : Nat) (lo hi : K) : List (Option K) :=
  if (hi - lo) / (n : K) = 0 then [some lo]
  else if n = 1 then [none]
  else (List.range n).map (fun i : Nat => some ((i : K) / ((n - 1 : Nat) : K) * (hi - lo) + lo))

/-- `PhaseGapMetric.run`, `phase_gap_metric.py:49-71`. `np.zeros(n_periods)` is filled from
the front; for no periods the division in line 53 fails. -/
def phaseGap (nMin n : Nat) (lo hi : K) (times : List K) : Gaps K :=
  if times.length < nMin then .bad
  else if n = 0 then .error
  else if times.length = 0 then .error
  else
    let ps := periods n lo hi
    .ok ps (ps.map (fun p => p.bind (maxGap times)) ++ List.replicate (n - ps.length) (some 0))

/-- `reduce_mean_gap`, `phase_gap_metric.py:73-77`; NaN if one gap is. -/
def meanGap (gaps : List (Option K)) : Option K :=
  (gaps.foldr (fun g s => match g, s with
    | some g, some s => some (g + s)
    | _, _ => none) (some 0)).map (fun s => s / (gaps.length : K))

/-! ## Kuiper statistic -/

/-- `KuiperMetric.run`, `kuiper_metrics.py:14-26`; `none` for no visits (`np.max` of an
empty array fails). -/
def kuiper (data : List K) : Option K :=
  let values := sort (data.map (fun x => fmod x 360))
  let n : K := (values.length : K)
  let dist := (List.range values.length).map (fun i : Nat => ((i : K) + 1) / n)
  let uniform := values.map (fun v => v / 360)
  match (List.zipWith (fun u d => u - d) uniform dist).max?, (List.zipWith (fun d u => d - u) dist uniform).max? with
  | some a, some b => some (a + b)
  | _, _ => none

end Floor

section Ordered
variable {K : Type*} [Field K] [LinearOrder K] [IsStrictOrderedRing K]

/-! ## Cumulative number of visits -/

/-- The value of `CumulativeMetric.run` (`cumulative_metric.py:33-46`) for a point `x`;
`nights` are the nights in the order of the times. -/
def cumulative (nights : List K) (x : K) : K :=
  MoSum.interp (nights.zip ((List.range nights.length).map (fun i : Nat => (i : K) + 1))) x

/-- The points of lines 35-40: whole steps from the first to the last night, here integers. -/
def cumulativePoints (nights : List Int) : List Int :=
  match nights.min?, nights.max? with
  | some a, some b => (List.range (b + 1 - a).toNat).map (fun i : Nat => a + (i : Int))
  | _, _ => []

/-! ## Coverage by years -/

/-- Bins of `YearCoverageMetric`, `coverage_metric.py:36`: `np.arange(0, 3653, 365.25) - 0.5`
has eleven entries. -/
def yearBins : List K := (List.range 11).map (fun i : Nat => (i : K) * (1461 / 4) - 1 / 2)

/-- `YearCoverageMetric.run`, `coverage_metric.py:45-48`. -/
def yearCoverage (bins nights : List K) : Nat := (histogram bins nights).countP (fun h => decide (0 < h))

/-! ## Revisits -/

/-- The times of `RapidRevisitUniformityMetric.run` that are used, scaled and sorted,
`cadence_metrics.py:196-206`; `none` is the bad value. Lines 193-194 raise `min_nvisits` to
two. -/
def rapidTimes (minVisits : Nat) (tmin tmax : K) (times : List K) : Option (List K) :=
  let minVisits := if minVisits ≤ 1 then 2 else minVisits
  let good := (diff (sort times)).filter (fun d => decide (tmin ≤ d) && decide (d ≤ tmax))
  if good.length < minVisits then none
  else
    let d := sort good
    match d.min? with
    | none => none
    | some m => some (d.map (fun x => (x - m) / (tmax - tmin)))

/-- Lines 207-210 for the scaled times. -/
def rapidMax (d : List K) : Option K :=
  match d[1]? with
  | none => none
  | some second =>
    (List.zipWith (fun (i : Nat) x => |((i : K) + 1) / (d.length : K) - x - second|) (List.range d.length) d).max?

/-- `RapidRevisitUniformityMetric.run`, lines 196-211. -/
def rapidUniformity (minVisits : Nat) (tmin tmax : K) (times : List K) : Option K :=
  (rapidTimes minVisits tmin tmax times).bind rapidMax

/-- `RapidRevisitMetric.run`, lines 234-242. -/
def rapidRevisit (tmin tpairs tmax : K) (min1 min2 : Nat) (times : List K) : Nat :=
  let d := diff (sort times)
  let n1 := d.countP (fun x => decide (tmin ≤ x) && decide (x ≤ tpairs))
  let n2 := d.countP (fun x => decide (tmin ≤ x) && decide (x ≤ tmax))
  if min1 ≤ n1 ∧ min2 ≤ n2 then 1 else 0

/-- `NRevisitsMetric.run` with `normed=False`, lines 276-281; `dt` in days. -/
def nRevisits (dt : K) (times : List K) : Nat := (diff (sort times)).countP (fun x => decide (x ≤ dt))

/-- `NRevisitsMetric.run` with `normed=True`. -/
def nRevisitsNormed (dt : K) (times : List K) : K := (nRevisits dt times : K) / (times.length : K)

/-- The array that `VisitGapMetric.run` reduces, lines 396-400, in hours. -/
def visitGaps (times : List K) : List K := (diff (sort times)).map (fun d => d * 24)

/-! ## Age -/

/-- `AgeMetric.run`, `schedview_metrics.py:35-39`. The outer `none` is the exception for no
visits, the inner one `mask_val`. -/
def age (mjd limit : K) (times : List K) : Option (Option K) :=
  times.max?.map (fun m => if limit < mjd - m then none else some (mjd - m))

end Ordered

end Verif.Periodic
