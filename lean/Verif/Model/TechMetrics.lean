import Mathlib.Algebra.Field.Defs
import Mathlib.Algebra.BigOperators.Group.List.Basic
import Verif.Model.NumpyMore

/-!
# Model of `rubin_sim/maf/metrics/technical_metrics.py` and of `PairFractionMetric`
(`visit_groups_metric.py:15-68`)

A visit is a pair (time, state). The functions take the visits in the order of
`np.argsort` of the times; the theorems are about any such order. Times are in days.
-/

namespace Verif.Tech

open Verif.Np

section Changes
variable {K V : Type*} [DecidableEq V]

/-- `changes`: is the state of a visit different from that of the visit before
(`technical_metrics.py:27`, 62, 117, 174). -/
def changes (s : List (K × V)) : List Bool := List.zipWith (fun a b => decide (b.2 ≠ a.2)) s s.tail

/-- `NChangesMetric.run`, `technical_metrics.py:25-28`. -/
def nChanges (s : List (K × V)) : Nat := (changes s).countP id

/-- `changetimes = times[1:][condition]`. -/
def changeTimes (s : List (K × V)) : List K :=
  (List.zip s.tail (changes s)).filterMap (fun e => if e.2 then some e.1.1 else none)

/-- `dtimes`, lines 64-71: time from the previous change, or from the first visit. -/
def dTimes [Sub K] (t0 : K) (s : List (K × V)) : List K :=
  let ct := changeTimes s
  List.zipWith (fun a b => a - b) ct (t0 :: ct.dropLast)

/-- Results of metrics that may give the bad value; the outer `none` is an exception. -/
abbrev Val (K : Type*) := Option (Option K)

/-- `MinTimeBetweenStatesMetric.run`, lines 59-75 (minutes). The inner `none` is the
bad value; no visits raise `IndexError`. -/
def minTimeBetween [Field K] [LinearOrder K] (s : List (K × V)) : Val K :=
  match s with
  | [] => none
  | v :: _ => some ((dTimes v.1 s).map (fun d => d * (24 * 60))).min?

/-- `NStateChangesFasterThanMetric.run`, lines 114-127; `cutoff` in minutes. -/
def nFaster [Field K] [LinearOrder K] (cutoff : K) (s : List (K × V)) : Option Nat :=
  match s with
  | [] => none
  | v :: _ => some ((dTimes v.1 s).countP (fun d => decide (d < cutoff / 24 / 60)))

/-- `nchanges = indx2 - indx1` at index `i`, lines 181-184. -/
def nWithinAt [Add K] [LinearOrder K] (span : K) (ct : List K) (i : Nat) : Nat :=
  match ct[i]? with
  | some c => searchsortedRight ct (c + span) - i
  | none => 0

/-- `MaxStateChangesWithinMetric.run`, lines 165-185; `span` in days. -/
def maxWithin [Add K] [LinearOrder K] (span : K) (s : List (K × V)) : Nat :=
  if s.length = 1 then 0
  else
    let ct := changeTimes s
    ((List.range ct.length).map (nWithinAt span ct)).max?.getD 0

end Changes

section Shutter
variable {K : Type*} [Field K] [LinearOrder K]

/-- `OpenShutterFractionMetric.run`, lines 216-220; rows (exposure, visit, slew time).
`none` stands for a division by zero. -/
def openFraction (rows : List (K × K × K)) : Option K :=
  let total := (rows.map (fun r => r.2.2 + r.2.1)).sum
  if total = 0 then none else some ((rows.map (fun r => r.1)).sum / total)

/-- `BruteOSFMetric.run`, lines 265-271; rows (start in days, exposure in seconds),
`maxgap` in days. -/
def bruteOSF (maxgap fudge : K) (rows : List (K × K)) : Option K :=
  let d := diff (sort (rows.map Prod.fst))
  let openTime := (d.filter (fun x => decide (x < maxgap))).sum * 24 * 3600
  if openTime = 0 then none else some ((rows.map (fun r => r.2 + fudge)).sum / openTime)

end Shutter

section Pairs
variable {K : Type*} [Field K] [LinearOrder K]

/-- Lines 49-67 of `visit_groups_metric.py`: is the visit at `t` counted, among the
sorted times `ts`? -/
def isPaired (minGap maxGap : K) (ts : List K) (t : K) : Bool :=
  let d1 : Int := (searchsortedLeft ts (t + maxGap) : Int) - (searchsortedLeft ts (t + minGap) : Int)
  let d2 : Int := (searchsortedLeft ts (t - maxGap) : Int) - (searchsortedLeft ts (t - minGap) : Int)
  decide (d1 ≠ 0) || decide (d2 ≠ 0)

/-- `PairFractionMetric.run`, `visit_groups_metric.py:44-68`; `none` for a division by
zero. -/
def pairFraction (minGap maxGap : K) (times : List K) : Option K :=
  if times.length = 0 then none
  else
    let ts := sort times
    some ((ts.countP (isPaired minGap maxGap ts) : K) / (times.length : K))

end Pairs

end Verif.Tech
