import Mathlib.Algebra.Field.Defs
import Mathlib.Data.List.Dedup
import Mathlib.Order.Defs.LinearOrder
import Verif.Model.StringCount

/-!
# Model of the visits that the bundles of a group share

`metric_bundle_group.py:477-522` (`MetricBundleGroup._run_compatible`), the part of `SNNSNMetric.run` before the light
curves (`sn_n_sn_metric.py:235-258`), `StringCountMetric.run` (`string_count_metric.py:55-69`) and metrics that begin
with `data_slice.sort(order=...)` (such as `cumulative_metric.py:34`, `cadence_metrics.py:55`).

`self.sim_data[slice_i["idxs"]]` (479) is indexed by a list, an array of numbers or of truth values, so it is a copy of
the rows. This copy is made once for a slice and is given to `metric.run` of all bundles, so what a metric writes into
it is there for the metrics after it. A metric is a function to its value and to the rows as it leaves them.

Simplified: no cache (C11 has it, for metrics that do not write), no exceptions in metrics, and masks of bad values
(C12) are left out. The extinction per band is a total function (a band without one would be a `KeyError`).
-/

namespace Verif.SharedSlice

section Loop
variable {ρ P V : Type*}

/-- `b.metric.run(slicedata, slice_point)`: the value and the rows of `slicedata` afterwards. -/
abbrev Metric (ρ P V : Type*) := P → List ρ → V × List ρ

/-- `metric_bundle_group.py:513-522`: the bundles one after the other on the same array. -/
def runBundles : List (Metric ρ P V) → P → List ρ → List V × List ρ
  | [], _, d => ([], d)
  | m :: ms, p, d =>
    let r := m p d
    let rs := runBundles ms p r.2
    (r.1 :: rs.1, rs.2)

/-- `metric_bundle_group.py:479`: a copy of the rows. -/
def takeRows (tbl : List ρ) (idxs : List Nat) : List ρ := idxs.filterMap (fun i => tbl[i]?)

/-- One round of `metric_bundle_group.py:477-522`: `none` for a slice without visits, which is masked (480-483). -/
def sliceStep (ms : List (Metric ρ P V)) (tbl : List ρ) (s : P × List Nat) : Option (List V) :=
  let d := takeRows tbl s.2
  if d.length = 0 then none else some (runBundles ms s.1 d).1

/-- `metric_bundle_group.py:477-522`: the values of all bundles for each slice. -/
def runSlices (ms : List (Metric ρ P V)) (tbl : List ρ) : List (P × List Nat) → List (Option (List V))
  | [] => []
  | s :: ss => sliceStep ms tbl s :: runSlices ms tbl ss

end Loop

/-- The columns of a visit that are used here. -/
structure Visit (α : Type*) where
  mjd : α
  band : String
  m5 : α
  note : Strings.Str
deriving DecidableEq

section Metrics
variable {α V : Type*}

/-- One round of `sn_n_sn_metric.py:250-253`: the new depths of the visits in a band. -/
def dimBand [Ring α] (ax1 : String → α) (ebv : α) (d : List (Visit α)) (new : List α) (f : String) : List α :=
  List.zipWith (fun v n => if v.band = f then v.m5 - ax1 f * ebv else n) d new

/-- `sn_n_sn_metric.py:248-254`: the depths of the visits are replaced in the array that was given. -/
def addDust [Ring α] (ax1 : String → α) (ebv : α) (d : List (Visit α)) : List (Visit α) :=
  let zeros := d.map (fun v => v.m5 * 0)
  let new := ((d.map Visit.band).dedup).foldl (dimBand ax1 ebv d) zeros
  List.zipWith (fun v n => { v with m5 := n }) d new

/-- `SNNSNMetric.run`, `sn_n_sn_metric.py:235-258`; `rest` is what follows, which works on copies (the selection of
bands, 257-258, is one). The slice point is given by its `ebv`. -/
def snn [Ring α] [LinearOrder α] (ax1 : String → α) (hardCut : Option α) (dust : Bool) (bad : V)
    (rest : List (Visit α) → V) : Metric (Visit α) α V := fun ebv d =>
  if (match hardCut with | none => false | some c => decide (c < ebv)) then (bad, d)
  else
    let d' := if dust then addDust ax1 ebv d else d
    (rest d', d')

/-- `StringCountMetric.run`, `string_count_metric.py:55-71`; `rest` is what is made of the strings. -/
def strCount {P : Type*} (dig : Char → Bool) (clipEnd : Bool) (rest : List Strings.Str → V) :
    Metric (Visit α) P V := fun _ d =>
  let d' := if clipEnd then d.map (fun v => { v with note := Strings.clip dig v.note }) else d
  (rest (d'.map Visit.note), d')

/-- A metric that begins with `data_slice.sort(order=self.mjd_col)`, such as `cumulative_metric.py:33-46`. -/
def sorting {P : Type*} [LinearOrder α] (rest : P → List (Visit α) → V) : Metric (Visit α) P V := fun p d =>
  let d' := d.mergeSort (fun a b => decide (a.mjd ≤ b.mjd))
  (rest p d', d')

/-- A metric that only reads the visits, such as `Coaddm5Metric`. -/
def reading {ρ P : Type*} (f : P → List ρ → V) : Metric ρ P V := fun p d => (f p d, d)

end Metrics

end Verif.SharedSlice
