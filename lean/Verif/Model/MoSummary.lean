import Mathlib.Algebra.Order.Field.Basic
import Mathlib.Analysis.SpecialFunctions.Pow.Real
import Verif.Model.NumpyMore
import Verif.Model.Gaps

/-!
# Model of `rubin_sim/maf/metrics/mo_summary_metrics.py`

Arrays are lists, the first index is that of the object and the second that of `H`. The
names and units of the values are not modelled.
-/

namespace Verif.MoSum

open Verif.Np

section Field
variable {K : Type*} [Field K]

/-- `np.cumsum` from a starting value. -/
def cumsumFrom (acc : K) : List K → List K
  | [] => []
  | x :: l => (acc + x) :: cumsumFrom (acc + x) l

/-- `np.cumsum` -/
def cumsum (l : List K) : List K := cumsumFrom 0 l

/-- `sum_over_h`, lines 116-144, with the values of `dndh_func(hvalues)`. -/
def sumOverH (vals dndh : List K) : List K := cumsum (List.zipWith (· * ·) vals dndh)

/-- `integrate_over_h`, lines 86-113. -/
def integrateOverH (vals dndh : List K) : List K := List.zipWith (· / ·) (sumOverH vals dndh) (cumsum dndh)

/-- `(np.diff(hvalues, append=hvalues[-1] + np.diff(hvalues)[-1])) / 0.1`, line 49 and others.
Raises (`none`) for fewer than two values. -/
def binRatio (h : List K) : Option (List K) :=
  match (diff h).getLast? with
  | some d => some ((diff h ++ [d]).map (fun x => x / (1 / 10)))
  | none => none

end Field

section Interp
variable {K : Type*} [Field K] [LinearOrder K]

/-- `np.interp` on the points `(x, y)`, the `x` increasing. -/
def interp : List (K × K) → K → K
  | [], _ => 0
  | [(_, p)], _ => p
  | (a, p) :: (b, q) :: l, x =>
    if x < a then p else if x < b then p + (q - p) / (b - a) * (x - a) else interp ((b, q) :: l) x

/-- Lines 205 and 241: `(h_mark < h_vals.min()) or (h_mark > h_vals.max())`. -/
def outside (mark : K) (h : List K) : Bool :=
  match h.min?, h.max? with
  | some a, some b => decide (mark < a) || decide (b < mark)
  | _, _ => true

/-- `ValueAtHMetric.run`, lines 203-212. -/
def valueAtH (mark : K) (vals : List (List K)) (h : List K) : Option K :=
  if outside mark h then none
  else
    match vals with
    | [v] => some (interp (h.zip v) mark)
    | _ => none

/-- `np.mean(metric_vals.swapaxes(0, 1), axis=1)`: for each `H` the mean over the objects. -/
def columnMeans (vals : List (List K)) (n : Nat) : List K :=
  (List.range n).map (fun j : Nat => (vals.map (fun v => v.getD j 0)).sum / (vals.length : K))

/-- `MeanValueAtHMetric.run`, lines 239-245, with `reduce_func=np.mean`. -/
def meanValueAtH (mark : K) (vals : List (List K)) (h : List K) : Option K :=
  if outside mark h then none else some (interp (h.zip (columnMeans vals h.length)) mark)

/-- `TotalNumberSSO.run`, lines 175-178. -/
def totalNumber (mark : K) (vals dndh h : List K) : K := interp (h.zip (sumOverH vals dndh)) mark

end Interp

section Completeness
variable {K : Type*} [Field K] [LinearOrder K]

/-- Lines 334-337, the completeness at one `H` from the values of all objects there; `none`
is masked. -/
def complete (threshold : K) (col : List (Option K)) : K :=
  ((col.filter (fun x => decide (threshold ≤ x.getD 0))).length : K) / (col.length : K)

/-- Lines 334-337: `cols` has a list for each `H`. -/
def completeness (threshold : K) (cols : List (List (Option K))) : List K := cols.map (complete threshold)

/-- Lines 341-347: the bins in `H`. -/
def hBins [FloorRing K] (nbins : Nat) (minRange : K) (h : List K) : Option (List K) :=
  match h.min?, h.max? with
  | some lo, some hi =>
    let hrange := if hi - lo < minRange then minRange else hi - lo
    let minH := if hi - lo < minRange then lo - hrange / 2 else lo
    let step := hrange / (nbins : K)
    some (Gaps.arange minH (minH + hrange + step / 2) step)
  | _, _ => none

/-- Lines 349-353: the values for one `H` per object. -/
def binned (threshold : K) (vals bins : List K) : List K :=
  let nAll := histogram bins vals
  let nFound := histogram bins (vals.filter (fun x => decide (threshold ≤ x)))
  List.zipWith (fun (f a : Nat) => if a = 0 then 0 else (f : K) / (a : K)) nFound nAll

/-- `MoCompletenessMetric.run`, lines 338-353, when there is not a value for each `H`. -/
def completenessSpread [FloorRing K] (threshold : K) (nbins : Nat) (minRange : K) (vals h : List K) : Option (List K) :=
  (hBins nbins minRange h).map (binned threshold vals)

/-- `MoCompletenessAtTimeMetric.run`, lines 442-446, at one `H`: the fraction of the objects
up to each of the times; masked objects are dropped. -/
def completeAt (times : List K) (col : List (Option K)) : List K :=
  (0 :: cumsum ((histogram times (col.filterMap id)).map (fun n : Nat => (n : K)))).map (· / (col.length : K))

/-- The index of lines 452-457. -/
def hIndex (hval : Option K) (h : List K) : Option Nat :=
  match hval with
  | none => some (h.length / 2)
  | some x =>
    match (h.map (fun y => |y - x|)).min? with
    | some m => h.findIdx? (fun y => decide (|y - x| = m))
    | none => none

/-- `MoCompletenessAtTimeMetric.run`, lines 435-464, for cloned `H`: the values at each time and
the new `self.hval`. `integrate` is `integrate_over_h(_, h_vals)` with the default distribution. -/
def completenessAtTime (integrate : List K → List K) (cumulative : Bool) (hval : Option K) (times : List K)
    (cols : List (List (Option K))) (h : List K) : Option (List K × K) :=
  match hIndex hval h with
  | none => none
  | some i =>
    let c := cols.map (completeAt times)
    let rows := (List.range times.length).map (fun t : Nat => c.map (fun r => r.getD t 0))
    let rows := if cumulative then rows.map integrate else rows
    some (rows.map (fun r => r.getD i 0), h.getD i 0)

end Completeness

section Power

/-- `power_law_dndh`, lines 23-51: `anchor` is `(no, ho)` if both are given. -/
noncomputable def powerLaw (hindex : ℝ) (anchor : Option (ℝ × ℝ)) (h : List ℝ) : Option (List ℝ) :=
  match h.min?, binRatio h with
  | some lo, some ratio =>
    let (no, ho) := anchor.getD (10, lo)
    some (List.zipWith (· * ·) (h.map (fun x => no * (1 / 10) * (10 : ℝ) ^ (hindex * (x - ho)))) ratio)
  | _, _ => none

/-- The default index of `power_law_dndh`. -/
noncomputable def defaultIndex : ℝ := 33 / 100

/-- `neo_dndh_granvik`, lines 54-60. -/
noncomputable def neoGranvik (h : List ℝ) : Option (List ℝ) :=
  (binRatio h).map (fun ratio => List.zipWith (· * ·)
    (h.map (fun x => 150 * (10 : ℝ) ^ (3 / 10 * (x - 18.5)) + 2500 * (10 : ℝ) ^ (92 / 100 * (x - 23.2)))) ratio)

/-- `MoCompletenessMetric.run` for cloned `H`, lines 328-365, with `hindex` as given to the
constructor. Line 355 passes it as `Hindex=`, which `power_law_dndh` takes as one of its unused
`**kwargs`, so that its own default is used. -/
noncomputable def moCompleteness (threshold : ℝ) (cumulative : Bool) (_hindex : ℝ) (cols : List (List (Option ℝ))) (h : List ℝ) :
    Option (List ℝ) :=
  if cumulative then (powerLaw defaultIndex none h).map (integrateOverH (completeness threshold cols))
  else some (completeness threshold cols)

end Power

/-- `MoCompletenessAtTimeMetric.__init__`, lines 394-424: `true` when it raises, from
`"...%.2f" % self.hval`. -/
def initRaises (hval : Bool) (metricName : Bool) : Bool := !metricName && !hval

end Verif.MoSum
