import Mathlib.Algebra.Order.Floor.Ring
import Mathlib.Algebra.Order.Field.Basic
import Mathlib.Data.List.Sort
import Mathlib.Algebra.BigOperators.Group.List.Basic
import Mathlib.Algebra.Ring.Int.Parity

/-!
# Model of `rubin_sim/maf/metrics/simple_metrics.py`

Values are elements of an ordered field with a floor; a data slice is the list of
values of the column. The trigonometric metrics and the coadded depth are in
`Model/RealMetrics.lean`; one-line calls of numpy functions (maximum, mean, median,
percentile) are not modelled.
-/

namespace Verif.Metrics

section Angles
variable {K : Type*} [Field K] [LinearOrder K] [FloorRing K] [IsStrictOrderedRing K]

/-- `x % t` -/
def fmod (x t : K) : K := x - t * (⌊x / t⌋ : K)

/-- `np.diff` -/
def diffs (s : List K) : List K := List.zipWith (fun a b => b - a) s s.tail

inductive AngleErr
  | indexError
  | valueError
  deriving DecidableEq

/-- `_rotate_angles`, `simple_metrics.py:433-455`; `t` is the full turn. -/
def rotateAngles (t : K) (angles : List K) : Except AngleErr (K × List K) :=
  let s := angles.insertionSort (· ≤ ·)
  match s.head?, s.getLast? with
  | some a0, some an =>
    let startToEnd := t - an + a0
    if startToEnd < -t then .error .valueError
    else
      let d := diffs s ++ [startToEnd]
      let maxdiff := ((List.range d.length).filter (fun i => decide (d[i]? = d.max?))).getLast?.getD 0
      let rotation := if maxdiff = angles.length - 1 then a0 else (s[maxdiff + 1]?).getD a0
      .ok (rotation, angles.map (fun a => fmod (a - rotation) t))
  | _, _ => .error .indexError

/-- `FullRangeAngleMetric.run`, `simple_metrics.py:500-502`. -/
def fullRangeAngle (t : K) (angles : List K) : Except AngleErr K :=
  match rotateAngles t angles with
  | .error e => .error e
  | .ok (_, r) =>
    match r.max?, r.min? with
    | some a, some b => .ok (a - b)
    | _, _ => .error .indexError

/-- `np.mean` -/
def mean (l : List K) : K := l.sum / (l.length : K)

/-- `np.std` squared. -/
def variance (l : List K) : K := mean (l.map (fun x => (x - mean l) ^ 2))

/-- `RmsAngleMetric.run`, `simple_metrics.py:488-490`, squared. -/
def rmsAngleSq (t : K) (angles : List K) : Except AngleErr K :=
  match rotateAngles t angles with
  | .error e => .error e
  | .ok (_, r) => .ok (variance r)

end Angles

section Counts
variable {K : Type*} [Field K] [LinearOrder K] [FloorRing K]

/-- `np.round`: to nearest, ties to even. -/
def roundHE (x : K) : ℤ :=
  if x - ⌊x⌋ < 1 / 2 then ⌊x⌋ else if 1 / 2 < x - ⌊x⌋ then ⌊x⌋ + 1 else if Even ⌊x⌋ then ⌊x⌋ else ⌊x⌋ + 1

/-- `CountExplimMetric.run`, `simple_metrics.py:251-255`. -/
def countExplim (minExp expected : K) (exps : List K) : ℤ :=
  ((exps.map (fun e => if e < minExp then (0 : K) else e / expected)).map roundHE).sum

/-- `FracAboveMetric.run`, `simple_metrics.py:369-373`; `none` is `ZeroDivisionError`. -/
def fracAbove (cutoff scale : K) (data : List K) : Option K :=
  if data.length = 0 then none
  else some ((data.countP (fun x => decide (cutoff ≤ x)) : K) / (data.length : K) * scale)

/-- `FracBelowMetric.run`, `simple_metrics.py:386-390`. -/
def fracBelow (cutoff scale : K) (data : List K) : Option K :=
  if data.length = 0 then none
  else some ((data.countP (fun x => decide (x ≤ cutoff)) : K) / (data.length : K) * scale)

/-- Truth value of a boolean array: itself for one element, an error for more; for none
it is false or an error depending on the numpy version (`emptyOk`). -/
def truth (emptyOk : Bool) : List Bool → Option Bool
  | [] => if emptyOk then some false else none
  | [b] => some b
  | _ => none

/-- `CountBeyondThreshold.run`, `simple_metrics.py:294-309`; `none` is `ValueError`. -/
def countBeyond (emptyOk : Bool) (lower upper : Option K) (data : List K) : Option Nat :=
  match lower, upper with
  | none, none => some data.length
  | some l, none => some (data.countP (fun x => decide (l < x)))
  | none, some u => some (data.countP (fun x => decide (x < u)))
  | some l, some u =>
    let a := data.map (fun x => decide (l < x))
    let b := data.map (fun x => decide (x < u))
    match truth emptyOk a with
    | none => none
    | some true => some (b.countP id)
    | some false => some (a.countP id)

/-- `MaxPercentMetric.run`, `simple_metrics.py:328-331`. -/
def maxPercent (data : List K) : Option K :=
  match data.max? with
  | none => none
  | some m => some ((data.countP (fun x => decide (x = m)) : K) / (data.length : K) * 100)

/-- `NoutliersNsigmaMetric.run`, `simple_metrics.py:420-430`, with mean `mu` and standard deviation `sd`. -/
def noutliers (nsigma mu sd : K) (data : List K) : Nat :=
  let boundary := mu + nsigma * sd
  if 0 ≤ nsigma then data.countP (fun x => decide (boundary < x)) else data.countP (fun x => decide (x < boundary))

end Counts

end Verif.Metrics
