import Verif.Model.NumpyMore
import Mathlib.Algebra.Order.Field.Basic
import Mathlib.Algebra.Order.Group.Unbundled.Abs

/-!
# Model of the hourglass metric

`rubin_sim/maf/metrics/hourglass_metric.py`: blocks of visits in one filter and the midnight of each. The positions of Sun and Moon
and the midnights themselves come from astroplan and are not modelled. -/

namespace Verif.Hourglass

/-- `np.roll(x, 1)[i]` -/
def prev (n i : ℕ) : ℕ := if i = 0 then n - 1 else i - 1

section
variable {F K : Type} [DecidableEq F] [Field K] [LinearOrder K]

/-- A visit: its time and filter. -/
abbrev Visit (F K : Type) := K × F

/-- A change of filter, or more than two minutes from the visit before; `hourglass_metric.py:54-60`. -/
def isBreak (gap : K) (v : List (Visit F K)) (i : ℕ) : Bool :=
  match v[i]?, v[prev v.length i]? with
  | some a, some b => decide (a.2 ≠ b.2) || decide (gap < |b.1 - a.1|)
  | _, _ => false

/-- `np.unique` of numbers. -/
def uniqN (l : List ℕ) : List ℕ := List.insertionSort (· ≤ ·) l.dedup

/-- `hourglass_metric.py:54-65`: first and last index of each block, of visits sorted by time. -/
def blocks (gap : K) (v : List (Visit F K)) : List (ℕ × ℕ) :=
  let good := uniqN ((List.range v.length).filter (isBreak gap v) ++ [0] ++ [v.length])
  good.dropLast.zip (good.tail.map (· - 1))

/-- `hourglass_metric.py:65-71`: time and filter at the ends of blocks. -/
def perFilter (gap : K) (v : List (Visit F K)) : List (Option (Visit F K)) := (blocks gap v).flatMap (fun b => [v[b.1]?, v[b.2]?])

/-- `hourglass_metric.py:107-115`: the midnight for a time, of the sorted midnights. -/
def midnightOf (mids : List K) (x : K) : Option K :=
  let indx := Np.searchsortedLeft mids x
  match mids[prev mids.length indx]? with
  | none => none
  | some before =>
    let d1 := |x - before|
    let indx := if mids.length ≤ indx then indx - 1 else indx
    match mids[indx]? with
    | none => none
    | some m => if d1 < |x - m| then mids[prev mids.length indx]? else some m

/-- `hourglass_metric.py:88-90`: midnights with the same rounded tenth of a day are one; `key` is `np.round(midnights * 10)`. -/
def oneEach (key : K → ℤ) (mids : List K) : List K :=
  (List.insertionSort (· ≤ ·) (mids.map key).dedup).filterMap (fun k => mids.find? (fun m => decide (key m = k)))

/-- `nearest_val`, `hourglass_metric.py:13-14`: the first of the nearest. -/
def nearestVal : List K → K → Option K
  | [], _ => none
  | a :: l, x => some (l.foldl (fun best b => if |b - x| < |best - x| then b else best) a)

end

end Verif.Hourglass
