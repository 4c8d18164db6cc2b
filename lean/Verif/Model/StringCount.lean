import Mathlib.Data.List.Dedup
import Mathlib.Algebra.Field.Defs
import Mathlib.Algebra.Order.Floor.Defs
import Verif.Model.Gaps
import Verif.Model.SimpleMetrics

/-!
# Model of `rubin_sim/maf/metrics/string_count_metric.py` and `pair_metric.py`

Strings are lists of characters. `str.isdigit` is a parameter: a predicate on characters.
-/

namespace Verif.Strings

/-- A string -/
abbrev Str := List Char

/-- `val.split(", ")` -/
def splitSep : Str → List Str
  | [] => [[]]
  | ',' :: ' ' :: l => [] :: splitSep l
  | c :: l =>
    match splitSep l with
    | [] => [[c]]
    | h :: t => (c :: h) :: t

/-- `", " in val` -/
def hasSep : Str → Bool
  | [] => false
  | ',' :: ' ' :: _ => true
  | _ :: l => hasSep l

/-- `", ".join(chunks)` -/
def joinSep : List Str → Str
  | [] => []
  | [h] => h
  | h :: t => h ++ ',' :: ' ' :: joinSep t

/-- The loop body for `clip_end`, `string_count_metric.py:60-68`. -/
def clip (dig : Char → Bool) (val : Str) : Str :=
  if hasSep val then
    let chunks := splitSep val
    match chunks.getLast? with
    | some c => if !c.isEmpty && c.all dig then joinSep chunks.dropLast else val
    | none => val
  else val

/-- `Counter(xs)`: the different values in the order of first appearance with their
numbers. -/
def counter (xs : List Str) : List (Str × Nat) :=
  xs.reverse.dedup.reverse.map (fun k => (k, xs.count k))

/-- Label of a value, lines 75, 78-81. -/
def label (x : Str) : Str := if x = [] then ['b', 'l', 'a', 'n', 'k'] else x

/-- `StringCountMetric.run` without `percent`, lines 71-81: a structured array of one
row. `none` is the `ValueError` of `np.zeros` for a field that occurs twice. -/
def stringCount (xs : List Str) : Option (List (Str × Nat)) :=
  let c := counter xs
  let labels := c.map (fun e => label e.1)
  if labels.Nodup then some (c.map (fun e => (label e.1, e.2))) else none

/-- The values with `percent`, lines 82-87. -/
def percent {K : Type*} [Field K] (m : List (Str × Nat)) : List (Str × K) :=
  let norm : K := ((m.map (fun e => (e.2 : K))).sum) / 100
  m.map (fun e => (e.1, (e.2 : K) / norm))

/-- `self.reduce_funcs` after the metric has been run on slices with these values, lines
90-93: the names, which are never removed. -/
def reduceNames (ms : List (List (Str × Nat))) : List Str :=
  ms.foldl (fun names m => names ++ (m.map Prod.fst).filter (fun n => !names.contains n)) []

/-- `Keylookerupper.__call__`, lines 17-18, on the value of each slice: `none` is the
`ValueError` for a field that is not there. -/
def reduceValues (name : Str) : List (List (Str × Nat)) → Option (List Nat)
  | [] => some []
  | m :: ms =>
    match m.lookup name, reduceValues name ms with
    | some v, some vs => some (v :: vs)
    | _, _ => none

end Verif.Strings

namespace Verif.Pairs

open Verif.Np Verif.Gaps Verif.Metrics

variable {K : Type*} [Field K] [LinearOrder K] [IsStrictOrderedRing K] [FloorRing K]

/-- `bins_w_obs`, `pair_metric.py:50-60`. -/
def occupied (w lo hi : K) (times : List K) : List Nat :=
  let hist := histogram (arange lo (hi + w) w) times
  (List.range hist.length).filter (fun i => decide (0 < hist.getD i 0))

/-- `PairMetric.run`, lines 49-69; `none` is the bad value. Times are in the units of
`w`, `mMin` and `mMax` (`bin_size`, `match_min` and `match_max`, all positive). -/
def pairs (w mMin mMax : K) (times : List K) : Option Nat :=
  match times.min?, times.max? with
  | some lo, some hi =>
    let nMin := (roundHE (mMin / w)).toNat
    let nMax := (roundHE (mMax / w)).toNat
    let bins := occupied w lo hi times
    let result := (((List.range (nMax + 1)).drop nMin).map
      (fun d => (bins.filter (fun b => decide (d ≤ b) && bins.contains (b - d))).length)).sum
    if result = 0 then none else some result
  | _, _ => none

end Verif.Pairs
