import Mathlib.Data.List.Sort
import Mathlib.Data.List.Dedup
import Mathlib.Order.Defs.LinearOrder
import Mathlib.Data.Rat.Defs
import Mathlib.Algebra.Order.Ring.Rat
import Verif.Model.NumpyMore
import Verif.Model.Tools

/-!
# Comparing the microlensing results of runs

`rubin_sim/maf/run_comparison/microlensing_compare.py`.

Strings are lists of characters.  The values of the metrics are rationals, infinite or `nan`.  Drawing is not modelled, except for which points
go into which series and which numbers go into which cell of a matrix.
-/

namespace Verif.LensCmp

open Tools (pySplit)
open SsPipe (s)

abbrev Str := List Char

inductive PyErr
  | index | attribute | zeroDivision
  deriving DecidableEq, Repr

/-! ## Names -/

/-- `parse_t_e_run_types` (`microlensing_compare.py:90-105`): the name of the run, the type of the metric, the shortest and the longest crossing time. -/
def parse (name : Str) : Except PyErr (Str × Str × Str × Str) :=
  match pySplit (s "MicrolensingMetric") name with
  | r :: rest :: _ =>
    let w := pySplit (s "_") rest
    match w[1]?, w[3]?, w[4]? with
    | some t, some lo, some hi => .ok (r.dropLast, t, lo, hi)
    | _, _, _ => .error .index
  | _ => .error .index

/-! ## The ranges of crossing times -/

section
variable {K : Type*} [LinearOrder K]

/-- `np.unique`. -/
def unique (xs : List K) : List K := Np.sort xs.dedup

/-- `zip(np.unique(min_t_e), np.unique(max_t_e))` (`microlensing_compare.py:188`, `:267`); a run is the pair of its limits. -/
def ranges (runs : List (K × K)) : List (K × K) := (unique (runs.map Prod.fst)).zip (unique (runs.map Prod.snd))

/-- `(min_t_e >= i) & (max_t_e <= j)` (`microlensing_compare.py:189`, `:268`). -/
def inRange (r run : K × K) : Bool := decide (r.1 ≤ run.1) && decide (run.2 ≤ r.2)

/-- `np.where((min_t_e >= i) & (max_t_e <= j))` (`microlensing_compare.py:189`, `:268`). -/
def members (runs : List (K × K)) (r : K × K) : List ℕ :=
  (List.range runs.length).filter (fun i => (runs[i]?.map (inRange r)).getD false)

/-- The types in the order of the three panels (`microlensing_compare.py:193-196`). -/
def kinds : List Str := [s "detect", s "Npts", s "Fisher"]

/-- `sorted_idxs` (`microlensing_compare.py:201-208`): the runs of a range and of a type in the order of their names. -/
def series {N : Type*} [LinearOrder N] (runs : List (K × K)) (names : ℕ → N) (types : ℕ → Str) (r : K × K) (t : Str) : List ℕ :=
  ((members runs r).filter (fun i => decide (types i = t))).insertionSort (fun i j => names i ≤ names j)

/-- `plot_fom` (`microlensing_compare.py:198-216`): every range and every panel, with the indices that are drawn.  An empty array of indices has
floats in it, which numpy refuses as an index. -/
def plotFom {N : Type*} [LinearOrder N] (runs : List (K × K)) (names : ℕ → N) (types : ℕ → Str) : Except PyErr (List ((K × K) × Str × List ℕ)) :=
  ((ranges runs).flatMap (fun r => kinds.map (fun t => (r, t)))).mapM (fun x =>
    let l := series runs names types x.1 x.2
    if l.isEmpty then .error .index else .ok (x.1, x.2, l))

end

/-! ## Numbers -/

/-- A value of a metric. -/
inductive V
  | nan | inf | num (q : ℚ)
  deriving DecidableEq, Repr

/-- `v < c`. -/
def V.lt (v : V) (c : ℚ) : Bool := match v with
  | .num q => decide (q < c)
  | _ => false

/-- `v > c`. -/
def V.gt (v : V) (c : ℚ) : Bool := match v with
  | .num q => decide (c < q)
  | .inf => true
  | .nan => false

/-- `v == c`. -/
def V.eq (v : V) (c : ℚ) : Bool := match v with
  | .num q => decide (q = c)
  | _ => false

/-- What is added up in line 132: values that are numbers, not negative, at most `10e10`. -/
def V.kept (v : V) : Option ℚ := match v with
  | .num q => if 0 ≤ q ∧ q ≤ 100000000000 then some q else none
  | _ => none

/-- A row of the data frame (`microlensing_compare.py:59-60`): the value in the file, and whether it is masked. -/
structure Row where
  value : V
  mask : Bool
  deriving DecidableEq, Repr

inductive Kind
  | detect | npts | fisher
  deriving DecidableEq, Repr

/-- `get_results` (`microlensing_compare.py:108-142`). -/
def getResults (df : List Row) (k : Kind) (cutoff : ℚ) : Except PyErr ℚ :=
  if df.length = 0 then .error .zeroDivision
  else match k with
    | .detect => .ok ((df.countP (fun r => r.value.eq 1) : ℚ) / df.length)
    | .npts => .ok ((df.filterMap (fun r => r.value.kept)).sum / df.length)
    | .fisher => .ok ((df.countP (fun r => r.value.lt cutoff) : ℚ) / df.length)

/-- The four numbers of a comparison. -/
structure Matrix where
  yy : ℕ
  yn : ℕ
  ny : ℕ
  nn : ℕ
  deriving DecidableEq, Repr

/-- `detected_fisher_comparison` (`microlensing_compare.py:388-392`); an event is the pair of its Fisher and its detection value. -/
def detectedFisher (ev : List (V × V)) (cutoff : ℚ) : Matrix where
  yy := ev.countP (fun e => e.1.lt cutoff && e.2.eq 1)
  yn := ev.countP (fun e => e.1.lt cutoff && e.2.eq 0)
  ny := ev.countP (fun e => e.1.gt cutoff && e.2.eq 1)
  nn := ev.countP (fun e => e.1.gt cutoff && e.2.eq 0)

/-- `fisher_npts_comparison` (`microlensing_compare.py:418-422`); the pair of the Fisher value and the number of points. -/
def fisherNpts (ev : List (V × V)) (required cutoff : ℚ) : Matrix where
  yy := ev.countP (fun e => e.1.lt cutoff && e.2.gt required)
  yn := ev.countP (fun e => e.1.lt cutoff && e.2.lt required)
  ny := ev.countP (fun e => e.1.gt cutoff && e.2.gt required)
  nn := ev.countP (fun e => e.1.gt cutoff && e.2.lt required)

/-- `detected_npts_comparison` (`microlensing_compare.py:445-449`); the pair of the detection value and the number of points. -/
def detectedNpts (ev : List (V × V)) (required : ℚ) : Matrix where
  yy := ev.countP (fun e => e.1.eq 1 && e.2.gt required)
  yn := ev.countP (fun e => e.1.eq 1 && e.2.lt required)
  ny := ev.countP (fun e => e.1.eq 0 && e.2.gt required)
  nn := ev.countP (fun e => e.1.eq 0 && e.2.lt required)

/-- An event of one run and range in the three metrics. -/
structure Event where
  fisher : V
  detect : V
  npts : V
  deriving DecidableEq, Repr

/-- The three matrices of `plot_compare` with the number in their labels (`microlensing_compare.py:286-313`): the comparisons get no limits, so they use
their own. -/
def plotCompare (ev : List Event) (nptsRequired : ℚ) : List (Option ℚ × Matrix) :=
  [(none, detectedFisher (ev.map (fun e => (e.fisher, e.detect))) (1 / 10)),
   (some nptsRequired, fisherNpts (ev.map (fun e => (e.fisher, e.npts))) 10 (1 / 10)),
   (some nptsRequired, detectedNpts (ev.map (fun e => (e.detect, e.npts))) 10)]

/-! ## The databases -/

/-- The methods of `ResultsDb` (`results_db.py:167-1066`). -/
def resultsDbMethods : List String :=
  ["__init__", "update_database", "downgrade_database", "open", "close", "update_metric", "update_display", "update_plot", "update_summary_stat",
   "get_metric_id", "get_metric_id_like", "get_all_metric_ids", "build_summary_name", "get_summary_stats", "get_plot_files", "get_metric_data_files",
   "get_metric_info", "get_metric_display_info", "get_run_name"]

/-- `get_results_dbs` (`microlensing_compare.py:470-480`): for the files that match, the runs with at least one metric; `ids` is the number of metrics
in a file. -/
def getResultsDbs (methods : List String) (ids : Str → ℕ) : List Str → Except PyErr (List Str)
  | [] => .ok []
  | f :: fs =>
    if methods.contains "getAllMetricIds" then
      match getResultsDbs methods ids fs with
      | .error e => .error e
      | .ok rs => .ok (if 0 < ids f then f :: rs else rs)
    else .error .attribute

end Verif.LensCmp
