import Verif.Model.Dates
import Mathlib.Data.List.Sort
import Mathlib.Data.List.Dedup

/-!
# Model of the pages of results

`rubin_sim/maf/web/maf_run_results.py`, `maf_tracking.py`. Strings are lists of characters. The sorting of metrics by several
columns is an arbitrary function `srt` that permutes its list. -/

namespace Verif.Web

abbrev Str := List Char

/-- A row of the metrics, with the columns that matter here. -/
structure Metric where
  id : ℕ
  group : Str
  subgroup : Str
  base : Str
  deriving DecidableEq

/-- Sorted strings, by code points. -/
def sortStr (l : List Str) : List Str := List.insertionSort (fun a b => Dates.strLe a b = true) l

/-- `list(np.unique(...))` on strings. -/
def uniq (l : List Str) : List Str := sortStr l.dedup

/-! ## Selection of metrics -/

/-- `s.split("_")[0]` -/
def firstPart (s : Str) : Str := s.takeWhile (fun c => c != '_')

/-- `s.split("_")[-1]` -/
def lastPart (s : Str) : Str := (s.reverse.takeWhile (fun c => c != '_')).reverse

/-- `s.replace("+", " ")` -/
def unplus (s : Str) : Str := s.map (fun c => if c = '+' then ' ' else c)

/-- `metrics_in_subgroup` without its sorting, `maf_run_results.py:226-237`. -/
def inSubgroup (metrics : List Metric) (group subgroup : Str) : List Metric :=
  (metrics.filter (fun m => decide (m.group = group))).filter (fun m => decide (m.subgroup = subgroup))

/-- `convert_select_to_metrics`, `maf_run_results.py:94-124`. -/
def select (srt : List Metric → List Metric) (metrics : List Metric) (groups : List Str) (idList : List ℕ) : List Metric :=
  let ids := groups.flatMap (fun g => (inSubgroup metrics (firstPart g) (unplus (lastPart g))).map Metric.id) ++ idList
  srt (metrics.filter (fun m => decide (m.id ∈ ids)))

/-- The value of the form for a group and subgroup, `web/templates/metricselect.html`, line 50. -/
def formValue (group subgroup : Str) : Str := group ++ '_' :: '_' :: subgroup

/-- The types of plots asked for, `maf_run_results.py:258-267`, for one type. -/
def plotTypes (t : Str) : List Str :=
  if "lot".toList.isSuffixOf t then [t, t.take (t.length - 4)] else [t, t.map Char.toLower ++ "Plot".toList]

/-- `unique_metric_names`, `maf_run_results.py:276-288`. -/
def uniqueNames (metrics : List Metric) : List Str := uniq (metrics.map Metric.base)

/-- The groups and their subgroups, `maf_run_results.py:48-53`, `metrics_to_subgroups`. -/
def groups (metrics : List Metric) : List (Str × List Str) :=
  (uniq (metrics.map Metric.group)).map (fun g => (g, uniq ((metrics.filter (fun m => decide (m.group = g))).map Metric.subgroup)))

/-- Keys of `metric_info`, `maf_run_results.py:400-426`, for a blank and for a metric. -/
def infoKeys (blank withSlicer : Bool) : List String :=
  ["Metric Name"] ++ (if withSlicer then ["Slicer"] else []) ++ [if blank then "Info Label" else "InfoL abel"]

/-! ## Statistics and plots -/

/-- The loop of `order_stat_names` and `all_stat_names`, `maf_run_results.py:611-645`. -/
def orderNames : List Str → List Str → List Str
  | [], names => names
  | o :: order, names => if o ∈ names then o :: orderNames order (names.erase o) else orderNames order names

/-- The table fractions at fixed places. -/
def fixedFractions : List Str := ["TableFraction 0 == P".toList, "TableFraction 1 == P".toList, "TableFraction 1 < P".toList]

/-- `summary_stat_order`, `maf_run_results.py:56-88`, from the names of statistics. -/
def statOrder (base names : List Str) : List Str :=
  let fr := (uniq names).filter (fun x => "TableFraction".toList.isPrefixOf x)
  if fr = [] then base else
  let rest := fixedFractions.foldl (fun fr x => if x ∈ fr then fr.erase x else fr) fr
  base ++ "TableFraction 0 == P".toList :: (sortStr rest ++ ["TableFraction 1 == P".toList, "TableFraction 1 < P".toList])

/-- `stat_dict`, `maf_run_results.py:591-609`: names in order with the first of their values. -/
def statDict {V : Type} (order : List Str) (stats : List (Str × V)) : List (Str × Option V) :=
  (orderNames order (uniq (stats.map Prod.fst))).map (fun n => (n, ((stats.filter (fun s => decide (s.1 = n))).map Prod.snd).head?))

/-- A plot: its type, its file and its metric. -/
structure Plot where
  type : Str
  file : Str
  metric : ℕ
  deriving DecidableEq

/-- `plot_dict` of an array of plots, `maf_run_results.py:446-486`: types in order, each with its plots. -/
def plotDict (order : List Str) (plots : List Plot) : List (Str × List Plot) :=
  (orderNames order (uniq (plots.map Plot.type))).map (fun t => (t, plots.filter (fun p => decide (p.type = t))))

/-- A place on the page: blank or with plots. -/
inductive Slot
  | blank
  | plots (l : List Plot)
  deriving DecidableEq

/-- `re.search("_f_", file)` -/
def hasFilter (f : Char) (p : Plot) : Bool := p.file.tails.any (fun t => ['_', f, '_'].isPrefixOf t)

def filters : List Char := ['u', 'g', 'r', 'i', 'z', 'y']

/-- The place of a filter with at most one plot. -/
def slotOf (l : List Plot) : Slot := if l = [] then .blank else .plots l

/-- Rows of three, lines 558-560 of `maf_run_results.py`. -/
def pad (l : List Slot) : List Slot := l ++ List.replicate ((3 - l.length % 3) % 3) .blank

/-- `order_plots`, `maf_run_results.py:502-562`; `metrics` are the ids of all metrics in the order of display. -/
def orderPlots (metrics : List ℕ) (plots : List Plot) : List Slot :=
  if plots = [] then [] else
  if filters.any (fun f => decide (1 < (plots.filter (hasFilter f)).length)) then
    pad ((metrics.filter (fun m => decide (m ∈ plots.map Plot.metric))).map (fun m => .plots (plots.filter (fun p => decide (p.metric = m)))))
  else
    pad (filters.map (fun f => slotOf (plots.filter (hasFilter f))) ++
      (plots.filter (fun p => !(filters.any (fun f => hasFilter f p)))).map (fun p => .plots [p]))

/-! ## Tracking -/

/-- The tracking database on disk: its time of change and its rows (id, directory, name). -/
structure Disk where
  stamp : ℕ
  rows : List (ℕ × Str × Str)
  deriving DecidableEq

/-- `MafTracking`: time and rows last read, and the results read so far. -/
structure Tracking (R : Type) where
  stamp : ℕ
  rows : List (ℕ × Str × Str)
  pages : List (ℕ × R)

/-- `__init__`, `maf_tracking.py:25-47`, with the database at the time of the first look, of the reading and of the sorting,
which looks again and reads again if it changed; the rows of the first reading are assigned afterwards. -/
def initAt {R : Type} (a b c : Disk) : Tracking R := ⟨if c.stamp ≠ a.stamp then c.stamp else a.stamp, b.rows, []⟩

/-- `_check_db`, `maf_tracking.py:49-53`, for a database that does not change meanwhile. -/
def checkDb {R : Type} (s : Tracking R) (d : Disk) : Tracking R := if d.stamp ≠ s.stamp then initAt d d d else s

/-- `get_run`, `maf_tracking.py:106-139`; `read` makes the results from the directory and name now. -/
def getRun {R : Type} (read : Str → Option Str → R) (s : Tracking R) (d : Disk) (id : ℕ) : Tracking R × Except String R :=
  let s := checkDb s d
  match s.pages.lookup id with
  | some r => (s, .ok r)
  | none => match s.rows.find? (fun r => r.1 == id) with
    | none => (s, .error "IndexError")
    | some (_, dir, name) =>
      let r := read dir (if name = "NULL".toList then none else some name)
      ({ s with pages := (id, r) :: s.pages }, .ok r)

end Verif.Web
