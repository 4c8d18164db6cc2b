import Verif.Model.AreaMetrics

/-!
# Comparison of runs

Models of `rubin_sim/maf/run_comparison/summary_plots.py`, `radar_plot.py`, `archive.py` and `gather_summaries.py`. Names
are lists of characters, `none` is not-a-number. Division by zero is not modelled: theorems exclude it.
-/

namespace Verif.Cmp

abbrev Str := List Char

/-! ## Normalised tables -/

section
variable {K : Type} [Field K] [LinearOrder K]

/-- A data frame: names of the rows and columns and the values by position. -/
structure Frame (K : Type) where
  index : List Str
  columns : List Str
  cell : ℕ → ℕ → Option K

/-- `groupby(...).first()` along both axes, `summary_plots.py:86`: the first value that is a number. -/
def first (f : Frame K) (r m : Str) : Option K :=
  ((List.range f.index.length).filterMap (fun i => if f.index[i]? = some r then
    ((List.range f.columns.length).filterMap (fun j => if f.columns[j]? = some m then f.cell i j else none)).head? else none)).head?

/-- The name of the row of the reference, `summary_plots.py:93-95`; `fuel` bounds the loop. -/
def freshName (used : List Str) : ℕ → Str → Str
  | 0, s => s
  | fuel + 1, s => if s ∈ used then freshName used fuel (s ++ ['b']) else s

/-- A row of the table. -/
abbrev Row (K : Type) := Str → Option K

/-- `summary.loc[name] = row` -/
def setRow (rows : List (Str × Row K)) (name : Str) (row : Row K) : List (Str × Row K) :=
  if name ∈ rows.map Prod.fst then rows.map (fun r => if r.1 = name then (name, row) else r) else rows ++ [(name, row)]

/-- The rows that define the reference: one run, or the median over several, lines 97-100. -/
inductive Baseline where
  | one (r : Str)
  | many (rs : List Str)

/-- All numbers, or none. -/
def lift2 (g : K → K → K) : Option K → Option K → Option K
  | some x, some y => some (g x y)
  | _, _ => none

/-- What is compared, lines 125-146: flags are `invert` and `mag`. -/
def direct (invert mag : Bool) (norm : Option K) (x : Option K) : Option K :=
  match invert, mag with
  | false, false => x
  | true, false => x.map (fun x => 1 / x)
  | false, true => lift2 (fun x n => 1 + (x - n)) x norm
  | true, true => lift2 (fun x n => 1 - (x - n)) x norm

/-- Flags of a metric: the first entry of the table of metrics; none without a table. -/
def flags (subsets : Option (List (Str × Bool × Bool))) (m : Str) : Bool × Bool :=
  match subsets with
  | none => (false, false)
  | some l => (l.lookup m).getD (false, false)

/-- The metrics that are used, lines 70-77. -/
def usedMetrics (f : Frame K) (subsets : Option (List (Str × Bool × Bool))) : List Str :=
  match subsets with
  | none => f.columns
  | some l => f.columns.filter (fun m => decide (m ∈ l.map Prod.fst))

/-- The reference. -/
def reference (rows : List (Str × Row K)) : Baseline → Option (Row K)
  | .one r => rows.lookup r
  | .many rs => if rs.all (fun r => (rows.lookup r).isSome) then
      some (fun m => Area.median (rs.filterMap (fun r => (rows.lookup r).bind (fun row => row m)))) else none

/-- `normalize_metric_summaries`, `summary_plots.py:30-161`, for a table with runs as rows. With a table of metrics the columns are distinct. -/
def normalize (b : Baseline) (f : Frame K) (subsets : Option (List (Str × Bool × Bool))) : Except String (List (List (Option K))) :=
  let rows := f.index.map (fun r => (r, first f r))
  let name := freshName f.index f.index.length "bbb".toList
  match reference rows b with
  | none => .error "KeyError"
  | some ref =>
    let rows := setRow rows name ref
    let norm : Row K := fun m => (rows.lookup name).bind (fun row => row m)
    let conv : Row K → Row K := fun row m => direct (flags subsets m).1 (flags subsets m).2 (norm m) (row m)
    let rows := rows.map (fun r => (r.1, conv r.2))
    let base : Row K := fun m => (rows.lookup name).bind (fun row => row m)
    let rows := rows.map (fun r => (r.1, fun m => lift2 (fun x n => 1 + (x - n) / n) (r.2 m) (base m)))
    .ok (f.index.map (fun r => (usedMetrics f subsets).map (fun m => (rows.lookup r).bind (fun row => row m))))

/-- One value of `normalize_for_radar`, `radar_plot.py:52-67`: `x0` is the value of the reference run. -/
def radarVal (reverse invert mag : Bool) (x x0 : K) : K :=
  let y := if reverse then -x else x
  let y0 := if reverse then -x0 else x0
  let z := if invert then 1 / y else y
  let z0 := if invert then 1 / y0 else y0
  if mag then 1 + (z - z0) else 1 + (z - z0) / z0

end

/-! ## Selection of runs and metrics -/

/-- All runs of the families, in order; an unknown family is an exception. -/
def expand (families : List (Str × List Str)) : List Str → Option (List Str)
  | [] => some []
  | f :: fs => match families.lookup f, expand families fs with
    | some l, some r => some (l ++ r)
    | _, _ => none

/-- `archive.py:273-277`: metrics that are not in the summary are removed. -/
def removeMissing (columns req : List Str) : List Str := req.foldl (fun ms m => if m ∈ columns then ms else ms.erase m) req

/-- `get_metric_summaries`, `archive.py:235-285`: names of the rows and columns, for a summary with distinct names. -/
def select (index columns runs families metrics subsets : List Str) (famDef subDef : List (Str × List Str)) (runSummary metricSummary : Bool) :
    Except String (List Str × List Str) :=
  match expand famDef families, expand subDef subsets with
  | some fr, some sm =>
    let rs := if runs ++ fr = [] then index else if runSummary then index.filter (fun r => decide (r ∈ runs ++ fr)) else runs ++ fr
    let ms := if metrics ++ sm = [] then columns else
      let present := removeMissing columns (metrics ++ sm)
      if metricSummary then columns.filter (fun m => decide (m ∈ present)) else present
    if rs.all (fun r => decide (r ∈ index)) then .ok (rs, ms) else .error "KeyError"
  | _, _ => .error "KeyError"

/-! ## Runs of families -/

/-- What is known of a run in a family. -/
structure RunRec where
  run : Str
  brief : Str
  path : Str
  url : Str
  deriving DecidableEq

/-- `get_family_runs`, `archive.py:332-341`: one row for each family and run. -/
def familyRuns (fams : List (Str × List RunRec)) : List (Str × RunRec) := fams.flatMap (fun f => f.2.map (fun r => (f.1, r)))

/-- `get_runs`, `archive.py:383-394`: grouped by all four columns; the order of the groups is not modelled. -/
def getRuns (fams : List (Str × List RunRec)) : List (RunRec × List Str) :=
  ((familyRuns fams).map Prod.snd).dedup.map (fun r => (r, ((familyRuns fams).filter (fun e => decide (e.2 = r))).map Prod.fst))

/-! ## Gathering of summaries -/

/-- `str.strip` for blanks. -/
def strip (s : Str) : Str := ((s.dropWhile (· == ' ')).reverse.dropWhile (· == ' ')).reverse

/-- `replace("  ", " ")` -/
def replace2 : Str → Str
  | ' ' :: ' ' :: l => ' ' :: replace2 l
  | c :: l => c :: replace2 l
  | [] => []

/-- A row of the query. -/
structure Stat (K : Type) where
  summary : Str
  metric : Str
  info : Str
  slicer : Str
  run : Str
  value : Option K

/-- `make_summary_name`, `gather_summaries.py:42-52`. -/
def statName {K : Type} (s : Stat K) : Str :=
  replace2 (strip s.summary ++ ' ' :: (strip s.metric ++ ' ' :: (strip s.info ++ ' ' :: strip s.slicer)))

/-- `d[k] = v` -/
def put {A V : Type} [DecidableEq A] (d : List (A × V)) (k : A) (v : V) : List (A × V) := (k, v) :: d.filter (fun e => decide (e.1 ≠ k))

/-- `combine_result_dbs`, `gather_summaries.py:31-65`: the table by run and name. A directory without a database is `none`;
the query of the empty database that is made then is an exception. -/
def combine {K : Type} (dbs : List (Option (List (Stat K)))) : Except String (List ((Str × Str) × K)) :=
  if dbs.any Option.isNone then .error "DatabaseError"
  else .ok ((dbs.filterMap id).flatten.foldl (fun d s => match s.value with
    | some v => put d (s.run, statName s) v
    | none => d) [])

/-- Repeated styles, `summary_plots.py:323-326`. -/
def grow {A : Type} (l : List A) (n : ℕ) : List A := (List.replicate ((n + l.length - 1) / l.length) l).flatten.take n

end Verif.Cmp
