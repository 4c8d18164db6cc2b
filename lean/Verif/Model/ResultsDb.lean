import Mathlib.Data.List.Basic

/-!
# Model of the MAF SQLite databases

* `rubin_sim/maf/db/results_db.py` (`update_metric` 397-470, `update_display`
  472-522, `update_plot` 524-549, `update_summary_stat` 551-620,
  `build_summary_name` 722-738);
* `rubin_sim/maf/db/tracking_db.py` (`add_run` 96-231, `delRun` 233-245).

Tables are lists of rows in insertion order. A primary key left out on insertion
gets SQLite's rowid rule without AUTOINCREMENT: one more than the largest id.
SQLite does not enforce the foreign keys. Each public call of ResultsDb is one
transaction (commit at its end). Not modelled: schema upgrades, read-only
queries, version table.
-/

namespace Verif.Db

/-- SQLite rowid assignment. -/
def nextId (ids : List Nat) : Nat := ids.foldl max 0 + 1

/-- The five columns that identify a metric. -/
structure MetricKey where
  metricName : String
  slicerName : String
  runName : String
  infoLabel : String
  constraint : String
  deriving DecidableEq

/-- `results_db.py:30-59`: a row of `metrics`. -/
structure MetricRow where
  id : Nat
  key : MetricKey
  datafile : String
  deriving DecidableEq

/-- Arguments of `update_metric`: `None` is allowed for the last four. -/
structure MetricArgs where
  metricName : String
  slicerName : String
  runName : Option String
  constraint : Option String
  infoLabel : Option String
  datafile : Option String

/-- `results_db.py:435-442`: `None` becomes "NULL". -/
def MetricArgs.key (a : MetricArgs) : MetricKey :=
  ⟨a.metricName, a.slicerName, a.runName.getD "NULL", a.infoLabel.getD "NULL", a.constraint.getD "NULL"⟩

/-- A display dictionary: entries may be missing or `None` (same treatment). -/
structure DisplayDict where
  group : Option String
  subgroup : Option String
  order : Option Int
  caption : Option String

/-- Content of a display row. -/
structure DisplayVals where
  group : String
  subgroup : String
  order : Int
  caption : String
  deriving DecidableEq

/-- Python `s.replace("(auto)", "", 1)` on characters. -/
def removeFirst (pat : List Char) : List Char → List Char
  | [] => []
  | c :: cs => if pat.isPrefixOf (c :: cs) then (c :: cs).drop pat.length else c :: removeFirst pat cs

def autoPat : List Char := "(auto)".toList

/-- `results_db.py:511-513`. -/
def cleanCaption (s : String) : String :=
  if autoPat.isSuffixOf s.toList then String.ofList (removeFirst autoPat s.toList) else s

/-- `results_db.py:498-513`. -/
def DisplayDict.vals (d : DisplayDict) : DisplayVals :=
  ⟨d.group.getD "NULL", d.subgroup.getD "NULL", d.order.getD 0, cleanCaption (d.caption.getD "NULL")⟩

structure DisplayRow where
  id : Nat
  metricId : Nat
  vals : DisplayVals
  deriving DecidableEq

structure PlotRow where
  id : Nat
  metricId : Nat
  plotType : String
  plotFile : String
  deriving DecidableEq

structure StatRow (K : Type*) where
  id : Nat
  metricId : Nat
  name : String
  value : K
  deriving DecidableEq

/-- The four data tables. -/
structure DB (K : Type*) where
  metrics : List MetricRow
  displays : List DisplayRow
  plots : List PlotRow
  stats : List (StatRow K)

variable {K : Type*}

def DB.empty : DB K := ⟨[], [], [], []⟩

/-- `results_db.py:397-470`. -/
def updateMetric (db : DB K) (a : MetricArgs) : DB K × Nat :=
  match db.metrics.find? (fun r => decide (r.key = a.key)) with
  | some r => (db, r.id)
  | none =>
    let id := nextId (db.metrics.map MetricRow.id)
    ({ db with metrics := db.metrics ++ [⟨id, a.key, a.datafile.getD "NULL"⟩] }, id)

/-- `results_db.py:472-522`. -/
def updateDisplay (db : DB K) (mid : Nat) (d : DisplayDict) (overwrite : Bool) : DB K :=
  let present := db.displays.filter (fun r => r.metricId == mid)
  if present.length > 0 ∧ overwrite = false then db
  else
    let kept := if present.length > 0 then db.displays.filter (fun r => r.metricId != mid) else db.displays
    { db with displays := kept ++ [⟨nextId (db.displays.map DisplayRow.id), mid, d.vals⟩] }

/-- `results_db.py:524-549`. -/
def updatePlot (db : DB K) (mid : Nat) (ptype file : String) (overwrite : Bool) : DB K :=
  let hit (r : PlotRow) : Bool := r.metricId == mid && r.plotType == ptype
  let kept := if (db.plots.filter hit).length > 0 ∧ overwrite = true
    then db.plots.filter (fun r => !hit r) else db.plots
  { db with plots := kept ++ [⟨nextId (db.plots.map PlotRow.id), mid, ptype, file⟩] }

/-- One `session.add` + `commit` of a summary row. -/
def addStat (db : DB K) (mid : Nat) (name : String) (v : K) : DB K :=
  { db with stats := db.stats ++ [⟨nextId (db.stats.map StatRow.id), mid, name, v⟩] }

/-- `results_db.py:598-606`: the retry loop for one value. `sched` tells for each
attempt whether the database is locked (`true`); an exhausted schedule means not
locked. Returns the database, the shared counter, the remaining schedule. -/
def tryStat (ntry : Nat) (db : DB K) (mid : Nat) (name : String) (v : K) (tries : Nat) :
    List Bool → DB K × Nat × List Bool
  | [] => if tries < ntry then (addStat db mid name v, tries, []) else (db, tries, [])
  | locked :: sched =>
    if tries < ntry then
      if locked then tryStat ntry db mid name v (tries + 1) sched
      else (addStat db mid name v, tries, sched)
    else (db, tries, locked :: sched)

/-- `results_db.py:583-607`: the loop over a table of `(name, value)` rows; `tries`
is initialised once, before the loop. -/
def storeStats (ntry : Nat) (mid : Nat) (base : String) :
    DB K → List (String × K) → Nat → List Bool → DB K
  | db, [], _, _ => db
  | db, (n, v) :: vs, tries, sched =>
    let r := tryStat ntry db mid (base ++ " " ++ n) v tries sched
    storeStats ntry mid base r.1 vs r.2.1 r.2.2

/-- A summary value: a plain number or a table of named values. -/
inductive SummaryVal (K : Type*)
  | num (v : K)
  | table (rows : List (String × K))

/-- `results_db.py:551-620`. -/
def updateSummaryStat (ntry : Nat) (db : DB K) (mid : Nat) (name : String) (sched : List Bool) :
    SummaryVal K → DB K
  | .num v => addStat db mid name v
  | .table rows => storeStats ntry mid name db rows 0 sched

/-- The public updating calls (retries as by default: no lock for `stat`). -/
inductive Op (K : Type*)
  | metric (a : MetricArgs)
  | display (mid : Nat) (d : DisplayDict) (overwrite : Bool)
  | plot (mid : Nat) (ptype file : String) (overwrite : Bool)
  | stat (mid : Nat) (name : String) (v : SummaryVal K) (sched : List Bool)

def Op.apply (db : DB K) : Op K → DB K
  | .metric a => (updateMetric db a).1
  | .display mid d ow => updateDisplay db mid d ow
  | .plot mid t f ow => updatePlot db mid t f ow
  | .stat mid n v s => updateSummaryStat 3 db mid n s v

def runOps (db : DB K) (ops : List (Op K)) : DB K := ops.foldl Op.apply db

/-- Python `str.strip(" ")` on both ends, as in `.rstrip(" ").lstrip(" ")`. -/
def stripSpaces (s : List Char) : List Char :=
  ((s.reverse.dropWhile (· == ' ')).reverse).dropWhile (· == ' ')

/-- `results_db.py:722-738` (the result of `name.replace` is discarded there). -/
def buildSummaryName (metricName : String) (infoLabel slicerName statName : Option String) : String :=
  let info := infoLabel.getD ""
  let slicer := slicerName.getD ""
  let sName := match statName with
    | some "Identity" => ""
    | some "Id" => ""
    | some "Count" => ""
    | some n => n
    | none => ""
  let slName := if slicer = "UniSlicer" then "" else slicer
  String.ofList (stripSpaces (" ".intercalate [sName, metricName, info, slName]).toList)

section Tracking

/-- A row of `runs`: the id, the (relative) directory, and the other columns. -/
structure RunRow (I : Type*) where
  id : Nat
  dir : String
  info : I
  deriving DecidableEq

variable {I : Type*}

inductive TrackErr
  | idTaken
  | notFound
  | multiple
  deriving DecidableEq

/-- `tracking_db.py:96-231`. `dir` is the directory after `relpath` (with "NULL" for
`None`). -/
def addRun (runs : List (RunRow I)) (dir : String) (info : I) (runId : Option Nat) :
    Except TrackErr (List (RunRow I) × Nat) :=
  match runs.filter (fun r => decide (r.dir = dir)) with
  | p :: _ =>
    -- delete all, commit, then insert under the first id
    .ok (runs.filter (fun r => decide (r.dir ≠ dir)) ++ [⟨p.id, dir, info⟩], p.id)
  | [] =>
    match runId with
    | some i =>
      if (runs.filter (fun r => decide (r.id = i))).length > 0 then .error .idTaken
      else .ok (runs ++ [⟨i, dir, info⟩], i)
    | none =>
      let i := nextId (runs.map RunRow.id)
      .ok (runs ++ [⟨i, dir, info⟩], i)

/-- `tracking_db.py:172-186`: the table after the first commit of an update, i.e.
what a crash between the two commits leaves behind. -/
def addRunCrash (runs : List (RunRow I)) (dir : String) : List (RunRow I) :=
  runs.filter (fun r => decide (r.dir ≠ dir))

/-- `tracking_db.py:233-245`. -/
def delRun (runs : List (RunRow I)) (i : Nat) : Except TrackErr (List (RunRow I)) :=
  match runs.filter (fun r => decide (r.id = i)) with
  | [] => .error .notFound
  | [_] => .ok (runs.filter (fun r => decide (r.id ≠ i)))
  | _ :: _ :: _ => .error .multiple

inductive TOp (I : Type*)
  | add (dir : String) (info : I) (runId : Option Nat)
  | del (i : Nat)

/-- A failing call leaves the table as it is. -/
def TOp.apply (runs : List (RunRow I)) : TOp I → List (RunRow I)
  | .add d x i => match addRun runs d x i with
    | .ok r => r.1
    | .error _ => runs
  | .del i => match delRun runs i with
    | .ok r => r
    | .error _ => runs

def trackRun (runs : List (RunRow I)) (ops : List (TOp I)) : List (RunRow I) := ops.foldl TOp.apply runs

end Tracking

end Verif.Db
