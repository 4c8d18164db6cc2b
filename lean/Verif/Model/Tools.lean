import Verif.Model.SsPipe
import Verif.Model.ResultsDb

/-!
# Model of the tools that keep track of runs

`rubin_sim/maf/db/tracking_db.py` (`add_run_to_database`), `rubin_sim/maf/show_maf.py`,
`rubin_sim/maf/web/maf_tracking.py`, `rubin_sim/maf/make_fbs_tracking_db.py`, the choice of files
in `scimaf_dir.py`, `glance_dir.py`, `ddf_dir.py` and `metadata_dir.py`, and
`rubin_sim/data/rs_download_data.py`. A directory is the list of the names from the root;
links are left out. The rows of the tracking database are in the model of the databases.
-/

namespace Verif.Tools

open SsPipe (Str s remove baseName runName)

inductive PyErr | value | index | unbound | attribute | key
  deriving DecidableEq, Repr

/-! ## Directories -/

abbrev Loc := List Str

/-- A relative path: so many times up, then down. -/
structure Rel where
  up : Nat
  down : Loc
  deriving DecidableEq

/-- The number of names at the beginning that two directories share (`commonprefix`). -/
def common : Loc → Loc → Nat
  | a :: as, b :: bs => if a = b then common as bs + 1 else 0
  | _, _ => 0

/-- `os.path.relpath(path, start)` for the directories. -/
def rel (path start : Loc) : Rel := ⟨start.length - common path start, path.drop (common path start)⟩

/-- The directory that a relative path means in another one. -/
def resolve (cwd : Loc) (r : Rel) : Loc := cwd.take (cwd.length - r.up) ++ r.down

/-- The directory of the file of the tracking database, as it is written: from the root or from here. -/
inductive TDir
  | abs (l : Loc)
  | here (l : Loc)
  deriving DecidableEq

def TDir.loc (cwd : Loc) : TDir → Loc
  | .abs l => l
  | .here l => cwd ++ l

/-- `os.path.dirname` of it: the text without the last name. -/
def TDir.dirname : TDir → TDir
  | .abs l => .abs l.dropLast
  | .here l => .here l.dropLast

/-- The directory that is looked at, `tracking_db.py:285-286`: the path from the directory above
the database is used from here. -/
def looked (cwd : Loc) (d : TDir) (maf : Loc) : Loc := resolve cwd (rel maf (d.dirname.loc cwd))

/-- `add_run_to_database`, `tracking_db.py:283-330` and `add_run`, 165: the path that is recorded. -/
def addToDb (isdir : Loc → Bool) (cwd : Loc) (d : TDir) (maf : Loc) : Except PyErr Rel :=
  if isdir (looked cwd d maf) then .ok (rel (looked cwd d maf) (d.loc cwd)) else .error .value

/-- The directory of the results of a run in the web pages, `maf_tracking.py:133-138`: the recorded
path is used from here. -/
def opened (cwd : Loc) (r : Rel) : Loc := resolve cwd r

/-- The version and date of the MAF run, `tracking_db.py:298-306`, for what is given and the rows of the results. -/
def versionOf {V : Type} (given : Option V) (rows : List V) : Option V := rows.foldl (fun a v => a.orElse (fun _ => some v)) given

/-- The run whose page is opened, `show_maf.py:190-205` with `maf_tracking.py:46`: the first one in
the order of the ids, whatever has been added. -/
def startRun {I : Type} (runs : List (Db.RunRow I)) : Option Nat := (runs.map Db.RunRow.id).min?

/-- The names that a `MafTracking` has, `maf_tracking.py:25-106`. -/
def trackingNames : List String :=
  ["tracking_db", "stamp", "runs", "runs_page", "_check_db", "run_info", "sort_runs", "get_run"]

/-- The page with the data of a metric, `show_maf.py:66-90`; `npz` is what the run would give. -/
def dataPage (args : List (String × Int)) (npz : Option Str) : Except PyErr Str :=
  match args.lookup "runId" with
  | none => .error .key
  | some _ =>
    match args.lookup "metric_id" with
    | none => .error .key
    | some _ =>
      if trackingNames.contains "getRun" then
        match npz with
        | none => .ok (s "No npz file available.")
        | some f => .ok f
      else .error .attribute

/-! ## make_fbs_tracking_db -/

/-- `x.split(pat)`; the number counts characters that are still to be skipped. -/
def splitGo (pat : Str) : Nat → Str → List Str
  | _, [] => [[]]
  | k + 1, _ :: cs => splitGo pat k cs
  | 0, c :: cs =>
    if pat.isPrefixOf (c :: cs) then [] :: splitGo pat (pat.length - 1) cs
    else match splitGo pat 0 cs with
      | w :: ws => (c :: w) :: ws
      | [] => [[c]]

def pySplit (pat x : Str) : List Str := splitGo pat 0 x

/-- `make_fbs_tracking_db.py:47`. -/
def runVersion (run : Str) : Str := ((pySplit (s "_v") ((pySplit (s "_10yrs") run).headD [])).getLast?).getD []

/-- `make_fbs_tracking_db.py:51-52`. -/
def runComment (dbName : Str) : Str :=
  runVersion (remove (s ".db") dbName) ++ s " " ++ ((pySplit (s "_v") dbName).headD []).map (fun c => if c = '_' then ' ' else c)

/-- The group of a run, `make_fbs_tracking_db.py:42-48`. -/
def runGroup (dbFile : Str) : Except PyErr Str :=
  match (pySplit (s "/") dbFile).reverse with
  | _ :: f :: _ => .ok f
  | _ => .error .index

/-- The versions that are recorded, `make_fbs_tracking_db.py:63-88`: for each directory the rows of
its results, none without a file; the variable is kept between directories and runs. -/
def versions {V : Type} : Option V → List (Option (List V)) → Except PyErr (List (Option V))
  | _, [] => .ok []
  | st, none :: ds =>
    match versions st ds with
    | .error e => .error e
    | .ok vs => .ok (none :: vs)
  | st, some rows :: ds =>
    match rows.getLast?.or st with
    | none => .error .unbound
    | some v =>
      match versions (some v) ds with
      | .error e => .error e
      | .ok vs => .ok (some v :: vs)

/-! ## Batches for the files of a directory -/

/-- `glob("*.db")`: hidden files are not found. -/
def globDb (files : List Str) : List Str := files.filter (fun f => (s ".db").isSuffixOf f && f.head? != some '.')

/-- `scimaf_dir.py:37-41`, `glance_dir.py:26-30`, `ddf_dir.py:30-34`. -/
def dbFiles (given : Option Str) (files : List Str) : List Str :=
  match given with
  | none => (globDb files).filter (fun f => ¬ s "trackingDb" <:+: f)
  | some f => [f]

/-- `metadata_dir.py:50-65`: the first of each of two names is removed. -/
def metaFiles (given : Option Str) (files : List Str) : List Str :=
  match given with
  | none => ((globDb files).erase (s "trackingDb_sqlite.db")).erase (s "resultsDb_sqlite.db")
  | some f => [f]

/-- What is done for a file: where the results go and which file is recorded, `scimaf_dir.py:42-45`
and 86, `glance_dir.py:31-34` and 57, `ddf_dir.py:35-39` and 53. -/
def job (suffix : Str) (f : Str) : Str × Str := (runName f ++ suffix, runName f ++ s ".db")

/-- The results after the batches of all files: each removes what is in its directory before
(without `--no_clobber`); `res` are the results of a file. -/
def afterAll {R : Type} (suffix : Str) (res : Str → R) (files : List Str) : List (Str × R) :=
  files.foldl (fun fs f => fs.filter (fun p => p.1 ≠ (job suffix f).1) ++ [((job suffix f).1, res f)]) []

/-! ## Data -/

/-- `data_dict`, `rs_download_data.py:54-65`. -/
def dataDict : List (String × String) :=
  [("maf", "maf_2024_06_13.tgz"), ("maps", "maps_2022_2_28.tgz"), ("movingObjects", "movingObjects_2025_07_15.tgz"),
    ("orbits", "orbits_2022_3_1.tgz"), ("orbits_precompute", "orbits_precompute_2023_05_23.tgz"),
    ("sim_baseline", "sim_baseline_2025_09_02.tgz"), ("skybrightness", "skybrightness_2023_09_11.tgz"),
    ("throughputs", "throughputs_2025_08_25.tgz"), ("tests", "tests_2024_04_23.tgz")]

/-- `rs_download_testing`, `rs_download_data.py:76-80`. -/
def testing : Except PyErr (List (String × String)) :=
  ["maf", "maps", "movingObjects", "sim_baseline", "skybrightness", "throughputs", "tests"].mapM (fun k =>
    match dataDict.lookup k with
    | some v => .ok (k, v)
    | none => .error .key)

/-- `get_baseline`, `rs_download_data.py:31-34`, for the files of the directory in the order of `glob`. -/
def baseline (dir : Str) (files : List Str) : Except PyErr Str :=
  match files.filter (fun f => (s "10yrs.db").isSuffixOf f && f.head? != some '.') with
  | [] => .error .index
  | f :: _ => .ok (dir ++ s "/" ++ f)

end Verif.Tools
