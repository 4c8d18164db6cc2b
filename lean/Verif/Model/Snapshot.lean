import Mathlib.Algebra.Order.Field.Basic
import Mathlib.Algebra.Order.Field.Rat
import Mathlib.Data.List.Sort
import Verif.Model.BaseMetric

/-!
# Snapshots of the scheduler, prenight simulations and conversions of files

`rubin_sim/sim_archive/prenight.py`, `make_snapshot.py`, `util.py` (`opsimdb_to_hdf5`, `hdf5_to_opsimdb`), `conda_packages.py`, and `drive_sim` of
`sim_archive.py`.

Floats are elements of an ordered field.  The random number generator gives numbers that are arguments here.  Schedulers, observations, tables and contents of
files are opaque.  Exceptions are values.  Left out: warnings other than the one on the minimum, logging, git, the parser of the command line, the simulator,
which is a function of the scheduler, pickle, of which only the compression of the file is kept, and the types of columns in the conversions.
-/

namespace Verif.Snapshot

open Verif.BaseM (put)

inductive PyErr | assertion | attribute | key | type | value | index | unpickle | exists
  deriving DecidableEq, Repr

/-! ## Overheads -/

/-- The parameters of `AnomalousOverheadFunc` that are used, `prenight.py:89-144`. -/
structure Overhead (K : Type*) where
  slewScale : K
  slewLoc : K
  minOverhead : K

/-- An observation: whether it is a `Mapping`, and what it has under three names. -/
structure Obs (K : Type*) where
  mapping : Bool
  slewtime : Option K
  visittime : Option K
  exptime : Option K

section overhead

variable {K : Type*} [Field K] [LinearOrder K]

/-- The time of the slew, `prenight.py:188-199`. -/
def slewTimeOf (slewtime : Option K) (obs : Option (Obs K)) : Except PyErr K :=
  match slewtime with
  | some t => .ok t
  | none =>
    match obs with
    | none => .error .assertion
    | some o =>
      if !o.mapping then .error .assertion
      else match o.slewtime with
        | none => .error .key
        | some t => .ok t

/-- `prenight.py:184-207`; `draw` is what `rng.normal` gave. -/
def slewPart (p : Overhead K) (slewtime : Option K) (obs : Option (Obs K)) (draw : K) : Except PyErr K :=
  if 0 < p.slewScale ∨ 0 < p.slewLoc then
    match slewTimeOf slewtime obs with
    | .error e => .error e
    | .ok t => .ok (if t + t * draw < 0 then -1 * t else t * draw)
  else .ok 0

/-- `prenight.py:216-222`: the modelled overhead, if all is there. -/
def modelOverhead (obs : Option (Obs K)) : Option K :=
  match obs with
  | none => none
  | some o =>
    match o.slewtime, o.visittime, o.exptime with
    | some s, some v, some e => some (s + v - e)
    | _, _, _ => none

/-- `AnomalousOverheadFunc.__call__`, `prenight.py:146-232`: the offset, and whether there is the warning that the minimum was not checked. -/
def overheadCall (p : Overhead K) (slewtime : Option K) (obs : Option (Obs K)) (draw scatter : K) : Except PyErr (K × Bool) :=
  match slewPart p slewtime obs draw with
  | .error e => .error e
  | .ok s =>
    match modelOverhead obs with
    | none => .ok (s + scatter, true)
    | some m => .ok (if m + (s + scatter) < p.minOverhead then p.minOverhead - m else s + scatter, false)

end overhead

/-! ## Directories that are made by the programs -/

/-- Directories by name with the files in them, and the directories that are removed when the object that stands for them is dropped. -/
structure Disk where
  dirs : List (String × List String)
  temps : List String

/-- What `make_sim_data_dir` returns, `sim_archive.py:98-105,204-210`. -/
inductive DataDir
  | temp (name : String)
  | path (name : String)
  deriving DecidableEq, Repr

/-- `sim_archive.py:56-210`, without the contents of the files: `fresh` is the name of a new directory. -/
def makeDir (d : Disk) (fresh : String) (files : List String) (dataPath : Option String) : DataDir × Disk :=
  match dataPath with
  | none => (.temp fresh, ⟨put d.dirs fresh files, fresh :: d.temps⟩)
  | some p => (.path p, { d with dirs := put d.dirs p files })

/-- The objects of temporary directories are dropped: on the return of the function that holds them, or on an exception. -/
def Disk.drop (d : Disk) (name : String) : Disk :=
  ⟨d.dirs.filter fun e => e.1 ≠ name, d.temps.filter (· ≠ name)⟩

/-- `run_prenight_sim_cli`, `prenight.py:309,350-370`: exit code and disk afterwards. -/
def prenightCli (d : Disk) (fresh : String) (files : List String) (results : String) : Except PyErr Nat × Disk :=
  let dataPath := if 0 < results.length then some results else none
  match makeDir d fresh files dataPath with
  | (.path _, d') => (.ok 0, d')
  | (.temp n, d') => (.error .assertion, d'.drop n)

/-- The arguments of the overheads, `prenight.py:318-325`: slew scale and scatter. -/
def anomArgs {K : Type*} [Zero K] [DecidableEq K] (scale scatter : K) : Option (Option K × Option K) :=
  let a := if scale ≠ 0 then some scale else none
  let b := if scatter ≠ 0 then some scatter else none
  if a.isSome || b.isSome then some (a, b) else none

/-! ## `drive_sim` -/

/-- A scheduler: whether it keeps rewards, and its state. -/
structure Sched (S : Type) where
  keep : Bool
  state : S

/-- What the caller is given: the scheduler, whether there are rewards, and the directory. -/
structure Driven (S : Type) where
  scheduler : Sched S
  rewards : Bool
  path : String

/-- `drive_sim`, `sim_archive.py:280-324`.  `run` is the simulator, which gives rewards if it is asked to record them; `unknownOk` is whether `ResourcePath`
takes the misspelt keyword `forceDirctory` (it does not).  Results: what is returned, the scheduler that is in the archived files, and the disk. -/
def driveSim {S : Type} (unknownOk : Bool) (run : S → S) (d : Disk) (fresh : String) (files : List String) (record : Option Bool) (s : Sched S) :
    Except PyErr (Driven S) × Option (Sched S) × Disk :=
  if record = some true ∧ s.keep = false then (.error .value, none, d)
  else
    let rec' := record.getD s.keep
    let saved := s
    let s' : Sched S := { s with state := run s.state }
    if s.keep && !rec' then (.error .index, none, d)
    else
      match makeDir d fresh files none with
      | (.path _, d') => (.error .attribute, none, d')
      | (.temp n, d') =>
        if !unknownOk then (.error .type, some saved, d'.drop n)
        else (.ok ⟨s', rec', n⟩, some saved, d'.drop n)

/-! ## Configurations of the scheduler -/

/-- A module that was imported: its `scheduler`, with or without `nside`, and its `get_scheduler`. -/
structure Config (S : Type) where
  scheduler : Option (S × Option Nat)
  function : Option (Nat × S)

/-- `make_snapshot.py:66-74`: an attribute that is missing is an AttributeError, which is not caught by `except NameError`. -/
def fromConfig {S : Type} (c : Config S) : Except PyErr (Nat × S) :=
  match c.scheduler with
  | none => .error .attribute
  | some (s, none) => let _ := s; .error .attribute
  | some (s, some n) => .ok (n, s)

/-- What `example_scheduler` gives: a scheduler, or a tuple with one, `make_snapshot.py:156-162`. -/
inductive Example (S : Type)
  | scheduler (s : S)
  | triple (observatory : Unit) (s : S)

/-- Files with configurations: local ones by path, those of repositories by repository, reference and path. -/
structure World (S : Type) where
  localFile : String → Option (Config S)
  repoFile : String → String → String → Option (Config S)
  dflt : Example S

/-- Import of a file; `none` is a file that is not there. -/
def load {S : Type} (c : Option (Config S)) : Except PyErr S :=
  match c with
  | none => .error .value
  | some c =>
    match fromConfig c with
    | .error e => .error e
    | .ok r => .ok r.2

/-- `get_scheduler`, `make_snapshot.py:113-171`; `add` is `add_observations_array`, `visits` the observations in a database. -/
def getScheduler {S O : Type} (w : World S) (add : S → List O → S) (visits : String → List O) (repo script : Option String) (ref : String)
    (visitsDb : Option String) : Except PyErr S :=
  let r : Except PyErr S :=
    if 0 < (repo.getD "").length then
      match script with
      | none => .error .value
      | some sc => load (w.repoFile (repo.getD "") ref sc)
    else
      match script with
      | some sc => load (w.localFile sc)
      | none =>
        match w.dflt with
        | .scheduler s => .ok s
        | .triple _ s => .ok s
  match r with
  | .error e => .error e
  | .ok s =>
    if 0 < (visitsDb.getD "").length then
      let obs := visits (visitsDb.getD "")
      .ok (if 0 < obs.length then add s obs else s)
    else .ok s

/-! ## Files of snapshots -/

inductive Codec | plain | bz2 | xz | gz
  deriving DecidableEq, Repr

/-- `make_snapshot.py:185-192`. -/
def codecOf (name : List Char) : Codec :=
  if ".bz2".toList <:+ name then .bz2
  else if ".xz".toList <:+ name then .xz
  else if ".gz".toList <:+ name then .gz
  else .plain

/-- `save_scheduler`, `make_snapshot.py:174-195`: the file is a pickle in a compression. -/
def saveScheduler {S : Type} (files : List (List Char × Codec × S)) (name : List Char) (s : S) : List (List Char × Codec × S) :=
  put files name (codecOf name, s)

/-- Reading with `open` and `pickle.load`, `make_snapshot.py:240-241` and `prenight.py:311-312`. -/
def readScheduler {S : Type} (files : List (List Char × Codec × S)) (name : List Char) : Except PyErr S :=
  match files.lookup name with
  | none => .error .value
  | some (.plain, s) => .ok s
  | some (_, _) => .error .unpickle

/-! ## Conversions of files -/

/-- A database or a store: tables by name.  A path of which nothing is known is `none`. -/
abbrev Tables (T : Type) := List (String × T)

/-- `util.py:83-87`: the tables one after the other, the first of them on a new file. -/
def toHdfGo {T : Type} : Option (Tables T) → Bool → Tables T → Option (Tables T)
  | old, _, [] => old
  | old, first, (n, t) :: l =>
    let base := if first then [] else old.getD []
    toHdfGo (some (put base ("/" ++ n) t)) false l

/-- `opsimdb_to_hdf5`, `util.py:54-92`: the file after the call. -/
def toHdf {T : Type} (old : Option (Tables T)) (db : Tables T) : Option (Tables T) := toHdfGo old true db

/-- `key.lstrip("/")`, `util.py:119`. -/
def stripKey (k : String) : String := String.ofList (k.toList.dropWhile (· = '/'))

/-- `util.py:117-121`: a table that is there already is a ValueError; what was written before stays. -/
def fromHdfGo {T : Type} : Tables T → Tables T → Except PyErr Unit × Tables T
  | db, [] => (.ok (), db)
  | db, (k, t) :: l =>
    if (db.lookup (stripKey k)).isSome then (.error .value, db)
    else fromHdfGo (db ++ [(stripKey k, t)]) l

/-- `hdf5_to_opsimdb`, `util.py:95-126`, on a store with its keys in the order of `store`; a path without a file is an empty database. -/
def fromHdf {T : Type} (old : Option (Tables T)) (store : Tables T) : Except PyErr Unit × Tables T := fromHdfGo (old.getD []) store

/-! ## Conda packages -/

/-- A file in `conda-meta`: whether its name ends in `.json`, and its contents, if they can be read, with name and version. -/
structure MetaFile where
  json : Bool
  data : Option (Option String × Option String)

/-- `conda_packages.py:40-52`. -/
def scan : List MetaFile → List (String × String)
  | [] => []
  | fs => fs.foldl (fun acc f =>
      if !f.json then acc
      else match f.data with
        | some (some n, some v) => put acc n v
        | _ => acc) []

/-- `dict(sorted(packages.items()))`, `conda_packages.py:54`: the names are all different, so the versions do not matter. -/
def sortItems (l : List (String × String)) : List (String × String) := l.insertionSort fun a b => a.1 ≤ b.1

/-- `get_conda_packages` without its cache, `conda_packages.py:27-65`: `files` is `none` without a prefix or directory, `env` the name in the path of Python. -/
def condaPackages (files : Option (List MetaFile)) (env : Option String) : List (String × String) :=
  match files with
  | none => []
  | some fs =>
    let p := sortItems (scan fs)
    match env with
    | none => p
    | some e => put p "conda_env" e

/-- The cache, `conda_packages.py:12`: calls one after the other, each with what is there at its time. -/
def cachedCalls (cache : Option (List (String × String))) : List (Option (List MetaFile) × Option String) → List (List (String × String))
  | [] => []
  | (f, e) :: l =>
    let r := cache.getD (condaPackages f e)
    r :: cachedCalls (some r) l

end Verif.Snapshot
