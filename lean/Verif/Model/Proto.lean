import Mathlib.Data.List.Dedup
import Mathlib.Algebra.Order.Floor.Ring
import Mathlib.Data.Rat.Floor
import Verif.Model.Archive
import Verif.Model.BaseMetric

/-!
# The prototype archive of simulations

`rubin_sim/sim_archive/prototype.py` and `make_sim_data_dir` of `rubin_sim/sim_archive/sim_archive.py`.

Days are numbers of days; that the order of the ISO dates is the order of the days is C65.  A simulation in the archive is known by the day on which it was
added and its number on this day, which is what its URI is made of.  Contents of files, hashes and values in the metadata are opaque.  A directory is a list of
names with contents.  Exceptions are values.  Left out: the HDF5 file itself, which is the tables that are written to it, the types of its columns, and logging.
-/

namespace Verif.Proto

open Verif.BaseM (put)

inductive PyErr | key | type | notFound
  deriving DecidableEq, Repr

/-! ## The number of a simulation -/

/-- `prototype.py:61-73`: one more than the largest directory that is a number; `parse` is `int`, and the slash after the names is left out. -/
def nextIndex (parse : String → Option Int) (dirs : List String) : Int :=
  match dirs.filterMap parse with
  | [] => 1
  | a :: l => l.foldl max a + 1

/-- The directory is made, `prototype.py:74-75`; it is no exception if it is there already. -/
def mkdir (dirs : List String) (d : String) : List String := if d ∈ dirs then dirs else dirs ++ [d]

/-- `_next_sim_date_and_index`, `prototype.py:54-77`, on one day. -/
def addDir (parse : String → Option Int) (render : Int → String) (dirs : List String) : List String := mkdir dirs (render (nextIndex parse dirs))

/-- Several one after the other. -/
def addDirs (parse : String → Option Int) (render : Int → String) (dirs : List String) : Nat → List String
  | 0 => dirs
  | n + 1 => addDir parse render (addDirs parse render dirs n)

/-- Two programs at the same time: each looks at the directories and makes one later. -/
structure Two where
  dirs : List String
  seen : Bool → Option Int
  made : Bool → Option String

inductive Act
  | look (p : Bool)
  | make (p : Bool)

def Two.step (parse : String → Option Int) (render : Int → String) (s : Two) : Act → Two
  | .look p => { s with seen := Function.update s.seen p (some (nextIndex parse s.dirs)) }
  | .make p =>
    match s.seen p with
    | none => s
    | some i => { s with dirs := mkdir s.dirs (render i), made := Function.update s.made p (some (render i)) }

/-! ## Directories -/

section Files
variable {C H : Type}

/-- What the metadata have on a file. -/
structure FileInfo (H : Type) where
  name : String
  md5 : Option H
  deriving DecidableEq

def yamlName : String := "sim_metadata.yaml"

/-- The files without their hashes, `sim_archive.py:107-135`: the directory and the entries.  There are rewards if both tables are given (115).
`ins` are the types, the names without directory and the contents. -/
def collect (obs : C) (rewards : Option C) (stats : C) (ins : List (String × String × C)) : List (String × C) × List (String × String) :=
  let d0 := [("opsim.db", obs)]
  let f0 := [("observations", "opsim.db")]
  let d1 := match rewards with | none => d0 | some r => put d0 "rewards.h5" r
  let f1 := match rewards with | none => f0 | some _ => put f0 "rewards" "rewards.h5"
  let d2 := put d1 "obs_stats.txt" stats
  let f2 := put f1 "statistics" "obs_stats.txt"
  ins.foldl (fun s i => (put s.1 i.2.1 i.2.2, put s.2 i.1 i.2.1)) (d2, f2)

/-- `make_sim_data_dir`, `sim_archive.py:107-200`: then the hashes (137-143) and the metadata (198-200). -/
def makeDir (md5 : C → H) (obs : C) (rewards : Option C) (stats : C) (ins : List (String × String × C)) (yaml : C) :
    List (String × C) × List (String × FileInfo H) :=
  let s := collect obs rewards stats ins
  (put s.1 yamlName yaml, s.2.map (fun f => (f.1, ⟨f.2, (s.1.lookup f.2).map md5⟩)))

/-- The files of the command line, `prototype.py:388-396`: the type is the name of the file. -/
def cliFiles (scheduler script notebook : Option String) : List (String × String) :=
  [scheduler, script, notebook].foldl (fun d f => match f with | none => d | some n => put d n n) []

/-- The loop of `transfer_archive_dir`, `prototype.py:117-126`: what is written and the exception. -/
def copyLoop (src : List (String × C)) : List (FileInfo H) → List (String × C) → List (String × C) × Option PyErr
  | [], dest => (dest, none)
  | f :: fs, dest =>
    match src.lookup f.name with
    | none => (dest, some .notFound)
    | some c => copyLoop src fs (put dest f.name c)

/-- `transfer_archive_dir`, `prototype.py:107-128`; `files` are those of the metadata. -/
def transfer (src : List (String × C)) (files : List (String × FileInfo H)) : List (String × C) × Option PyErr :=
  match src.lookup yamlName with
  | none => ([], some .notFound)
  | some _ => copyLoop src ((put files "metadata" ⟨yamlName, none⟩).map Prod.snd) []

/-- `check_opsim_archive_resource`, `prototype.py:156-169`. -/
def check [DecidableEq H] (md5 : C → H) (dir : List (String × C)) : List (String × FileInfo H) → Except PyErr (List (String × Bool))
  | [] => .ok []
  | f :: fs =>
    match dir.lookup f.2.name, f.2.md5 with
    | none, _ => .error .notFound
    | some _, none => .error .key
    | some c, some h =>
      match check md5 dir fs with
      | .error e => .error e
      | .ok r => .ok ((f.2.name, decide (h = md5 c)) :: r)

/-- The files in the metadata of a simulation that was exported, `prototype.py:1073-1096` and `vseqmetadata.py:1723-1729`: names and no hashes. -/
def exportFiles (files : List (String × String)) : List (String × FileInfo H) :=
  let f0 := files.map (fun f => (f.1, (⟨f.2, none⟩ : FileInfo H)))
  let f1 := if "observations" ∈ files.map Prod.fst then f0 else put f0 "observations" ⟨"opsim.db", none⟩
  put f1 "metadata" ⟨yamlName, none⟩

end Files

/-! ## Reading the metadata -/

structure Uri where
  date : Int
  id : Int
  deriving DecidableEq, Repr

section Window
variable {M : Type}

/-- `prototype.py:244-254`: the last day of the compilation, at least 1900-01-01. -/
def maxDate (c : List (Uri × M)) : Int := (c.map (fun e => e.1.date)).foldl max 15020

/-- `prototype.py:236-237`, 261. -/
def days (latest nights : Int) : List Int := (List.range nights.toNat).map (fun i : Nat => latest - nights + 1 + (i : Int))

/-- One day, `prototype.py:262-297`: from the archive, with what is in the compilation from there, or from the compilation. -/
def readDay (arch c : List (Uri × M)) (verify : Bool) (acc : List (Uri × M)) (d : Int) : List (Uri × M) :=
  let new := if verify || decide (maxDate c ≤ d)
    then (arch.filter (fun e => decide (e.1.date = d))).map (fun e => (e.1, (c.lookup e.1).getD e.2))
    else c.filter (fun e => decide (e.1.date = d))
  new.foldl (fun a e => put a e.1 e.2) acc

/-- One day with the messages on simulations that are not in the archive, `prototype.py:299-305`. -/
def readStep (arch c : List (Uri × M)) (verify : Bool) (s : List (Uri × M) × List Uri) (d : Int) : List (Uri × M) × List Uri :=
  let acc := readDay arch c verify s.1 d
  (acc, if verify then s.2 ++ ((c.filter (fun e => decide (e.1.date = d))).map Prod.fst).filter (fun u => (acc.lookup u).isNone) else s.2)

/-- `read_archived_sim_metadata`, `prototype.py:236-316`: metadata and messages.  No compilation is an empty one; the labels are part of the metadata. -/
def readAll (arch : List (Uri × M)) (comp : Option (List (Uri × M))) (verify : Bool) (latest nights : Int) : List (Uri × M) × List Uri :=
  (days latest nights).foldl (readStep arch (comp.getD []) verify) ([], [])

def read (arch : List (Uri × M)) (comp : Option (List (Uri × M))) (verify : Bool) (latest nights : Int) : List (Uri × M) :=
  (readAll arch comp verify latest nights).1

/-- The archive, the compilation, and the day that it is. -/
structure St (M : Type) where
  today : Int
  arch : List (Uri × M)
  comp : Option (List (Uri × M))

inductive Op (M : Type)
  | wait (k : Nat)
  | add (m : M)
  | compile (append : Bool) (nights : Int)

/-- The number of the next simulation of a day, `prototype.py:73`. -/
def nextId (arch : List (Uri × M)) (d : Int) : Int :=
  match (arch.filter (fun e => decide (e.1.date = d))).map (fun e => e.1.id) with
  | [] => 1
  | a :: l => l.foldl max a + 1

/-- What is done with an archive: days go by, simulations are added, and `compile_sim_metadata` is run (`prototype.py:446-451`); the file is not changed if
that is an exception. -/
def St.step (ok : List (Uri × M) → Bool) (s : St M) : Op M → St M
  | .wait k => { s with today := s.today + k }
  | .add m => { s with arch := s.arch ++ [(⟨s.today, nextId s.arch s.today⟩, m)] }
  | .compile append nights =>
    let r := read s.arch (if append then s.comp else none) false s.today nights
    if ok r then { s with comp := some r } else s

def St.run (ok : List (Uri × M) → Bool) (s : St M) (ops : List (Op M)) : St M := ops.foldl (St.step ok) s

end Window

/-! ## The tables of a compilation -/

section Tables
variable {U A : Type} [DecidableEq U]

/-- The metadata of a simulation: the keys with a meaning of their own, and all others. -/
structure Meta (A : Type) where
  other : List (String × A)
  dates : Option (List (String × A))
  files : Option (List (String × List (String × A)))
  kwargs : Option (List (String × A))
  tags : Option (List A)
  deriving DecidableEq

/-- What is read: none is NaN. -/
structure MetaN (A : Type) where
  other : List (String × Option A)
  dates : List (String × Option A)
  files : Option (List (String × List (String × Option A)))
  kwargs : Option (List (String × Option A))
  tags : Option (List A)
  deriving DecidableEq

structure Tables (U A : Type) where
  sims : List (U × List (String × A))
  files : List (U × String × List (String × A))
  kwargs : List (U × List (String × A))
  tags : List (U × A)
  deriving DecidableEq

/-- A row of `simulations`, `prototype.py:458-476`. -/
def simRow (m : Meta A) : Except PyErr (List (String × A)) :=
  match m.dates with
  | none => .ok m.other
  | some d =>
    match (d.lookup "start").or (d.lookup "first"), (d.lookup "end").or (d.lookup "last") with
    | some f, some l => .ok (m.other ++ [("first_simulated_date", f), ("last_simulated_date", l)])
    | _, _ => .error .key

/-- All rows. -/
def simRows : List (U × Meta A) → Except PyErr (List (U × List (String × A)))
  | [] => .ok []
  | x :: l =>
    match simRow x.2 with
    | .error e => .error e
    | .ok r =>
      match simRows l with
      | .error e => .error e
      | .ok rs => .ok ((x.1, r) :: rs)

/-- `compile_sim_metadata`, `prototype.py:453-488`: a table without rows has no column `sim_uri` for the index. -/
def compileTables (l : List (U × Meta A)) : Except PyErr (Tables U A) :=
  match simRows l with
  | .error e => .error e
  | .ok sims =>
    let files := l.flatMap (fun x => (x.2.files.getD []).map (fun f => (x.1, f.1, f.2)))
    let kwargs := l.filterMap (fun x => x.2.kwargs.map (fun k => (x.1, k)))
    let tags := l.flatMap (fun x => (x.2.tags.getD []).map (fun t => (x.1, t)))
    if sims = [] ∨ files = [] ∨ kwargs = [] ∨ tags = [] then .error .key else .ok ⟨sims, files, kwargs, tags⟩

/-- The columns of a table; their order is left out. -/
def columns (rows : List (List (String × A))) : List String := (rows.flatMap (fun r => r.map Prod.fst)).dedup

/-- A row of a table has all columns. -/
def fullRow (cols : List String) (r : List (String × A)) : List (String × Option A) := cols.map (fun c => (c, r.lookup c))

/-- The values that are not NaN, `prototype.py:547-556` and 577-586. -/
def dropNan (r : List (String × Option A)) : List (String × Option A) := r.filter (fun e => e.2.isSome)

/-- The metadata of one simulation, `prototype.py:535-586`. -/
def readSim (t : Tables U A) (x : U × List (String × A)) : MetaN A :=
  let row := fullRow (columns (t.sims.map Prod.snd)) x.2
  let fcols := columns (t.files.map (fun f => f.2.2))
  let kcols := columns (t.kwargs.map Prod.snd)
  let fs := t.files.filter (fun f => decide (f.1 = x.1))
  let ts := t.tags.filter (fun f => decide (f.1 = x.1))
  { other := dropNan (row.filter (fun e => decide (e.1 ≠ "first_simulated_date" ∧ e.1 ≠ "last_simulated_date")))
    dates := [("first", x.2.lookup "first_simulated_date"), ("last", x.2.lookup "last_simulated_date")]
    files := if fs = [] then none else some (fs.map (fun f => (f.2.1, fullRow fcols f.2.2)))
    kwargs := (t.kwargs.lookup x.1).map (fun k => dropNan (fullRow kcols k))
    tags := if ts = [] then none else some (ts.map Prod.snd) }

/-- `read_sim_metadata_from_hdf`, `prototype.py:530-588`; without a column for the dates there is an exception (568). -/
def readTables (t : Tables U A) : Except PyErr (List (U × MetaN A)) :=
  let cols := columns (t.sims.map Prod.snd)
  if "first_simulated_date" ∈ cols ∧ "last_simulated_date" ∈ cols then .ok (t.sims.map (fun x => (x.1, readSim t x)))
  else .error .key

/-! ## Comparing a compilation with the archive -/

variable {V : Type}

/-- A difference, `prototype.py:642-658` and 664-679: the simulation and the key, if there is one. -/
abbrev Diff (U : Type) := U × Option String

/-- `verify_compiled_sim_metadata`, `prototype.py:635-681`, for the metadata of both; `eq` is the comparison of values. -/
def differences (eq : V → V → Bool) (direct compiled : List (U × List (String × V))) : List (Diff U) :=
  direct.flatMap (fun s => s.2.flatMap (fun kv =>
    match (compiled.lookup s.1).bind (fun m => m.lookup kv.1) with
    | some w => if eq kv.2 w then [] else [(s.1, some kv.1)]
    | none => [(s.1, some kv.1)])) ++
  compiled.flatMap (fun s => s.2.flatMap (fun kv =>
    match direct.lookup s.1 with
    | none => [(s.1, none)]
    | some m => if (m.lookup kv.1).isNone then [(s.1, some kv.1)] else []))

end Tables

/-! ## The latest simulation -/

/-- What is used of the metadata of a simulation; none are keys that are not there. -/
structure Sim where
  date : Int
  id : Int
  first : Option Int
  last : Option Int
  telescope : Option String
  tags : Option (List String)
  obs : Option String
  deriving DecidableEq, Repr

def lower (t : String) : List Char := t.toList.map Char.toLower

structure Query where
  first : Int
  last : Int
  tags : List String
  telescope : String

/-- One simulation, `prototype.py:796-809`. -/
def consider (q : Query) (best : Option Sim) (s : Sim) : Except PyErr (Option Sim) :=
  match s.first with
  | none => .error .key
  | some f =>
    if q.first < f then .ok best
    else
      match s.last with
      | none => .error .key
      | some l =>
        if l < q.last then .ok best
        else if s.telescope.any (fun t => decide (lower t ≠ lower q.telescope)) then .ok best
        else
          match s.tags with
          | none => .error .key
          | some ts =>
            if ¬ (∀ t ∈ q.tags, t ∈ ts) then .ok best
            else
              match best with
              | none => .ok (some s)
              | some b => if s.date < b.date then .ok best else if s.id < b.id then .ok best else .ok (some s)

def findLoop (q : Query) : List Sim → Option Sim → Except PyErr (Option Sim)
  | [], best => .ok best
  | s :: l, best =>
    match consider q best s with
    | .error e => .error e
    | .ok b => findLoop q l b

/-- `find_latest_prenight_sim_for_nights`, `prototype.py:790-822`: the simulation and its file. -/
def findLatest (q : Query) (sims : List Sim) : Except PyErr (Option (Sim × String)) :=
  match findLoop q sims none with
  | .error e => .error e
  | .ok none => .ok none
  | .ok (some b) =>
    match b.obs with
    | none => .error .key
    | some n => .ok (some (b, n))

/-- The simulations as `read` gives them, `prototype.py:785-787`; `meta` is how the metadata are used. -/
def latestOf {M : Type} (sim : Uri → M → Sim) (q : Query) (arch : List (Uri × M)) (comp : Option (List (Uri × M))) (today age : Int) :
    Except PyErr (Option (Sim × String)) :=
  findLatest q ((read arch comp false today age).map (fun e => sim e.1 e.2))

/-- `fetch_sim_for_nights` without a file given, `prototype.py:873-878`: `None` has no items.  `visits` are those in the file. -/
def fetch {W : Type} (visits : Sim × String → List W) (r : Except PyErr (Option (Sim × String))) : Except PyErr (List W) :=
  match r with
  | .error e => .error e
  | .ok none => .error .type
  | .ok (some b) => .ok (visits b)

/-- `fetch_sim_stats_for_night`, `prototype.py:1027-1032`. -/
def nominalVisits {W : Type} (visits : Sim × String → List W) (r : Except PyErr (Option (Sim × String))) : Except PyErr Nat :=
  match fetch visits r with
  | .error e => .error e
  | .ok v => .ok v.length

/-- The age of `fetch_obsloctap_visits`, `prototype.py:969`, for now and the beginning of the day asked for. -/
def tapAge (now ref : Rat) : Int := ⌈now - ref⌉ + 1

/-- The age of `fetch_sim_stats_for_night`, `prototype.py:1025`. -/
def statsAge (now ref : Rat) : Int := ⌈now - ref⌉ + 3

end Verif.Proto
