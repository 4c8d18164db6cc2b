import Mathlib.Algebra.Order.Floor.Ring
import Mathlib.Data.Rat.Floor
import Mathlib.Data.List.Dedup
import Mathlib.Data.List.Sort
import Verif.Model.Archive
import Verif.Model.Bins
import Verif.Model.Snapshot

/-!
# Operations on the archive of visit sequences

`rubin_sim/sim_archive/vseqmetadata.py`, `vseqarchive.py`, and `fetch_obsloctap_visits` and `fetch_sim_stats_for_night` of `sim_archive.py`.

Floats are elements of an ordered field; missing values are `none`.  UUIDs are opaque.  A transaction is done or not.  Exceptions are values.  Days are numbers of
days, times of files are seconds.  The pool of connections is that of `psycopg2.pool.SimpleConnectionPool(1, 5)`.  Left out: the standard deviation in the
statistics, the connection itself, permissions, logging and what is printed.
-/

namespace Verif.VsOps

open Verif.BaseM (put)
open Verif.Snapshot (Tables toHdf fromHdf)

inductive PyErr | value | key | attribute | assertion | pool | notFound | fileExists | noMatch | integrity
  deriving DecidableEq, Repr

/-! ## Connections -/

/-- The pool: connections that are idle and that are in use. -/
structure Pool where
  idle : Nat
  used : Nat

def minconn : Nat := 1
def maxconn : Nat := 5

/-- `getconn` of psycopg2; `none` is PoolError. -/
def getconn (p : Pool) : Option Pool :=
  if 0 < p.idle then some ⟨p.idle - 1, p.used + 1⟩
  else if p.used = maxconn then none
  else some ⟨p.idle, p.used + 1⟩

/-- `putconn` of psycopg2: kept if there are fewer idle ones than the minimum, else closed. -/
def putconn (p : Pool) : Pool :=
  if p.idle < minconn then ⟨p.idle + 1, p.used - 1⟩ else ⟨p.idle, p.used - 1⟩

/-- An object of the class: its pool, and whether its engine has its connection. -/
structure Client where
  pool : Pool
  engine : Bool

/-- `vseqmetadata.py:211-225`. -/
def Client.new : Client := ⟨⟨minconn, 0⟩, false⟩

inductive Op | query | read | insertStats
  deriving DecidableEq, Repr

/-- `query` (`vseqmetadata.py:255-294`), `pd_read_sql` (372-381) and `insert_nightly_stats` (1299-1304).  The engine of the last is new in each call, and its
connection is taken from the pool and not put back.  `false` is PoolError. -/
def Client.step (c : Client) : Op → Bool × Client
  | .query =>
    match getconn c.pool with
    | none => (false, c)
    | some p => (true, { c with pool := putconn p })
  | .read =>
    match getconn c.pool with
    | none => (false, c)
    | some p =>
      let p := putconn p
      if c.engine then (true, { c with pool := p })
      else
        match getconn p with
        | none => (false, { c with pool := p })
        | some q => (true, ⟨q, true⟩)
  | .insertStats =>
    match getconn c.pool with
    | none => (false, c)
    | some p => (true, { c with pool := p })

/-- Calls one after the other: their outcomes and what is left. -/
def Client.run (c : Client) : List Op → List (Op × Bool) × Client
  | [] => ([], c)
  | o :: l => ((o, (c.step o).1) :: ((c.step o).2.run l).1, ((c.step o).2.run l).2)

/-! ## Parameters of the connection -/

/-- `vseqmetadata.py:187-209`: one of the parameters; the last argument is the variable of the module, which is `None` for the port.  A key that is there with
`None` is as good as none. -/
def connParam (kwargs : List (String × Option String)) (env : List (String × String)) (key var : String) (dflt : Option String) : List (String × Option String) :=
  if kwargs.lookup key = none ∨ kwargs.lookup key = some none then
    match env.lookup var with
    | some v => put kwargs key (some v)
    | none =>
      match dflt with
      | some v => put kwargs key (some v)
      | none => kwargs
  else kwargs

/-- `vseqmetadata.py:183-211`: what is passed to the pool. -/
def connParams (kwargs : List (String × Option String)) (env : List (String × String)) : List (String × Option String) :=
  let k1 := connParam kwargs env "database" "VSARCHIVE_PGDATABASE" (some "opsim_log")
  let k2 := connParam k1 env "host" "VSARCHIVE_PGHOST" (some "usdf-maf-visit-seq-archive-tx-ro.sdf.slac.stanford.edu")
  let k3 := connParam k2 env "user" "VSARCHIVE_PGUSER" (some "reader")
  connParam k3 env "port" "VSARCHIVE_PGPORT" none

/-- Constructor on a dictionary of the caller, which is modified: what is passed on, and the dictionary afterwards, `vseqmetadata.py:183-209`. -/
def construct (kwargs : List (String × Option String)) (env : List (String × String)) : List (String × Option String) × List (String × Option String) :=
  (connParams kwargs env, connParams kwargs env)

/-! ## Nightly statistics -/

section stats

variable {K : Type} [Field K] [LinearOrder K] [FloorRing K]

/-- A visit: what is in `day_obs`, if there is such a column, and the other columns. -/
structure Visit (K : Type) where
  day : Int
  val : String → Option K

structure Visits (K : Type) where
  names : List String
  rows : List (Visit K)

/-- `vseqarchive.py:57-68`: the day of each visit; `none` is a time that is missing, with which a visit is in no group. -/
def daysOf (t : Visits K) : Except PyErr (List (Option Int)) :=
  if "day_obs" ∈ t.names then .ok (t.rows.map fun r => some r.day)
  else
    match ["obs_start_mjd", "observationStartMJD"].find? (fun c => decide (c ∈ t.names)) with
    | none => .error .value
    | some c => .ok (t.rows.map fun r => (r.val c).map fun x => ⌊x - 1 / 2⌋)

/-- A row of the statistics. -/
structure StatRow (K : Type) where
  day : Int
  name : String
  count : Nat
  mean : Option K
  min : Option K
  p05 : Option K
  q1 : Option K
  median : Option K
  q3 : Option K
  p95 : Option K
  max : Option K

/-- `describe` of one column on one day, `vseqarchive.py:72`. -/
def describe (d : Int) (name : String) (vals : List K) : StatRow K :=
  { day := d
    name := name
    count := vals.length
    mean := if vals = [] then none else some (vals.sum / (vals.length : K))
    min := Bins.pct 0 vals
    p05 := Bins.pct (1 / 20) vals
    q1 := Bins.pct (1 / 4) vals
    median := Bins.pct (1 / 2) vals
    q3 := Bins.pct (3 / 4) vals
    p95 := Bins.pct (19 / 20) vals
    max := Bins.pct 1 vals }

/-- The values of a column on a day that are not missing. -/
def valuesOn (days : List (Option Int)) (rows : List (Visit K)) (d : Int) (c : String) : List K :=
  (days.zip rows).filterMap fun e => if e.1 = some d then e.2.val c else none

/-- The days with visits in their order. -/
def dayList (days : List (Option Int)) : List Int := ((days.filterMap id).dedup).insertionSort (· ≤ ·)

/-- `compute_nightly_stats`, `vseqarchive.py:54-87`. -/
def nightlyStats (t : Visits K) (columns : List String) : Except PyErr (List (StatRow K)) :=
  match daysOf t with
  | .error e => .error e
  | .ok days =>
    if columns.all (fun c => decide (c ∈ t.names)) then
      .ok ((dayList days).flatMap fun d => columns.map fun c => describe d c (valuesOn days t.rows d c))
    else .error .key

/-! ## Statistics in the database -/

/-- A row of `nightly_stats`, `make_vseqmeta.sql:158-174`. -/
structure DbStat (U K : Type) where
  uuid : U
  accumulated : Bool
  row : StatRow K

/-- Its primary key, `make_vseqmeta.sql:173`. -/
def DbStat.key {U : Type} (r : DbStat U K) : U × Int × String × Bool := (r.uuid, r.row.day, r.row.name, r.accumulated)

variable {U : Type} [DecidableEq U]

/-- `insert_nightly_stats`, `vseqmetadata.py:1294-1304`, on what `compute_nightly_stats` gives: all rows in one transaction. -/
def insertStats (db : List (DbStat U K)) (u : U) (rows : List (StatRow K)) : Except PyErr Unit × List (DbStat U K) :=
  let new := rows.map fun r => (⟨u, false, r⟩ : DbStat U K)
  if ((db ++ new).map DbStat.key).Nodup then (.ok (), db ++ new) else (.error .integrity, db)

/-- `query_nightly_stats`, `vseqmetadata.py:1306-1325`. -/
def queryStats (db : List (DbStat U K)) (u : U) : List (DbStat U K) := db.filter fun r => r.uuid = u

end stats

/-! ## Sequences in two steps -/

/-- A row of `mixedvisitseq`: the columns of the second transaction. -/
structure Mixed (U : Type) where
  uuid : U
  label : String
  parents : Option (Int × Int × U × U)

/-- `record_mixed_metadata`, `vseqmetadata.py:895-944`: the row is there before the dates are converted; `parse` is `dayobs_to_date`. -/
def recordMixed {U : Type} [DecidableEq U] (parse : String → Option Int) (rows : List (Mixed U)) (u : U) (label lastEarly firstLate : String) (early late : U) :
    Except PyErr U × List (Mixed U) :=
  let rows' := rows ++ [⟨u, label, none⟩]
  match parse lastEarly with
  | none => (.error .value, rows')
  | some a =>
    match parse firstLate with
    | none => (.error .value, rows')
    | some b => (.ok u, rows'.map fun r => if r.uuid = u then { r with parents := some (a, b, early, late) } else r)

/-! ## Updates from the command line -/

def hexDigit (n : Nat) : Char := if n < 10 then Char.ofNat (48 + n) else Char.ofNat (87 + n)

/-- `bytes.hex()`, `vseqarchive.py:802`. -/
def toHex (b : List (Fin 256)) : List Char := b.flatMap fun x => [hexDigit (x.val / 16), hexDigit (x.val % 16)]

def hexVal (c : Char) : Option Nat :=
  if 48 ≤ c.toNat ∧ c.toNat ≤ 57 then some (c.toNat - 48)
  else if 97 ≤ c.toNat ∧ c.toNat ≤ 102 then some (c.toNat - 87)
  else if 65 ≤ c.toNat ∧ c.toNat ≤ 70 then some (c.toNat - 55)
  else none

/-- `bytes.fromhex`: white space between bytes is skipped; `none` is the ValueError. -/
def fromHex : List Char → Option (List (Fin 256))
  | [] => some []
  | a :: l =>
    if a = ' ' ∨ a = '\n' ∨ a = '\t' ∨ a = '\r' then fromHex l
    else match l with
      | [] => none
      | b :: l =>
        match hexVal a, hexVal b, fromHex l with
        | some x, some y, some r => some (Fin.ofNat 256 (16 * x + y) :: r)
        | _, _, _ => none

/-- A value for the database. -/
inductive DbVal
  | text (s : List Char)
  | bytes (b : List (Fin 256))
  deriving DecidableEq

/-- `vseqarchive.py:506-508`. -/
def cliValue (field value : List Char) : Except PyErr DbVal :=
  if "sha256".toList <:+ field then
    match fromHex value with
    | none => .error .value
    | some b => .ok (.bytes b)
  else .ok (.text value)

/-- `update_visitseq_metadata` of the command line, `vseqarchive.py:480-510` and `vseqmetadata.py:737-760`: sequences by UUID with their fields.  An unknown UUID is
the ValueError of `_find_visitseq_table`, an unknown field an error of the database. -/
def updateCli {U : Type} [DecidableEq U] (seqs : List (U × List (List Char × DbVal))) (u : U) (field value : List Char) :
    Except PyErr Unit × List (U × List (List Char × DbVal)) :=
  match cliValue field value with
  | .error e => (.error e, seqs)
  | .ok v =>
    match seqs.lookup u with
    | none => (.error .value, seqs)
    | some fs =>
      if (fs.lookup field).isSome then (.ok (), put seqs u (put fs field v)) else (.error .key, seqs)

/-! ## Metadata from the prototype -/

open Verif.Archive (Val lookup)

/-- `vseqmetadata.py:129-132`: URLs for files that have none; `none` is the KeyError of a file without a name. -/
def fillUrls (base : String) : List (String × Val) → Option (List (String × Val))
  | [] => some []
  | (t, .dict d) :: l =>
    match lookup d "url" with
    | some _ => (fillUrls base l).map ((t, .dict d) :: ·)
    | none =>
      match lookup d "name" with
      | some (.str n) => (fillUrls base l).map ((t, .dict (d ++ [("url", .str (base ++ n))])) :: ·)
      | _ => none
  | _ :: _ => none

/-- The time that is made up, `vseqmetadata.py:125`: noon (UTC) of the date and as many seconds as the index says. -/
def madeUpTime (day : Int) (index : Nat) : Int := day * 86400 + 43200 + index

/-- The metadata with a time of creation, `vseqmetadata.py:107-126`. -/
def withTime (labelTime : String → Option Int) (m : List (String × Val)) (label : String) (day : Int) (index : Nat) : List (String × Val) :=
  match lookup m "creation_time" with
  | some _ => m
  | none =>
    match labelTime label with
    | some t => m ++ [("creation_time", .time t)]
    | none => m ++ [("creation_time", .time (madeUpTime day index))]

/-- `metadata_yaml_from_prototype`, `vseqmetadata.py:79-136`: `archived` is the metadata file, if it is there. -/
def protoYaml (labelTime : String → Option Int) (archived : Option (List (String × Val))) (day : Int) (index : Nat) (base : String) :
    Except PyErr (List (String × Val)) :=
  match archived with
  | none => .error .value
  | some m =>
    match lookup m "label" with
    | some (.str label) =>
      let m1 := withTime labelTime m label day index
      match lookup m1 "files" with
      | some (.dict fs) =>
        match fillUrls base fs with
        | none => .error .key
        | some fs' => .ok (m1.map fun e => if e.1 = "files" then (e.1, .dict fs') else e)
      | _ => .ok m1
    | some _ => .error .attribute
    | none => .error .value

/-! ## Visits through the archive -/

/-- A file: an opsim database, an HDF5 store, or something else. -/
inductive FileC (T : Type)
  | db (t : Tables T)
  | store (t : Tables T)
  | other (t : T)
  deriving DecidableEq

/-- `SQLITE_EXTINSIONS` and the test with it, `vseqarchive.py:45,207,709`. -/
def sqliteSuffix (suffix : List Char) : Bool :=
  (suffix.map Char.toLower) ∈ [".db".toList, ".sqlite".toList, ".sqlite3".toList, ".db3".toList]

/-- `add_file` for visits, `vseqarchive.py:205-216`: the file that is in the archive.  A database without tables has no HDF5 file to read. -/
def archiveVisits {T : Type} (suffix : List Char) (f : FileC T) : Except PyErr (FileC T) :=
  if sqliteSuffix suffix then
    match f with
    | .db t =>
      match toHdf none t with
      | none => .error .notFound
      | some s => .ok (.store s)
    | _ => .error .value
  else .ok f

/-- `get_file` for visits, `vseqarchive.py:707-719`: the outcome and the destination afterwards. -/
def getVisits {T : Type} (archived : FileC T) (suffix : List Char) (dest : Option (FileC T)) : Except PyErr Unit × Option (FileC T) :=
  if sqliteSuffix suffix then
    match archived with
    | .store s =>
      match dest with
      | none => match fromHdf none s with
        | (.ok _, t) => (.ok (), some (.db t))
        | (.error _, t) => (.error .value, some (.db t))
      | some (.db o) => match fromHdf (some o) s with
        | (.ok _, t) => (.ok (), some (.db t))
        | (.error _, t) => (.error .value, some (.db t))
      | some f => (.error .value, some f)
    | _ => (.error .value, dest)
  else
    match dest with
    | some f => (.error .fileExists, some f)
    | none => (.ok (), some archived)

/-! ## Nights of the observation schedule -/

/-- A row of the almanac. -/
structure NightRow (K : Type) where
  night : Int
  sunset : K
  sunrise : K

section nights

variable {K : Type} [Field K] [LinearOrder K] [FloorRing K]

/-- `sim_archive.py:552-563`: the first and the last day; `none` is an exception for nights that are not in the almanac. -/
def tapDays (almanac : List (NightRow K)) (ref : K) (nights : Int) : Option (Int × Int) :=
  match (almanac.filter fun r => ref < r.sunset).map NightRow.night with
  | [] => none
  | n :: l =>
    let first := l.foldl min n
    match almanac.find? (fun r => r.night = first), almanac.find? (fun r => r.night = first + nights - 1) with
    | some a, some b => some (⌊a.sunset - 1 / 2⌋, ⌊b.sunrise - 1 / 2⌋)
    | _, _ => none

/-- The age of simulations that are considered, `sim_archive.py:566-572`. -/
def tapAge (now ref : K) (given : Option Int) : Int := given.getD (⌈now - ref⌉ + 1)

end nights

/-! ## Statistics of a night -/

/-- A value in the statistics: a dictionary, of which the count is kept, or something else. -/
inductive StatVal
  | dict (count : Option Int)
  | number (n : Int)
  deriving DecidableEq, Repr

/-- The loop over the values, `sim_archive.py:701-706`. -/
def firstCount : List (String × StatVal) → Option Int
  | [] => none
  | (_, .dict c) :: _ => c
  | (_, .number _) :: l => firstCount l

/-- `sim_archive.py:700-714`: `url` is whether the visits can be read, `onNight` how many of them are on the night. -/
def addNominal (stats : List (String × StatVal)) (url : Bool) (onNight : Nat) : List (String × StatVal) :=
  if (stats.lookup "nominal_visits").isSome then stats
  else
    match firstCount stats with
    | some c => put stats "nominal_visits" (.number c)
    | none => if url then put stats "nominal_visits" (.number onNight) else stats

/-- The statistics from the visits, `sim_archive.py:687-691`: a night without visits is a KeyError, and a single column gives a series, which has no
`set_index`. -/
def statsFromVisits {K : Type} [Field K] [LinearOrder K] [FloorRing K] (t : Visits K) (columns : List String) (day : Int) : Except PyErr (List (String × StatVal)) :=
  match nightlyStats t columns with
  | .error e => .error e
  | .ok rows =>
    match rows.filter fun r => r.day = day with
    | [] => .error .key
    | [_] => .error .attribute
    | l => .ok (l.map fun r => (r.name, .dict (some r.count)))

/-- `fetch_sim_stats_for_night`, `sim_archive.py:632-716`: `sim` is the simulation, if one is found, with the statistics that are recorded and whether it has a URL. -/
def fetchStats {K : Type} [Field K] [LinearOrder K] [FloorRing K] (sim : Option (List (String × StatVal) × Bool)) (t : Visits K) (columns : List String) (day : Int)
    (onNight : Nat) : Except PyErr (List (String × StatVal)) :=
  match sim with
  | none => .error .noMatch
  | some (recorded, url) =>
    if recorded = [] ∧ url = true then
      match statsFromVisits t columns day with
      | .error e => .error e
      | .ok s => .ok (addNominal s url onNight)
    else .ok (addNominal recorded url onNight)

end Verif.VsOps
