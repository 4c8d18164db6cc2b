import Mathlib.Data.List.Basic
import Mathlib.Logic.Function.Basic

/-!
# Model of the visit sequence archive

* `rubin_sim/sim_archive/vseqmetadata.py`
* `rubin_sim/sim_archive/vseqarchive.py` (`add_file` 158-220)
* `sql/make_vseqmeta.sql`

Tables are lists of rows; each call of `VisitSequenceArchiveMetadata.query` is one
transaction (`vseqmetadata.py:229-294`). UUIDs, hashes, URLs are opaque types.
-/

namespace Verif.Archive

section Tags
variable {U T : Type*} [DecidableEq U] [DecidableEq T]

/-- `vseqmetadata.py:946-967` (`COUNT(*) >= 1`). -/
def isTagged (rows : List (U × T)) (u : U) (t : T) : Bool := decide (1 ≤ rows.count (u, t))

/-- One round of the loop in `tag` (`vseqmetadata.py:983-986`). -/
def tagOne (rows : List (U × T)) (u : U) (t : T) : List (U × T) :=
  if isTagged rows u t then rows else rows ++ [(u, t)]

/-- `vseqmetadata.py:969-986`. -/
def tag (rows : List (U × T)) (u : U) (ts : List T) : List (U × T) :=
  ts.foldl (fun r t => tagOne r u t) rows

/-- `vseqmetadata.py:988-1012`: `none` is the ValueError. -/
def untag (rows : List (U × T)) (u : U) (t : T) : Option (List (U × T)) :=
  if isTagged rows u t then some (rows.filter (fun r => decide (r ≠ (u, t)))) else none

inductive TagOp (U T : Type*)
  | tag (u : U) (ts : List T)
  | untag (u : U) (t : T)

/-- A client's call; a failing one changes nothing. -/
def TagOp.apply (rows : List (U × T)) : TagOp U T → List (U × T)
  | .tag u ts => Verif.Archive.tag rows u ts
  | .untag u t => (Verif.Archive.untag rows u t).getD rows

/-- What a client that has done its check is about to do. -/
inductive Pend (U T : Type*)
  | ins (u : U) (t : T)
  | del (u : U) (t : T)
  deriving DecidableEq

/-- The shared table and the clients' pending second transactions. -/
structure Conc (U T : Type*) where
  rows : List (U × T)
  pend : Nat → Option (Pend U T)

/-- A transaction of some client: the check of `tag`, the check of `untag`, or its
pending write. -/
inductive Act (U T : Type*)
  | checkTag (c : Nat) (u : U) (t : T)
  | checkUntag (c : Nat) (u : U) (t : T)
  | write (c : Nat)

/-- The table has no uniqueness constraint (`make_vseqmeta.sql:47-50`), so the
insertion always succeeds. -/
def Conc.step (s : Conc U T) : Act U T → Conc U T
  | .checkTag c u t =>
    ⟨s.rows, Function.update s.pend c (if isTagged s.rows u t then none else some (.ins u t))⟩
  | .checkUntag c u t =>
    ⟨s.rows, Function.update s.pend c (if isTagged s.rows u t then some (.del u t) else none)⟩
  | .write c =>
    match s.pend c with
    | some (.ins u t) => ⟨s.rows ++ [(u, t)], Function.update s.pend c none⟩
    | some (.del u t) => ⟨s.rows.filter (fun r => decide (r ≠ (u, t))), Function.update s.pend c none⟩
    | none => s

def Conc.run (s : Conc U T) (acts : List (Act U T)) : Conc U T := acts.foldl Conc.step s

end Tags

section Files
variable {U H L : Type*} [DecidableEq U]

/-- `make_vseqmeta.sql:63-69`. -/
structure FileRow (U H L : Type*) where
  uuid : U
  ftype : String
  sha : H
  url : L
  deriving DecidableEq

inductive FileErr
  | visitsNotAllowed
  | exists_
  | notFound
  | tooMany
  deriving DecidableEq

def matching (rows : List (FileRow U H L)) (u : U) (f : String) : List (FileRow U H L) :=
  rows.filter (fun r => decide (r.uuid = u ∧ r.ftype = f))

/-- `vseqmetadata.py:1188-1223`, for types other than "visits". -/
def getFileUrl (rows : List (FileRow U H L)) (u : U) (f : String) : Except FileErr L :=
  match matching rows u f with
  | [] => .error .notFound
  | [r] => .ok r.url
  | _ :: _ :: _ => .error .tooMany

/-- `vseqmetadata.py:1225-1256`. -/
def getFileSha (rows : List (FileRow U H L)) (u : U) (f : String) : Except FileErr H :=
  match matching rows u f with
  | [] => .error .notFound
  | [r] => .ok r.sha
  | _ :: _ :: _ => .error .tooMany

/-- `vseqmetadata.py:1096-1186`. The primary key makes the insertion fail if the
row exists; that case does not arise, since `getFileUrl` is asked first. -/
def registerFile (rows : List (FileRow U H L)) (u : U) (f : String) (sha : H) (url : L) (update : Bool) :
    Except FileErr (List (FileRow U H L)) :=
  if f = "visits" then .error .visitsNotAllowed
  else
    match getFileUrl rows u f with
    | .ok _ =>
      if update then
        .ok (rows.map (fun r => if r.uuid = u ∧ r.ftype = f then { r with sha := sha, url := url } else r))
      else .error .exists_
    | .error _ => .ok (rows ++ [⟨u, f, sha, url⟩])

/-- Arguments of a `register_file` call. -/
structure RegCall (U H L : Type*) where
  uuid : U
  ftype : String
  sha : H
  url : L
  update : Bool

def RegCall.apply (rows : List (FileRow U H L)) (c : RegCall U H L) : List (FileRow U H L) :=
  match registerFile rows c.uuid c.ftype c.sha c.url c.update with
  | .ok r => r
  | .error _ => rows

end Files

section Store
variable {U H C : Type*} [DecidableEq U]

/-- The archive: the file store (by sequence directory and file name), the `files`
table and the `visitseq_url` column. The directory of a sequence ends in its uuid
(`vseqarchive.py:90-124`), so a location is a pair (uuid, file name). -/
structure Arch (U H C : Type*) where
  store : U × String → Option C
  files : List (FileRow U H (U × String))
  visitsUrl : U → Option (U × String)

/-- A call of `add_file`; `crash` stops it after the write to the file store. -/
structure AddCall (U C : Type*) where
  uuid : U
  name : String
  content : C
  ftype : String
  update : Bool
  crash : Bool

/-- `vseqarchive.py:158-220` (not modelled: conversion of sqlite visit files). The
boolean tells whether the call succeeded. -/
def addFile (hash : C → H) (a : Arch U H C) (c : AddCall U C) : Arch U H C × Bool :=
  let loc := (c.uuid, c.name)
  let store := Function.update a.store loc (some c.content)
  if c.crash then (⟨store, a.files, a.visitsUrl⟩, false)
  else if c.ftype = "visits" then (⟨store, a.files, Function.update a.visitsUrl c.uuid (some loc)⟩, true)
  else
    match registerFile a.files c.uuid c.ftype (hash c.content) loc c.update with
    | .ok r => (⟨store, r, a.visitsUrl⟩, true)
    | .error _ => (⟨store, a.files, a.visitsUrl⟩, false)

def Arch.empty : Arch U H C := ⟨fun _ => none, [], fun _ => none⟩

def runAdds (hash : C → H) (a : Arch U H C) (cs : List (AddCall U C)) : Arch U H C :=
  cs.foldl (fun a c => (addFile hash a c).1) a

end Store

section Conda
variable {H J : Type*} [DecidableEq H]

inductive CondaErr
  | valueError
  | assertionError
  deriving DecidableEq

/-- Python's `conda_env_hash is None != conda_env_json is None`, a chained
comparison: `(hash is None) and (None != json) and (json is None)`
(`vseqmetadata.py:1369`). -/
def condaGuard (h : Option H) (j : Option J) : Bool := h.isNone && (!j.isNone && j.isNone)

/-- `vseqmetadata.py:1353-1389`; `current` is the result of `compute_conda_env`. -/
def recordCondaEnv (current : H × J) (table : List (H × J)) (h : Option H) (j : Option J) :
    Except CondaErr (List (H × J) × H) :=
  if condaGuard h j then .error .valueError
  else
    let h' := match h with
      | none => some current.1
      | some x => some x
    let j' := match h with
      | none => some current.2
      | some _ => j
    match h', j' with
    | some x, some y =>
      if table.any (fun r => decide (r.1 = x)) then .ok (table, x) else .ok (table ++ [(x, y)], x)
    | _, _ => .error .assertionError

end Conda

section Nights

/-- The columns of `simulations_extra` used by the queries. Days and times are
integers (days; seconds). -/
structure SimRow (U : Type*) where
  uuid : U
  first : Option Int
  last : Option Int
  telescope : String
  tags : List String
  created : Int
  deriving DecidableEq

variable {U : Type*}

/-- Result of client-side parameter substitution (psycopg2): each `%s` consumes a
parameter, `%%` is a percent sign, anything else after `%` is an error. Returns the
number of parameters consumed. -/
def formatParams : List Char → Option Nat
  | [] => some 0
  | '%' :: 's' :: cs => (formatParams cs).map (· + 1)
  | '%' :: '%' :: cs => formatParams cs
  | '%' :: _ => none
  | _ :: cs => formatParams cs

/-- `vseqmetadata.py:1461-1469`. -/
def tmplTags : String := "
            SELECT *
            FROM {}.simulations_extra AS s
            WHERE %s BETWEEN first_day_obs AND last_day_obs
                AND %s BETWEEN first_day_obs AND last_day_obs
                AND telescope = %s
                AND tags @> %s::JSONB
                AND creation_time >= NOW() - INTERVAL '%s days'
            "

/-- `vseqmetadata.py:1472-1479`. -/
def tmplNoTags : String := "
            SELECT *
            FROM {}.simulations_extra AS s
            WHERE %s BETWEEN first_day_obs AND last_day_obs
                AND %s BETWEEN first_day_obs AND last_day_obs
                AND telescope = %
                AND creation_time >= NOW() - INTERVAL '%s days'
            "

/-- SQL `d BETWEEN f AND l`; NULL is not true. -/
def between (d : Int) (f l : Option Int) : Bool :=
  match f, l with
  | some f, some l => decide (f ≤ d) && decide (d ≤ l)
  | _, _ => false

inductive SimsErr
  | badFormat
  deriving DecidableEq

/-- `vseqmetadata.py:1410-1487`, after the defaults of the dates are filled in;
`now` in seconds. -/
def simsOnNights (db : List (SimRow U)) (now d1 d2 : Int) (tags : List String) (telescope : String)
    (maxAge : Int) : Except SimsErr (List (SimRow U)) :=
  let base (s : SimRow U) : Bool :=
    between d1 s.first s.last && between d2 s.first s.last && decide (s.telescope = telescope) &&
      decide (now - maxAge * 86400 ≤ s.created)
  if tags.length > 0 then
    if formatParams tmplTags.toList = some 5 then
      .ok (db.filter (fun s => base s && tags.all (fun t => decide (t ∈ s.tags))))
    else .error .badFormat
  else
    if formatParams tmplNoTags.toList = some 4 then .ok (db.filter base) else .error .badFormat

/-- `make_vseqmeta.sql:75`: `DATE(creation_time - INTERVAL '12 hours')`, as a day
number (session time zone UTC). -/
def creationDay (t : Int) : Int := (t - 43200).fdiv 86400

/-- `make_vseqmeta.sql:76`: `ROW_NUMBER() OVER (PARTITION BY day ORDER BY time)`,
given the order `sorted` in which the database went through the rows: each row
with one more than the number of earlier rows of the same day. -/
def withDailyIds : List (U × Int) → List (U × Int) → List (U × Int × Nat)
  | _, [] => []
  | seen, (u, t) :: rest =>
    (u, creationDay t, seen.countP (fun r => decide (creationDay r.2 = creationDay t)) + 1) ::
      withDailyIds (seen ++ [(u, t)]) rest

/-- `vseqmetadata.py:1749-1788`: `none` is the ValueError; the inner `Option` is
`none` for the failing assertion on several rows. -/
def getSimUuid (view : List (U × Int × Nat)) (day : Int) (id : Nat) : Option (Option U) :=
  match view.filter (fun r => decide (r.2.1 = day ∧ r.2.2 = id)) with
  | [] => none
  | [r] => some (some r.1)
  | _ :: _ :: _ => some none

end Nights

section Yaml

/-- The part of YAML used for simulation metadata. Dates and times are integers. -/
inductive Val
  | str (s : String)
  | time (t : Int)
  | list (l : List String)
  | dict (d : List (String × Val))

/-- Python `d[key]` / `key in d`. -/
def lookup (d : List (String × Val)) (k : String) : Option Val := (d.find? (fun e => e.1 == k)).map Prod.snd

/-- What `simulations_extra` holds on a simulation (`files` by type). -/
structure SimMeta where
  uuid : String
  label : String
  telescope : String
  tags : List String
  version : Option String
  created : Int
  first : Option Int
  last : Option Int
  files : List (String × String)

/-- `vseqmetadata.py:1690-1732`. -/
def exportYaml (m : SimMeta) : List (String × Val) :=
  [("uuid", .str m.uuid), ("label", .str m.label), ("telescope", .str m.telescope), ("tags", .list m.tags)] ++
  (match m.version with
    | some v => [("scheduler_version", .str v)]
    | none => []) ++
  [("creation_time", .time m.created)] ++
  (if m.first.isSome || m.last.isSome then
    [("simulation_dates", .dict (
      (match m.first with | some d => [("first", .time d)] | none => []) ++
      (match m.last with | some d => [("last", .time d)] | none => [])))]
   else []) ++
  [("files", .dict (m.files.map (fun f => (f.1, .dict [("url", .str f.2)]))))]

inductive YamlErr
  | noLabel
  | noObservations
  deriving DecidableEq

/-- What is recorded by an import. -/
structure Imported where
  label : String
  telescope : String
  tags : List String
  version : Option String
  created : Option Int
  first : Option Int
  last : Option Int
  files : List String

/-- `d["simulated_dates"][side]`, `none` on KeyError. -/
def dateOf (d : List (String × Val)) (key side : String) : Option Int :=
  match lookup d key with
  | some (.dict e) =>
    match lookup e side with
    | some (.time t) => some t
    | _ => none
  | _ => none

/-- `vseqmetadata.py:1576-1650`. `labelTime` is the time read from the end of a
label ("... run at <time>"), if any. `created = none` lets the database use the
present time. Types of values are those written by the export. -/
def importYaml (labelTime : String → Option Int) (d : List (String × Val)) : Except YamlErr Imported :=
  match lookup d "label" with
  | some (.str label) =>
    match lookup d "files" with
    | some (.dict files) =>
      match lookup files "observations" with
      | some _ =>
        .ok { label := label
              telescope := match lookup d "telescope" with | some (.str t) => t | _ => "simonyi"
              tags := match lookup d "tags" with | some (.list l) => l | _ => []
              version := match lookup d "scheduler_version" with | some (.str v) => some v | _ => none
              created := labelTime label
              first := dateOf d "simulated_dates" "first"
              last := dateOf d "simulated_dates" "last"
              files := files.map Prod.fst }
      | none => .error .noObservations
    | _ => .error .noObservations
  | _ => .error .noLabel

end Yaml

section Prenight
variable {U : Type*}

/-- A row of the prenight index. -/
structure Prenight (U : Type*) where
  uuid : U
  tags : List String
  created : Int
  deriving DecidableEq

/-- `Timedelta.days`: whole days, rounded down. -/
def ageDays (now created : Int) : Int := (now - created).fdiv 86400

/-- The loop body of `select_latest_prenight_sim`, `prenightindex.py:445-457`. Each
row is paired with the clock reading used for it. -/
def selectStep (tags : List String) (maxAge : Int) (best : Option (Prenight U)) (e : Prenight U × Int) :
    Option (Prenight U) :=
  if ¬ (tags.all (fun t => decide (t ∈ e.1.tags)) = true) then best
  else if (match best with | some b => decide (e.1.created < b.created) | none => false) = true then best
  else if ageDays e.2 e.1.created > maxAge then best
  else some e.1

/-- `prenightindex.py:421-464`. -/
def selectLatest (tags : List String) (maxAge : Int) (rows : List (Prenight U × Int)) : Option (Prenight U) :=
  rows.foldl (selectStep tags maxAge) none

/-- An index table as returned by `get_prenight_index` (143-191): the empty
`DataFrame()` of the double fallback has no columns. -/
inductive Index (U : Type*)
  | noColumns
  | rows (l : List (U × Int × Nat))

inductive UuidErr
  | attributeError
  | assertionError
  | valueError
  deriving DecidableEq

/-- `prenightindex.py:292-306`: the loop over telescopes. -/
def uuidLoop (day : Int) (id : Nat) : Option U → List (Index U) → Except UuidErr (Option U)
  | cur, [] => .ok cur
  | _, .noColumns :: _ => .error .attributeError
  | cur, .rows l :: rest =>
    match l.filter (fun r => decide (r.2.1 = day ∧ r.2.2 = id)) with
    | [] => uuidLoop day id cur rest
    | [r] => uuidLoop day id (some r.1) rest
    | _ :: _ :: _ => .error .assertionError

/-- `prenightindex.py:250-306`. -/
def getSimUuidIndex (day : Int) (id : Nat) (indexes : List (Index U)) : Except UuidErr U :=
  match uuidLoop day id none indexes with
  | .ok (some u) => .ok u
  | .ok none => .error .valueError
  | .error e => .error e

end Prenight

section Tables
variable {U L : Type*} [DecidableEq U]

/-- The tables a sequence may be recorded in. -/
inductive Tbl
  | mixed
  | completed
  | simulations
  | visitseq
  deriving DecidableEq

/-- A recorded sequence: its own table, uuid, url. -/
structure SeqRow (U L : Type*) where
  tbl : Tbl
  uuid : U
  url : Option L
  deriving DecidableEq

/-- PostgreSQL inheritance (`make_vseqmeta.sql:16-37`): a query on `visitseq` sees
the rows of its child tables as well. -/
def inTable (t : Tbl) (r : SeqRow U L) : Bool := decide (t = .visitseq) || decide (r.tbl = t)

/-- `vseqmetadata.py:1391-1408`. -/
def findTable (rows : List (SeqRow U L)) (u : U) : Option Tbl :=
  [Tbl.mixed, .completed, .simulations, .visitseq].find?
    (fun t => decide (0 < rows.countP (fun r => inTable t r && decide (r.uuid = u))))

/-- `vseqmetadata.py:531-555`: `none` is the ValueError of `_find_visitseq_table`. -/
def setUrl (rows : List (SeqRow U L)) (u : U) (url : L) : Option (List (SeqRow U L)) :=
  match findTable rows u with
  | none => none
  | some t => some (rows.map (fun r => if inTable t r && decide (r.uuid = u) then { r with url := some url } else r))

/-- `vseqmetadata.py:557-584`: outer `none` is an exception. -/
def getUrl (rows : List (SeqRow U L)) (u : U) : Option (Option L) :=
  match rows.filter (fun r => inTable .visitseq r && decide (r.uuid = u)) with
  | [r] => some r.url
  | _ => none

/-- `vseqmetadata.py:443-492`: insertion under a new random uuid. -/
def recordSeq (rows : List (SeqRow U L)) (t : Tbl) (u : U) (url : Option L) : List (SeqRow U L) :=
  rows ++ [⟨t, u, url⟩]

end Tables

section Record
variable {U V : Type*} [DecidableEq U]

/-- A row of `simulations`: uuid, label, and the columns set by the second
transaction of `record_simulation_metadata`. -/
structure SimRec (U V : Type*) where
  uuid : U
  label : String
  extra : Option V

/-- `vseqmetadata.py:640-735`: `updateOk = false` when the second transaction raises
(bad value, lost connection). Returns the table and whether the call returned. -/
def recordSim (rows : List (SimRec U V)) (u : U) (label : String) (extra : Option V) (updateOk : Bool) :
    List (SimRec U V) × Bool :=
  let rows1 := rows ++ [⟨u, label, none⟩]
  match extra with
  | none => (rows1, true)
  | some v =>
    if updateOk then (rows1.map (fun r => if r.uuid = u then { r with extra := some v } else r), true)
    else (rows1, false)

end Record

end Verif.Archive
