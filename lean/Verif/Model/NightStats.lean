import Mathlib.Data.List.Basic
import Verif.Model.Archive

/-!
# Model of `sims_on_night_with_stats`

`rubin_sim/sim_archive/vseqmetadata.py:1489-1574`, with the table `nightly_stats` of `sql/make_vseqmeta.sql:158-174`.
Rows of `simulations_extra`, `BETWEEN` and the parameters of a query are those of `Model/Archive.lean` (C28).

The numbers of a row of statistics are one value. `JSONB_OBJECT_AGG` keeps the last of several values of one key, in the
order in which the database goes through the rows, which is the order of the list here.
-/

namespace Verif.NightStats
open Verif.Archive

variable {U S : Type*}

/-- A row of `nightly_stats`. -/
structure StatRow (U S : Type*) where
  uuid : U
  day : Int
  name : String
  accumulated : Bool
  numbers : S

/-- The lines of `vseqmetadata.py:1526-1545`, without blanks before them. -/
def tmplTags : List String := [
  "WITH aggstats AS (",
  "SELECT",
  "visitseq_uuid,",
  "JSONB_OBJECT_AGG(",
  "value_name,",
  "TO_JSONB(ns) - 'value_name' - 'visitseq_uuid' - 'day_obs'",
  ") AS stats",
  "FROM {}.nightly_stats AS ns",
  "WHERE ns.day_obs = %s",
  "GROUP BY ns.visitseq_uuid",
  ")",
  "SELECT s.*, ns.stats",
  "FROM {}.simulations_extra AS s",
  "LEFT JOIN aggstats AS ns ON s.visitseq_uuid=ns.visitseq_uuid",
  "WHERE %s BETWEEN first_day_obs AND last_day_obs",
  "AND telescope = %s",
  "AND tags @> %s::JSONB",
  "AND creation_time >= NOW() - INTERVAL '%s days'"]

/-- The lines of `vseqmetadata.py:1548-1566`. -/
def tmplNoTags : List String := [
  "WITH aggstats AS (",
  "SELECT",
  "visitseq_uuid,",
  "JSONB_OBJECT_AGG(",
  "value_name,",
  "TO_JSONB(ns) - 'value_name' - 'visitseq_uuid' - 'day_obs'",
  ") AS stats",
  "FROM {}.nightly_stats AS ns",
  "WHERE ns.day_obs = %s",
  "GROUP BY ns.visitseq_uuid",
  ")",
  "SELECT s.*, ns.stats",
  "FROM {}.simulations_extra AS s",
  "LEFT JOIN aggstats AS ns ON s.visitseq_uuid=ns.visitseq_uuid",
  "WHERE %s BETWEEN first_day_obs AND last_day_obs",
  "AND telescope = %",
  "AND creation_time >= NOW() - INTERVAL '%s days'"]

/-- The number of parameters of the query with tags, `none` if it is not well-formed. -/
def paramsTags : Option Nat := formatParams (tmplTags.flatMap (fun l => l.toList ++ ['\n']))

/-- The number of parameters of the query without tags, `none` if it is not well-formed. -/
def paramsNoTags : Option Nat := formatParams (tmplNoTags.flatMap (fun l => l.toList ++ ['\n']))

/-- A key of a JSON object is set: an earlier value is replaced. -/
def setKey (o : List (String × (Bool × S))) (k : String) (v : Bool × S) : List (String × (Bool × S)) :=
  o.filter (fun e => decide (e.1 ≠ k)) ++ [(k, v)]

/-- `JSONB_OBJECT_AGG(value_name, TO_JSONB(ns) - ...)`, `vseqmetadata.py:1530-1533`: without the name, the sequence and
the night, the flag and the numbers are left. -/
def objectAgg (rows : List (StatRow U S)) : List (String × (Bool × S)) :=
  rows.foldl (fun o r => setKey o r.name (r.accumulated, r.numbers)) []

/-- The column `stats` of the `LEFT JOIN` (`vseqmetadata.py:1527-1540`): NULL for a sequence without rows that night. -/
def statsOf [DecidableEq U] (stats : List (StatRow U S)) (day : Int) (u : U) : Option (List (String × (Bool × S))) :=
  let rows := (stats.filter (fun r => decide (r.day = day))).filter (fun r => decide (r.uuid = u))
  if rows.isEmpty then none else some (objectAgg rows)

/-- `vseqmetadata.py:1518-1574`, after the default of the date is filled in; `now` in seconds. -/
def simsWithStats [DecidableEq U] (db : List (SimRow U)) (stats : List (StatRow U S)) (now day : Int)
    (tags : List String) (telescope : String) (maxAge : Int) :
    Except SimsErr (List (SimRow U × Option (List (String × (Bool × S))))) :=
  let base (s : SimRow U) : Bool :=
    between day s.first s.last && decide (s.telescope = telescope) && decide (now - maxAge * 86400 ≤ s.created)
  let join (l : List (SimRow U)) := l.map (fun s => (s, statsOf stats day s.uuid))
  if tags.length > 0 then
    if paramsTags = some 5 then
      .ok (join (db.filter (fun s => base s && tags.all (fun t => decide (t ∈ s.tags)))))
    else .error .badFormat
  else
    if paramsNoTags = some 4 then .ok (join (db.filter base)) else .error .badFormat

end Verif.NightStats
