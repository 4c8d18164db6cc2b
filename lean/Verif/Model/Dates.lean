import Mathlib.Algebra.Order.Floor.Ring
import Mathlib.Algebra.Order.Field.Basic
import Mathlib.Data.List.Basic
import Verif.Model.Archive

/-!
# Model of date handling in `rubin_sim/sim_archive` and `maf/stackers/date_stackers.py`

Times are elements of an ordered field with a floor (MJD in days, UTC, no leap
seconds, no rounding). Strings are lists of characters. The calendar that turns day
numbers into dates (astropy, pandas, datetime) is an arbitrary function.
-/

namespace Verif.Dates

/-- `datetime.date` -/
structure Date where
  year : Nat
  month : Nat
  day : Nat
  deriving DecidableEq

/-- Days in a month of the proleptic Gregorian calendar. -/
def daysIn (y m : Nat) : Nat :=
  if m = 2 then (if y % 4 = 0 ∧ (y % 100 ≠ 0 ∨ y % 400 = 0) then 29 else 28)
  else if m = 4 ∨ m = 6 ∨ m = 9 ∨ m = 11 then 30 else 31

/-- The check in the constructor of `datetime.date`. -/
def mkDate (y m d : Int) : Option Date :=
  if 1 ≤ y ∧ y ≤ 9999 ∧ 1 ≤ m ∧ m ≤ 12 ∧ 1 ≤ d ∧ d ≤ (daysIn y.toNat m.toNat : Int) then
    some ⟨y.toNat, m.toNat, d.toNat⟩
  else none

/-- `dayobs_to_date` for integers, `util.py:27-31`; `none` is `ValueError`. Python's
`//` and `%` round down. -/
def decodeInt (n : Int) : Option Date := mkDate (n / 10000) (n / 100 % 100) (n % 100)

def chr (k : Nat) : Char := Char.ofNat (48 + k)

/-- A digit, as read by `int` on ASCII characters. -/
def digit (c : Char) : Option Nat := if 48 ≤ c.toNat ∧ c.toNat ≤ 57 then some (c.toNat - 48) else none

def pad2 (n : Nat) : List Char := [chr (n / 10 % 10), chr (n % 10)]
def pad4 (n : Nat) : List Char := [chr (n / 1000 % 10), chr (n / 100 % 10), chr (n / 10 % 10), chr (n % 10)]

/-- `date.isoformat()` -/
def iso (d : Date) : List Char := pad4 d.year ++ '-' :: (pad2 d.month ++ '-' :: pad2 d.day)

/-- `isoformat().replace("-", "")`, as in `_compute_day_obs_int` (`date_stackers.py`). -/
def compact (d : Date) : List Char := pad4 d.year ++ (pad2 d.month ++ pad2 d.day)

def digits : List Char → Option Nat
  | [] => some 0
  | s => s.foldl (fun acc c => match acc, digit c with
      | some a, some k => some (10 * a + k)
      | _, _ => none) (some 0)

/-- `datetime.fromisoformat(s).date()` for the two calendar forms without time,
`YYYY-MM-DD` and `YYYYMMDD` (`util.py:32-33`). Other forms are not modelled. -/
def fromIso (s : List Char) : Option Date :=
  match s with
  | [a, b, c, d, '-', e, f, '-', g, h] =>
    match digits [a, b, c, d], digits [e, f], digits [g, h] with
    | some y, some m, some dd => mkDate y m dd
    | _, _, _ => none
  | [a, b, c, d, e, f, g, h] =>
    match digits [a, b, c, d], digits [e, f], digits [g, h] with
    | some y, some m, some dd => mkDate y m dd
    | _, _, _ => none
  | _ => none

/-- Python's `a <= b` on strings. -/
def strLe : List Char → List Char → Bool
  | [], _ => true
  | _ :: _, [] => false
  | a :: s, b :: t => decide (a.toNat < b.toNat) || (decide (a.toNat = b.toNat) && strLe s t)

section Times
variable {K : Type*} [Field K] [LinearOrder K] [FloorRing K]

/-! Day numbers are MJDs of midnights. -/

/-- `_compute_day_obs_mjd` (`date_stackers.py`), and `convert_mjd_to_dayobs` in
`make_sim_data_dir` (`sim_archive.py:145-150`). -/
def dayObsMjd (mjd : K) : Int := ⌊mjd - 1 / 2⌋

/-- `dayobs_to_date` for a `Time`: the date in the time zone UTC-12h (`util.py:34-44`). -/
def dayObsTime (mjd : K) : Int := ⌊mjd + (-12) / 24⌋

/-- `compute_nightly_stats`, `vseqarchive.py:67-68`: `pd.to_datetime(mjd + 2400000,
unit="D", origin="julian")` subtracts the Julian date 2440587.5 of the Unix epoch; the
date is the day number since the epoch, whose MJD is 40587. -/
def dayObsStats (mjd : K) : Int := ⌊(mjd + 2400000) - (2440587 + 1 / 2)⌋ + 40587

/-- `compute_sim_start_and_end`, `prenight.py:260-264`: Dublin Julian Date of a sunset;
the day zero 1899-12-31 has MJD 15019. -/
def dayObsDjd (mjd : K) : Int := ⌊mjd - (15019 + 1 / 2)⌋ + 15019

/-- `fetch_obsloctap_visits`, `sim_archive.py:560-563`: the date part of
`Time(mjd - 0.5).iso`. -/
def dayObsIsoPart (mjd : K) : Int := ⌊mjd - 1 / 2⌋

/-- `make_sim_data_dir`, `sim_archive.py:159-169`: first and last simulated day. -/
inductive SimArgs (K : Type*)
  | startOnly (start : K)
  | startDuration (start duration : K)
  | fromVisits (mn mx : K)

def simulatedDates : SimArgs K → Int × Option Int
  | .startOnly s => (dayObsMjd s, none)
  | .startDuration s d => (dayObsMjd s, some (dayObsMjd (s + d - 1)))
  | .fromVisits mn mx => (dayObsMjd mn, some (dayObsMjd mx))

/-- A row of `Almanac().sunsets`. -/
structure Night (K : Type*) where
  sunset : K
  n12 : K
  sunrise : K
  deriving DecidableEq

/-- Indexing with Python semantics: negative indices count from the end. -/
def pyGet {α : Type*} (l : List α) (i : Int) : Option α :=
  if 0 ≤ i then l[i.toNat]? else if -(l.length : Int) ≤ i then l[((l.length : Int) + i).toNat]? else none

inductive StartErr
  | indexError
  | assertion
  deriving DecidableEq

/-- `compute_sim_start_and_end`, `prenight.py:235-273`; `day` is the MJD of the date
`dayobs_to_date(day_obs)`. -/
def simStartEnd [IsStrictOrderedRing K] (nights : List (Night K)) (day : Int) (n : Int) (delay : K) :
    Except StartErr (K × K) :=
  match nights with
  | [] => .error .indexError
  | n0 :: _ =>
    let night0 := ⌊n0.sunset - (15019 + 1 / 2)⌋
    let startNight := (day - 15019) - night0
    match pyGet nights startNight with
    | none => .error .indexError
    | some a =>
      let start := a.n12 + delay / (24 * 60)
      match pyGet nights (startNight + n - 1) with
      | none => .error .indexError
      | some b =>
        let duration := b.sunrise - start
        if ⌈duration⌉ = n then .ok (start, duration) else .error .assertion

/-- The selection of visits at the end of `fetch_sim_for_nights`,
`sim_archive.py:493-496`; `cal` turns day numbers into dates. -/
def onNights (cal : Int → Date) (first last : List Char) (visits : List K) : List K :=
  visits.filter (fun t => strLe first (iso (cal (dayObsMjd t))) && strLe (iso (cal (dayObsMjd t))) last)

end Times

/-! ## The stackers argument of `fetch_sim_for_nights` -/

/-- Stackers, as far as they matter here: the day-of-observation one and others, named
by the column they add. -/
inductive Stk
  | dayObsIso
  | other (col : String)
  deriving DecidableEq

/-- The argument `stackers`. -/
inductive StkArg
  | list (l : List Stk)
  | tuple (l : List Stk)
  deriving DecidableEq

def StkArg.items : StkArg → List Stk
  | .list l => l
  | .tuple l => l

def colOf : Stk → String
  | .dayObsIso => "day_obs_iso8601"
  | .other c => c

/-- The caller's arguments: `stackers`, and `get_sim_data_kwargs` (if given, with its
entry `"stackers"`, if any). -/
structure FetchArgs where
  stackers : StkArg
  kw : Option (Option (List Stk))
  deriving DecidableEq

/-- Columns requested through a list of stackers, lines 476-480 and 497-499. -/
def fetchedCols (l : List Stk) : List String :=
  if Stk.dayObsIso ∈ l then l.map colOf
  else ((l ++ [Stk.dayObsIso]).map colOf).filter (fun c => decide (c ≠ "day_obs_iso8601"))

/-- The list after `stackers.append(maf.DayObsISOStacker())`. -/
def withIso (l : List Stk) : List Stk := if Stk.dayObsIso ∈ l then l else l ++ [.dayObsIso]

/-- Entry set by `get_sim_data_kwargs["stackers"] = stackers`, lines 482-487, for an
opsim database; a missing dictionary is replaced by a new one. -/
def setKw (isDb : Bool) (kw : Option (Option (List Stk))) (l : List Stk) : Option (Option (List Stk)) :=
  match kw with
  | none => none
  | some e => if isDb then some (some l) else some e

/-- `fetch_sim_for_nights`, lines 468-500, as far as columns are concerned: the columns
the result has beyond those of the file, and the caller's arguments afterwards. `none`
is `AssertionError`. -/
def fetchCols (isDb : Bool) (a : FetchArgs) : Option (List String × FetchArgs) :=
  if a.stackers.items = [] then
    match a.kw with
    | some (some l) => some (fetchedCols l, ⟨a.stackers, some (some (withIso l))⟩)
    | kw => some (fetchedCols [], ⟨a.stackers, setKw isDb kw (withIso [])⟩)
  else
    match a.stackers with
    | .tuple _ => none
    | .list l => some (fetchedCols l, ⟨.list (withIso l), setKw isDb a.kw (withIso l)⟩)

/-! ## Choosing a simulation for a range of nights -/

section Find
variable {U : Type*} [DecidableEq U]

/-- `find_latest_prenight_sim_for_nights`, `sim_archive.py:327-393`. `index d` is the
prenight index of day `d` (with the clock reading at each row), `enum` the enumeration
of the Python set of common uuids. `none` is `NoMatchingSimulationsFoundError`. -/
def findLatest (index : Int → List (Archive.Prenight U × Int)) (enum : List U → List U) (first last : Int)
    (tags : List String) (maxAge : Int) : Option (Archive.Prenight U) :=
  let a := index first
  let common := if first ≠ last then
      (a.map (fun e => e.1.uuid)).filter (fun u => decide (u ∈ (index last).map (fun e => e.1.uuid)))
    else a.map (fun e => e.1.uuid)
  let order := enum common
  Archive.selectLatest tags maxAge (order.flatMap (fun u => a.filter (fun e => decide (e.1.uuid = u))))

end Find

end Verif.Dates
