import Mathlib.Algebra.Order.Field.Basic
import Mathlib.Algebra.Order.Floor.Defs
import Mathlib.Data.List.Basic

/-!
# Model of stackers

* `rubin_sim/maf/stackers/base_stacker.py` (`_add_stacker_cols`, `run`);
* `general_stackers.py`: zenith distance, hour angle, parallactic angle,
  overhead, saturation, note root;
* `n_follow_stacker.py`.

A table is a list of named columns. Not modelled: dtypes, the `TypeError`
fallback for old-style stackers, warnings, pandas input.
-/

namespace Verif.Stackers

/-- A structured array: number of rows and named columns in order. -/
structure Table (V : Type*) where
  nrows : Nat
  cols : List (String × List V)

namespace Table
variable {V : Type*}

/-- `sim_data.dtype.names` -/
def names (t : Table V) : List String := t.cols.map Prod.fst

/-- `sim_data[name]` (reading) -/
def get? (t : Table V) (name : String) : Option (List V) :=
  (t.cols.find? (fun c => c.1 == name)).map Prod.snd

/-- `sim_data[name] = vals` for an existing column (no effect otherwise; numpy
raises an error there). -/
def set (t : Table V) (name : String) (vals : List V) : Table V :=
  { t with cols := t.cols.map (fun c => if c.1 == name then (c.1, vals) else c) }

end Table

section Base
variable {V : Type*}

/-- A stacker class: `cols_added` and its `_run(sim_data, cols_present)`. -/
structure Stacker (V : Type*) where
  colsAdded : List String
  body : Table V → Bool → Table V

/-- `base_stacker.py:122-155`. `fresh` is the content of `np.empty`, `isNone`
tests `sim_data[col][0] is not None`. -/
def addStackerCols (fresh : String → List V) (isNone : V → Bool) (added : List String) (t : Table V) :
    Table V × Bool :=
  let newCols := added.filter (fun c => !t.names.contains c)
  let t' : Table V := { t with cols := t.cols ++ newCols.map (fun c => (c, fresh c)) }
  let present := added.all (fun c => match t.get? c with
    | some (v :: _) => !isNone v
    | _ => false)
  (t', present)

/-- `base_stacker.py:157-191`. -/
def Stacker.run (s : Stacker V) (fresh : String → List V) (isNone : V → Bool) (override : Bool)
    (t : Table V) : Table V :=
  if t.nrows = 0 then t
  else
    let r := addStackerCols fresh isNone s.colsAdded t
    s.body r.1 (if override then false else r.2)

end Base

section General
variable {K : Type*} [Field K] [LinearOrder K] [IsStrictOrderedRing K]

/-- A stacker that computes one new column row by row from other columns; used
for the concrete stackers below. `_run` returns at once if the column is there. -/
def rowStacker {V : Type*} (name : String) (f : Table V → List V) : Stacker V where
  colsAdded := [name]
  body t present := if present then t else t.set name (f t)

/-- `general_stackers.py:284-294` (`degrees=True`): `90 - altitude`. -/
def zenithStacker (altCol : String) : Stacker K :=
  rowStacker "zenithDistance" (fun t => ((t.get? altCol).getD []).map (fun a => 90 - a))

/-- `general_stackers.py:673-699` for one visit: `lst` and `ra` in radians, result
in hours. -/
def hourAngle (pi lst ra : K) : K :=
  let ha := lst - ra
  let ha := if ha < -pi then ha + 2 * pi else ha
  let ha := if ha > pi then ha - 2 * pi else ha
  ha * 12 / pi

/-- `general_stackers.py:682-684`: `np.radians`. -/
def radians (pi deg : K) : K := deg * pi / 180

/-- `general_stackers.py:650-699` with `degrees=True`. -/
def haStacker (pi : K) (lstCol raCol : String) : Stacker K :=
  rowStacker "HA" (fun t => List.zipWith (fun l r => hourAngle pi (radians pi l) (radians pi r))
    ((t.get? lstCol).getD []) ((t.get? raCol).getD []))

/-- `general_stackers.py:702-769`. The nested hour angle stacker is run with its
`run` method (no override) on the table. `pa ha dec` is the `arctan2` formula. -/
def paStacker (pi : K) (fresh : String → List K) (isNone : K → Bool) (pa : K → K → K)
    (lstCol raCol decCol : String) : Stacker K where
  colsAdded := ["PA"]
  body t present :=
    if present then t
    else
      let t := (haStacker pi lstCol raCol).run fresh isNone false t
      t.set "PA" (List.zipWith pa ((t.get? "HA").getD []) ((t.get? decCol).getD []))

/-- One visit of the overhead computation; `dayObs` is the value of the
`day_obs_mjd` column. -/
structure OverheadRow (K : Type*) where
  mjd : K
  visitTime : K
  expTime : K
  dayObs : Int

/-- `general_stackers.py:813-849`. `none` is NaN; `maxGap = none` is infinity
(minutes). -/
def overheadAux (maxGap : Option K) (prev : OverheadRow K) : List (OverheadRow K) → List (Option K)
  | [] => []
  | r :: rs =>
    let end_ (x : OverheadRow K) := x.mjd + x.visitTime / (24 * 60 * 60)
    let o := (end_ r - end_ prev) * 24 * 60 * 60 - r.expTime
    let o1 : Option K := match maxGap with
      | none => some o
      | some g => if o > g * 60 then none else some o
    let o2 : Option K := if r.dayObs - prev.dayObs ≠ 0 then none else o1
    o2 :: overheadAux maxGap r rs

/-- The first element of both `np.diff(..., prepend=nan)` is NaN. -/
def overhead (maxGap : Option K) : List (OverheadRow K) → List (Option K)
  | [] => []
  | r :: rs => none :: overheadAux maxGap r rs

/-- `general_stackers.py:82-118` for the NaN bookkeeping: `mag r` is the computed
magnitude of row `r` (`none` if the logarithm of a negative number), `neg r` is
`remaining_counts_peak < 0` for row `r`. One pass of the loop over filters. -/
def saturationPass {n : Nat} (filt : Fin n → Nat) (mag : Fin n → Option K) (neg : Fin n → Bool)
    (sat : Fin n → Option K) (f : Nat) : Fin n → Option K :=
  let inFilt := (List.finRange n).filter (fun r => filt r == f)
  let assigned : Fin n → Option K := fun r => if filt r = f then mag r else sat r
  -- positions *within the filtered arrays* where the peak counts are negative
  let bad := (List.range inFilt.length).filter (fun p => match inFilt[p]? with
    | some r => neg r
    | none => false)
  fun r => if r.1 ∈ bad then none else assigned r

/-- The whole loop over `np.unique(filters)` (sorted filter names). -/
def saturation {n : Nat} (filters : List Nat) (filt : Fin n → Nat) (mag : Fin n → Option K)
    (neg : Fin n → Bool) (garbage : Fin n → Option K) : Fin n → Option K :=
  filters.foldl (saturationPass filt mag neg) garbage

end General

section NFollow
variable {K : Type*}

/-- `n_follow_stacker.py:156-187` for one visit. `airmass lat lon step` is the
airmass from a site; the third and fourth arguments of `ra_dec2_alt_az` are
latitude and longitude (`coord_stackers.py:32`), the call passes them as
`obs_lon, obs_lat`. Telescopes are `(lat, lon)` pairs. -/
def nFollow [LE K] [DecidableLE K] [One K] (airmass : K → K → K → K) (limit : K) (steps : List K)
    (telescopes : List (K × K)) : Nat :=
  telescopes.foldl (fun acc o =>
    let gotIt := steps.foldl (fun g step =>
      let a := airmass o.2 o.1 step
      if a ≤ limit ∧ a ≥ 1 then 1 else g) 0
    acc + gotIt) 0

end NFollow

section Note

/-- Python `note.split(",")[0]`. -/
def noteRoot (note : List Char) : List Char := note.takeWhile (· ≠ ',')

/-- `general_stackers.py:127-139`: stored in a `<U50` column, i.e. cut to 50
characters. -/
def noteRootStored (note : List Char) : List Char := (noteRoot note).take 50

end Note

end Verif.Stackers
