import Verif.Model.Numpy
import Mathlib.Algebra.Order.Floor.Ring
import Mathlib.Analysis.SpecialFunctions.Log.Base
import Mathlib.Analysis.SpecialFunctions.Trigonometric.Basic
import Mathlib.Data.List.Dedup
import Mathlib.Data.Rat.Floor

/-!
# Observations of moving objects, `rubin_sim/moving_objects/direct_obs.py`, `base_obs.py` and
`ooephemerides.py`

The ephemerides of OpenOrb and the angular separation are parameters. Names of spectra have at most
40 characters.
-/

namespace Verif.Direct

open Verif.Np

/-! ## Rough positions -/

section Grid

variable {K : Type} [Field K] [LinearOrder K] [FloorRing K]

/-- `np.arange`. -/
def arange (a b d : K) : List K := (List.range ⌈(b - a) / d⌉.toNat).map fun i : ℕ => a + (i : K) * d

/-- Start and end of the grid, `direct_obs.py:256-257`. -/
def gridStart (tmin step : K) : K := (⌊tmin + 16 / 100 - 1 / 2⌋ : K) - step
def gridEnd (tmax step : K) : K := (⌈tmax + 16 / 100 + 1 / 2⌉ : K) + step

/-- `rough_times`, `direct_obs.py:255-258`. -/
def roughTimes (tmin tmax step : K) : List K :=
  arange (gridStart tmin step) (gridEnd tmax step + step / 2) step

/-- The time of the grid that is used for a visit, `direct_obs.py:295-296`. -/
def roughTime (grid : List K) (t : K) : Option K := grid[searchsortedLeft grid t]?

/-- Element `i - 1` of a list in Python, where `-1` is the last one. -/
def pyPred (l : List K) (i : ℕ) : Option K := if i = 0 then l.getLast? else l[i - 1]?

/-- Position before a position, with `-1` as the last one. -/
def predIdx (n i : ℕ) : ℕ := if i = 0 then n - 1 else i - 1

/-- Nearest of the times with known positions, `direct_obs.py:300-306`. -/
def nearest (mjds : List K) (t : K) : Option ℕ :=
  let pos := searchsortedLeft mjds t
  match mjds[pos]?, pyPred mjds pos with
  | some l, some r => some (if |t - r| < |t - l| then predIdx mjds.length pos else pos)
  | _, _ => none

/-- `object_tol` for one object from its moves between the times, `direct_obs.py:206-212`. -/
def objectTol (moves : List K) (tol : K) : List K :=
  List.zipWith (fun a b => max a b + tol) (moves ++ [0]) (0 :: moves)

/-- Whether the times with known positions can be used, `direct_obs.py:188-196`. -/
def covers (mjds times : List K) : Bool :=
  mjds.any (fun m => times.all fun t => decide (m ≤ t)) && mjds.any (fun m => times.all fun t => decide (t ≤ m))

end Grid

/-! ## Selection -/

/-- `np.where(mask)[0]`. -/
def whereIdx {V : Type} (p : V → Bool) (l : List V) : List ℕ :=
  (List.range l.length).filter fun k => (l[k]?).any p

/-- `a[idx]`. -/
def take {V : Type} (l : List V) (idx : List ℕ) : List V := idx.filterMap fun k => l[k]?

/-- A visit. -/
structure Visit (K P : Type) where
  id : ℤ
  time : K
  field : P
  band : String
  seeing : K
  expTime : K
  m5 : K
  night : ℤ
  deriving DecidableEq

/-- A row of the output: identifiers, the ephemeris, the visit columns that were transferred, and the
changes of the magnitude. -/
structure Row (K E : Type) where
  objId : ℤ
  obsId : ℤ
  sed : String
  eph : E
  expTime : K
  m5 : K
  seeing : K
  time : K
  night : ℤ
  band : String
  dmagColor : K
  dmagTrail : K
  dmagDetect : K
  deriving DecidableEq

/-- An object: its id, its spectrum, and its ephemeris with a mode. -/
structure Sso (K E : Type) where
  id : ℤ
  sed : String
  prelim : K → E
  exact : K → E

section Run

variable {K P E : Type} [Field K] [LinearOrder K] [FloorRing K]

/-- The visits that are near to the object, `direct_obs.py:295-296` with `base_obs.py:374`; `none`
is an `IndexError`. -/
def roughIdx (sep : P → P → K) (pos : E → P) (tol : K) (grid : List K) (o : Sso K E)
    (visits : List (Visit K P)) : Option (List ℕ) :=
  if visits.all fun v => (roughTime grid v.time).isSome then
    some (whereIdx (fun v => (roughTime grid v.time).any fun g =>
      decide (sep (pos (o.prelim g)) v.field ≤ tol)) visits)
  else none

/-- The rows of one object before magnitudes are known, with the indices of their visits,
`direct_obs.py:313-349`. -/
def objectRows (inFov : E → Visit K P → Bool) (o : Sso K E) (visits : List (Visit K P))
    (rough : List ℕ) : List (ℤ × ℤ × String × E) × List ℕ :=
  if rough.length = 0 then ([], [])
  else
    let sub := take visits rough
    let ephs := sub.map fun v => o.exact v.time
    let idx := whereIdx (fun p : E × Visit K P => inFov p.1 p.2) (ephs.zip sub)
    ((take (ephs.zip sub) idx).map fun p => (o.id, p.2.id, o.sed, p.1), take rough idx)

/-- The rows of all objects. -/
def collect (sep : P → P → K) (pos : E → P) (tol : K) (grid : List K) (inFov : E → Visit K P → Bool)
    (visits : List (Visit K P)) : List (Sso K E) → Option (List (ℤ × ℤ × String × E) × List ℕ)
  | [] => some ([], [])
  | o :: os =>
    match roughIdx sep pos tol grid o visits, collect sep pos tol grid inFov visits os with
    | some rough, some (rows, idx) =>
      let r := objectRows inFov o visits rough
      some (r.1 ++ rows, r.2 ++ idx)
    | _, _ => none

/-- One turn of the loop over spectra and bands, `direct_obs.py:356-364`; the list has the spectrum,
the band and the colour of each row. -/
def colorTurn (color : String → String → Option K) (l : List (String × String × K)) (s b : String) :
    Option (List (String × String × K)) :=
  if l.any fun r => r.1 = s && r.2.1 = b then
    (color s b).map fun c => l.map fun r => if r.1 = s && r.2.1 = b then (r.1, r.2.1, c) else r
  else some l

/-- The loops, `direct_obs.py:355-364`, over pairs of spectra and bands. -/
def colorLoop (color : String → String → Option K) :
    List (String × String) → List (String × String × K) → Option (List (String × String × K))
  | [], l => some l
  | (s, b) :: ps, l => (colorTurn color l s b).bind (colorLoop color ps)

/-- The colours of all rows; they are zero at first. -/
def colors (color : String → String → Option K) (rows : List (String × String)) : Option (List K) :=
  let seds := (rows.map Prod.fst).dedup
  let bands := (rows.map Prod.snd).dedup
  (colorLoop color (seds.flatMap fun s => bands.map fun b => (s, b))
    (rows.map fun r => (r.1, r.2, 0))).map fun l => l.map fun r => r.2.2

/-- `DirectObs.run` without known positions, `direct_obs.py:255-376`; `loss` is
`calc_trailing_losses`. `none` stands for an exception. -/
def run (sep : P → P → K) (pos : E → P) (vel : E → K) (loss : K → K → K → K × K)
    (color : String → String → Option K) (tol step tmin tmax : K) (inFov : E → Visit K P → Bool)
    (visits : List (Visit K P)) (os : List (Sso K E)) : Option (List (Row K E)) :=
  match collect sep pos tol (roughTimes tmin tmax step) inFov visits os with
  | none => none
  | some (rows, idx) =>
    let vs := take visits idx
    match colors color (List.zipWith (fun r v => (r.2.2.1, v.band)) rows vs) with
    | none => none
    | some cs =>
      some (List.zipWith (fun (p : (ℤ × ℤ × String × E) × K) (v : Visit K P) =>
        let r := p.1
        { objId := r.1, obsId := r.2.1, sed := r.2.2.1, eph := r.2.2.2, expTime := v.expTime,
          m5 := v.m5, seeing := v.seeing, time := v.time, night := v.night, band := v.band,
          dmagColor := p.2, dmagTrail := (loss (vel r.2.2.2) v.seeing v.expTime).1,
          dmagDetect := (loss (vel r.2.2.2) v.seeing v.expTime).2 }) (rows.zip cs) vs)

end Run

/-! ## Footprints -/

/-- Degrees of an angle. -/
noncomputable def degrees (x : ℝ) : ℝ := x * (180 / Real.pi)
noncomputable def radians (x : ℝ) : ℝ := x * (Real.pi / 180)

/-- `_sso_in_circle_fov`, `base_obs.py:359-375`, for one visit; `sep ra dec ra' dec'` is
`angular_separation` in degrees. -/
noncomputable def inCircle (sep : ℝ → ℝ → ℝ → ℝ → ℝ) (obsDegrees : Bool) (r : ℝ) (ra dec fra fdec : ℝ) :
    Prop :=
  if obsDegrees then sep ra dec fra fdec ≤ r else sep ra dec (degrees fra) (degrees fdec) ≤ r

/-- `_sso_in_rectangle_fov`, `base_obs.py:397-401`, for one visit. `obs_degrees` is not used. -/
noncomputable def inRectangle (_obsDegrees : Bool) (xTol yTol : ℝ) (ra dec fra fdec : ℝ) : Prop :=
  |dec - fdec| ≤ yTol ∧ |(ra - fra) * Real.cos (radians fdec)| ≤ xTol

/-- The footprint that is used, and the attribute after the call, `base_obs.py:459-468`. -/
def fovKind (footprint : String) : String × String :=
  if footprint = "camera" then ("camera", footprint)
  else if footprint = "rectangle" then ("rectangle", footprint)
  else if footprint = "circle" then ("circle", footprint)
  else ("circle", "circle")

/-- The keys of `info`, `base_obs.py:138-148`, for the footprint given to the constructor. -/
def infoKeys (footprint : String) : List String :=
  ["obs_info", "footprint", "eph_mode", "eph_type"] ++ (if footprint = "circle" then ["r_fov"] else []) ++
    (if footprint = "rectangle" then ["xtol", "ytol"] else [])

/-! ## Trailing losses -/

/-- The loss with two constants, `base_obs.py:252-253`. -/
noncomputable def lossWith (a b x : ℝ) : ℝ := 1.25 * Real.logb 10 (1 + a * x ^ 2 / (1 + b * x))

/-- `x`, `base_obs.py:251`. -/
noncomputable def trailX (velocity seeing texp : ℝ) : ℝ := velocity * texp / seeing / 24

/-- `calc_trailing_losses`, `base_obs.py:247-254`. -/
noncomputable def trailing (velocity seeing texp : ℝ) : ℝ × ℝ :=
  (lossWith 0.761 1.162 (trailX velocity seeing texp), lossWith 0.420 0.003 (trailX velocity seeing texp))

/-! ## Ephemerides -/

/-- Names of basic ephemerides, `ooephemerides.py:517-533`. -/
def basicNames : List String :=
  ["time", "ra", "dec", "dradt", "ddecdt", "phase", "solarelon", "helio_dist", "geo_dist", "magV",
    "trueAnomaly", "velocity"]

/-- Names of full ephemerides, `ooephemerides.py:393-433`. -/
def fullNames : List String :=
  ["time", "ra", "dec", "dradt", "ddecdt", "phase", "solarelon", "helio_dist", "geo_dist", "magV", "pa",
    "topo_lon", "topo_lat", "opp_topo_lon", "opp_topo_lat", "helio_lon", "helio_lat", "opp_helio_lon",
    "opp_helio_lat", "topo_obj_alt", "topo_solar_alt", "topo_lunar_alt", "lunar_phase", "lunar_dist",
    "helio_x", "helio_y", "helio_z", "helio_dx", "helio_dy", "helio_dz", "obs_helio_x", "obs_helio_y",
    "obs_helio_z", "trueAnom", "velocity"]

/-- Names of the columns of the output, `direct_obs.py:215-250`, given the names of the visit
columns. -/
def outNames (obsId : String) (transfer : List String) : List String :=
  ["obj_id", obsId, "sedname", "time", "ra", "dec", "dradt", "ddecdt", "phase", "solarelon", "helio_dist",
    "geo_dist", "magV", "trueAnomaly", "velocity", "dmag_color", "dmag_trail", "dmag_detect"] ++ transfer

/-- Whether the ephemerides can be copied, `direct_obs.py:346-347`: every name is a column of the
output. -/
def copies (names out : List String) : Bool := names.all out.contains

/-- `np.swapaxes(a, 2, 0)`, as a function of the indices. -/
def swap20 {V : Type} (a : ℕ → ℕ → ℕ → V) : ℕ → ℕ → ℕ → V := fun i j k => a k j i

/-- `np.swapaxes(a, 2, 1)`. -/
def swap21 {V : Type} (a : ℕ → ℕ → ℕ → V) : ℕ → ℕ → ℕ → V := fun i j k => a i k j

/-- The column with number `c` of the ephemerides, `ooephemerides.py:511-536` and `387-435`; the
velocity is apart. -/
def ephColumn {V : Type} (byObject : Bool) (raw : ℕ → ℕ → ℕ → V) (c : ℕ) : ℕ → ℕ → V :=
  let ephs := swap20 raw
  let ephs := if byObject then swap21 ephs else ephs
  ephs c

/-- The velocity, `ooephemerides.py:512` and `515`. -/
noncomputable def ephVelocity (byObject : Bool) (raw : ℕ → ℕ → ℕ → ℝ) : ℕ → ℕ → ℝ :=
  let ephs := swap20 raw
  let v : ℕ → ℕ → ℝ := fun i j => Real.sqrt (ephs 3 i j ^ 2 + ephs 4 i j ^ 2)
  if byObject then fun i j => v j i else v

/-- What OpenOrb returns: values and an error code. -/
structure Raw (V : Type) where
  values : V
  err : ℤ

/-- `generate_ephemerides`, `ooephemerides.py:594-619`: modes and types are read without regard to
case; `none` is an exception. The error code is used for full ephemerides only. -/
def generate {V : Type} (oorb : String → String → Raw V) (mode type : String) : Option V :=
  let m := mode.toLower
  let m' := if m = "nbody" ∨ m = "n" then some "N" else if m = "2body" ∨ m = "2" then some "2" else none
  match m' with
  | none => none
  | some d =>
    if type.toLower = "basic" then some (oorb "basic" d).values
    else if type.toLower = "full" then
      (if (oorb "full" d).err = 0 then some (oorb "full" d).values else none)
    else none

/-! ## Packed orbits -/

/-- The six elements of an orbit with epoch, `H` and `g`. -/
structure Orbit where
  e1 : ℝ
  e2 : ℝ
  e3 : ℝ
  e4 : ℝ
  e5 : ℝ
  e6 : ℝ
  epoch : ℝ
  H : ℝ
  g : ℝ

/-- `elem_type`, `ooephemerides.py:75`. -/
def elemType (fmt : String) : Option ℝ :=
  if fmt = "CAR" then some 1 else if fmt = "COM" then some 2 else if fmt = "KEP" then some 3
  else if fmt = "DEL" then some 4 else if fmt = "EQX" then some 5 else none

/-- `_convert_to_oorb_elem` for the orbit with number `k`, `ooephemerides.py:121-158`. -/
noncomputable def pack (fmt : String) (k : ℕ) (o : Orbit) : Option (List ℝ) :=
  match elemType fmt with
  | none => none
  | some t =>
    if fmt = "KEP" then
      some [k + 1, o.e1, o.e2, radians o.e3, radians o.e4, radians o.e5, radians o.e6, t, o.epoch, 3, o.H, o.g]
    else if fmt = "COM" then
      some [k + 1, o.e1, o.e2, radians o.e3, radians o.e4, radians o.e5, o.e6, t, o.epoch, 3, o.H, o.g]
    else if fmt = "CAR" then
      some [k + 1, o.e1, o.e2, o.e3, o.e4, o.e5, o.e6, t, o.epoch, 3, o.H, o.g]
    else none

/-- `convert_from_oorb_elem`, `ooephemerides.py:171-238`. -/
noncomputable def unpack (fmt : String) (row : List ℝ) : Option Orbit :=
  match row with
  | [_, a, b, c, d, e, f, _, t, _, h, g] =>
    if fmt = "KEP" then some ⟨a, b, degrees c, degrees d, degrees e, degrees f, t, h, g⟩
    else if fmt = "COM" then some ⟨a, b, degrees c, degrees d, degrees e, f, t, h, g⟩
    else if fmt = "CAR" then some ⟨a, b, c, d, e, f, t, h, g⟩
    else none
  | _ => none

end Verif.Direct
