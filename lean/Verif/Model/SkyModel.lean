import Mathlib.Analysis.SpecialFunctions.Log.Base
import Mathlib.Analysis.SpecialFunctions.Trigonometric.Inverse
import Mathlib.Algebra.BigOperators.Fin
import Mathlib.Algebra.Order.Floor.Ring

/-!
# The model of the sky

Models of `rubin_sim/skybrightness/sky_model.py`, `utils.py` and the selection of times in `generate_hdf5.py`. Positions
of sun and moon (astropy) are parameters. Components are functions of a point, and a row is the spectrum or the fluxes
at a point. `none` in the place of a row is a row of not-a-number.
-/

namespace Verif.SkyM

/-! ## Angles -/

/-- `wrap_ra`, `utils.py:12-17`. -/
noncomputable def wrap (x : ℝ) : ℝ := x - 2 * Real.pi * ⌊x / (2 * Real.pi)⌋

/-- `calc_az_rel_moon`, `sky_model.py:54-62`. -/
noncomputable def relMoon (az moon : ℝ) : ℝ := if wrap (az - moon) > Real.pi then 2 * Real.pi - wrap (az - moon) else wrap (az - moon)

/-- Airmass of an altitude, `sky_model.py:507` and 607. -/
noncomputable def airmassOf (alt : ℝ) : ℝ := 1 / Real.cos (Real.pi / 2 - alt)

/-- Altitude of an airmass, line 611. -/
noncomputable def altOf (airmass : ℝ) : ℝ := Real.pi / 2 - Real.arccos (1 / airmass)

/-- The arguments of `set_params`, `sky_model.py:563-585`. -/
structure Params where
  airmass : ℝ
  az : ℝ
  alt : Option ℝ
  moonPhase : ℝ
  moonAlt : ℝ
  moonAz : ℝ
  sunAlt : ℝ
  sunAz : ℝ
  sunEclipLon : ℝ
  eclipLon : ℝ
  eclipLat : ℝ
  solarFlux : ℝ

/-- A point of the interpolation. -/
structure Point where
  airmass : ℝ
  alt : ℝ
  az : ℝ
  azRelMoon : ℝ
  moonSunSep : ℝ
  moonAltitude : ℝ
  altEclip : ℝ
  azEclipRelSun : ℝ
  sunAlt : ℝ
  azRelSun : ℝ
  solarFlux : ℝ

/-- `haversine` of rubin_scheduler. -/
noncomputable def haversine (lon1 lat1 lon2 lat2 : ℝ) : ℝ :=
  2 * Real.arcsin (Real.sqrt (Real.sin ((lat1 - lat2) / 2) ^ 2 + Real.cos lat1 * Real.cos lat2 * Real.sin ((lon1 - lon2) / 2) ^ 2))

/-- `convert_func`, `sky_model.py:592-595`. -/
noncomputable def conv (degrees : Bool) (x : ℝ) : ℝ := if degrees then x * (Real.pi / 180) else x

/-- Altitude in radians, lines 606-611. -/
noncomputable def altRad (degrees : Bool) (p : Params) : ℝ :=
  match p.alt with
  | some a => conv degrees a
  | none => altOf p.airmass

/-- `set_params`, `sky_model.py:592-637`: the point of the interpolation. -/
noncomputable def setParams (degrees : Bool) (p : Params) : Point where
  airmass := match p.alt with
    | some a => airmassOf (conv degrees a)
    | none => p.airmass
  alt := altRad degrees p
  az := conv degrees p.az
  azRelMoon := relMoon (conv degrees p.az) (conv degrees p.moonAz)
  moonSunSep := p.moonPhase / 100 * 180
  moonAltitude := conv degrees p.moonAlt / (Real.pi / 180)
  altEclip := conv degrees p.eclipLat
  azEclipRelSun := wrap (conv degrees p.eclipLon - conv degrees p.sunEclipLon)
  sunAlt := conv degrees p.sunAlt
  azRelSun := wrap (conv degrees p.az - conv degrees p.sunAz)
  solarFlux := p.solarFlux

/-- `moon_targ_sep` of `set_params`, line 612. -/
noncomputable def targSep (degrees : Bool) (p : Params) : ℝ := haversine (conv degrees p.az) (altRad degrees p) p.moonAz (conv degrees p.moonAlt)

/-! ## Sum of the components -/

section
variable {P K : Type} [Field K] [LinearOrder K] {d : ℕ}

/-- The state of the loop of `_interp_sky`: which points have all components, and the sums. -/
structure Loop (K : Type) (d : ℕ) where
  mask : List Bool
  spec : List (Fin d → K)

/-- Whether a point is in the range of airmass. -/
def inRange (am : P → K) (limit : K) : Option P → Bool
  | some p => decide (am p ≤ limit) && decide (1 ≤ am p)
  | none => false

/-- `good_pix`, `sky_model.py:642`: indices of the points in the range of airmass. -/
def goodPix (am : P → K) (limit : K) (pts : List P) : List ℕ := (List.range pts.length).filter (fun i => inRange am limit pts[i]?)

/-- `points[good_pix]` -/
def goodPts (am : P → K) (limit : K) (pts : List P) : List P := (goodPix am limit pts).filterMap (fun i => pts[i]?)

/-- One component, `sky_model.py:680-689`: the indices of the empty rows are those among the good points, and are used
for all points. -/
def addComp (good : List ℕ) (rows : List (Fin d → K)) (s : Loop K d) : Loop K d :=
  { mask := if rows.any (fun r => (List.finRange d).any (fun k => decide (0 < r k))) then
      s.mask.mapIdx (fun i b => match rows[i]? with
        | some r => if ((List.finRange d).map r).sum = 0 then false else b
        | none => b) else s.mask
    spec := s.spec.mapIdx (fun i r => if i ∈ good then (match rows[good.idxOf i]? with
        | some r' => r + r'
        | none => r) else r) }

/-- The loop over the components that are switched on: a component that was not loaded is an exception. -/
def loop (objs : List (String × (P → Fin d → K))) (good : List ℕ) (gp : List P) : List (String × Bool) → Loop K d → Except String (Loop K d)
  | [], s => .ok s
  | (key, on) :: flags, s =>
    if on then
      match objs.lookup key with
      | none => .error "KeyError"
      | some f => loop objs good gp flags (addComp good (gp.map f) s)
    else loop objs good gp flags s

/-- `_interp_sky`, `sky_model.py:649-697`, after the first check; an empty result of a component is not modelled. `flags` are the attributes for the components in their
order, `objs` the components loaded by the constructor. -/
def interpSky (am : P → K) (limit cut : K) (flags : List (String × Bool)) (objs : List (String × (P → Fin d → K))) (pts : List P) : Except String (List (Option (Fin d → K))) :=
  let good := goodPix am limit pts
  match loop objs good (goodPts am limit pts) flags ⟨List.replicate pts.length true, List.replicate pts.length 0⟩ with
  | .error e => .error e
  | .ok s => .ok (s.spec.mapIdx (fun i r =>
      if i ∈ good then some (if limit ≤ cut ∧ s.mask.getD i true = false then 0 else r) else none))

end

/-- The objects loaded by the constructor, `sky_model.py:176-180`: those of the components switched on. -/
def loaded {V : Type} (all : List (String × V)) (flags : List (String × Bool)) : List (String × V) :=
  all.filter (fun e => (flags.lookup e.1).getD false)

/-! ## The object -/

/-- What is remembered between calls: whether coordinates are set, the number of entries of `ra`, the number of points
and those out of range, and the spectra. -/
structure State (S : Type) where
  azs : Bool
  ra : Option ℕ
  npts : ℕ
  bad : List ℕ
  spec : Option (List S)

/-- After the constructor. -/
def fresh (S : Type) : State S := ⟨false, none, 0, [], none⟩

/-- `set_ra_dec_mjd`, `sky_model.py:304-324`: `spec` are the spectra of the `n` points, `bad` those out of range. -/
def setRaDec {S : Type} (spec : List S) (bad : List ℕ) (s : State S) : Except String Unit × State S :=
  let s1 : State S := { s with azs := true, ra := some spec.length, npts := spec.length, bad := bad }
  if bad.length = spec.length then (.error "ValueError", s1) else (.ok (), { s1 with spec := some spec })

/-- `set_params`, `sky_model.py:597-647`: only a warning if all points are out of range, and no `ra`. -/
def setPar {S : Type} (spec : List S) (bad : List ℕ) (s : State S) : Except String Unit × State S :=
  let s1 : State S := { s with azs := true, npts := spec.length, bad := bad }
  if bad.length = spec.length then (.ok (), s1) else (.ok (), { s1 with spec := some spec })

/-- `return_wave_spec`, `sky_model.py:699-714`, for `mags=False`. -/
def returnSpec {S : Type} (s : State S) : Except String (List S) :=
  if s.azs = false then .error "ValueError"
  else match s.spec with
    | none => .error "AttributeError"
    | some x => .ok x

/-- `return_mags`, `sky_model.py:737-769`, for `mags=False` and one bandpass: `mag` is the magnitude of a spectrum, `none`
for points out of range; the values of points without flux are not distinguished. -/
def returnMags {S V : Type} (mag : S → V) (s : State S) : Except String (List (Option V)) :=
  if s.azs = false then .error "ValueError"
  else match s.ra, s.spec with
    | none, _ => .error "AttributeError"
    | _, none => .error "AttributeError"
    | some n, some x =>
      if x.length < n ∨ s.npts < n then .error "IndexError"
      else .ok ((List.range s.npts).map (fun i => if i ∈ s.bad then none else (x[i]?).map mag))

/-! ## Magnitudes -/

/-- The flux of a component of magnitude `m`, with the constant `c`: `interp_components.py:279`. -/
noncomputable def flux (c m : ℝ) : ℝ := (10 : ℝ) ^ (-0.4 * (m - c))

/-- `return_mags` with `mags=True`, `sky_model.py:746`. -/
noncomputable def toMag (c f : ℝ) : ℝ := -2.5 * Real.logb 10 f + c

/-! ## Selection of times -/

section
variable {K : Type} [Field K] [LinearOrder K]

/-- `generate_hdf5.py:164-176`: whether the map at `t` is that interpolated between `a` and `b`, within `dm` where all three
have a number. -/
def canInterp (mag : K → List (Option K)) (dm a b t : K) : Bool :=
  (List.zipWith (fun x yz => match x, yz with
    | some x, (some y, some z) => decide (|x - ((1 - (t - a) / (b - a)) * y + (t - a) / (b - a) * z)| ≤ dm)
    | _, _ => true) (mag t) ((mag a).zip (mag b))).all id

/-- The lists of the loop: the times kept, newest first, and the last five. -/
structure Thin (K : Type) where
  kept : List K
  last5 : List K

/-- One step of the loop, `generate_hdf5.py:143-181`. -/
def thinStep (mag : K → List (Option K)) (dm tmax : K) (required : List K) (s : Thin K) (m : K) : Thin K :=
  let l := s.last5 ++ [m]
  let last5 := l.drop (l.length - 5)
  match m :: s.kept with
  | b :: c :: a :: x :: rest =>
    if c ∉ required ∧ b - a < tmax ∧ last5.all (fun t => !(decide (a < t) && decide (t < b)) || canInterp mag dm a b t) then ⟨b :: a :: x :: rest, last5⟩
    else ⟨m :: s.kept, last5⟩
  | _ => ⟨m :: s.kept, last5⟩

/-- `mjds[::3]`, line 113. -/
def everyThird (mjds : List K) : List K := (List.range mjds.length).filterMap (fun i => if i % 3 = 0 then mjds[i]? else none)

/-- The times of the file, oldest first; all of `mjds` have the sun low enough. -/
def thin (mag : K → List (Option K)) (dm tmax : K) (mjds : List K) : List K :=
  (mjds.foldl (thinStep mag dm tmax (everyThird mjds)) ⟨[], []⟩).kept.reverse

end

end Verif.SkyM
