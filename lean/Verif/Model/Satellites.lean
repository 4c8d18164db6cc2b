import Verif.Model.Selfcal
import Mathlib.Data.Nat.Digits.Defs
import Mathlib.Data.Real.Sqrt
import Mathlib.Analysis.Real.Pi.Bounds

/-!
# Satellite constellations

Models of `rubin_sim/satellite_constellations/sat_utils.py`, `model_observatory.py` and
`basis_function.py`. Parameters of the model: positions and illumination of satellites (skyfield),
streaks (shapely), smoothing of maps (healpy), the almanac and random numbers. Numbers are formatted
after rounding to the digits that are printed. Not modelled: loading of ephemeris files.
-/

namespace Verif.Sat

open Np

/-! ## Orbital elements as text -/

/-- `{:0wd}` -/
def zfill (w n : ℕ) : List Char :=
  let ds := (Nat.digits 10 n).reverse.map Nat.digitChar
  List.replicate (w - ds.length) '0' ++ ds

/-- `{:w.df}` of `n` units of the last digit. -/
def fixed (w d n : ℕ) : List Char :=
  let body := zfill 1 (n / 10 ^ d) ++ ['.'] ++ zfill d (n % 10 ^ d)
  List.replicate (w - body.length) ' ' ++ body

/-- `checksum`, `sat_utils.py:93-100`. -/
def checksum (line : List Char) : List Char :=
  let body := line.dropLast
  let s := body.foldl (fun s c =>
    let s := if c.isDigit then s + (c.toNat - 48) else s
    if c = '-' then s + 1 else s) 0
  body ++ [Nat.digitChar (s % 10)]

/-- `tle1`, `sat_utils.py:103-105`. -/
def line1 (nr epoch : ℕ) : List Char :=
  checksum ("1 ".toList ++ (zfill 5 nr ++ ("U 20001A   ".toList ++ (fixed 14 8 epoch ++ "  .00000000  00000-0  50000-4 0    0X".toList))))

/-- `tle2`, `sat_utils.py:106-115`. -/
def line2 (nr inc raan ma mm : ℕ) : List Char :=
  checksum ("2 ".toList ++ (zfill 5 nr ++ (" ".toList ++ (fixed 8 4 inc ++ (" ".toList ++ (fixed 8 4 raan ++ (" 0001000   0.0000 ".toList ++
    (fixed 8 4 ma ++ (" ".toList ++ (fixed 11 8 mm ++ "    0X".toList))))))))))

/-! ## Constellations -/

/-- A group of orbits. -/
structure Shell where
  alt : ℝ
  inc : ℝ
  planes : ℕ
  perPlane : ℕ

/-- `np.linspace(0, 360, n, endpoint=False)` -/
noncomputable def turn (n : ℕ) : List ℝ := (List.range n).map (fun i : ℕ => 360 * (i : ℝ) / n)

/-- Mean anomalies and nodes, `sat_utils.py:159-168`; random numbers are `a`, `b` and `off`. -/
noncomputable def places (a b : ℕ → ℝ) (off : ℝ) (s : Shell) : List (ℝ × ℝ) :=
  if s.perPlane = 1 then (List.range s.planes).map (fun i => (a i, b i))
  else (turn s.planes).flatMap (fun raan => ((turn s.perPlane).map (· + off)).map (fun ma => (ma, raan)))

/-- `satellite_mean_motion`, `sat_utils.py:39-55`, per unit of time. -/
noncomputable def meanMotion (mu rEarth alt : ℝ) : ℝ := 1 / √(4 * Real.pi ^ 2 * (alt + rEarth) ^ 3 / mu)

/-- A satellite. -/
structure Satellite where
  nr : ℕ
  inc : ℝ
  raan : ℝ
  ma : ℝ
  mm : ℝ

/-- `create_constellation`, `sat_utils.py:154-177`; the shells come with their random numbers. -/
noncomputable def create (motion : ℝ → ℝ) (shells : List (Shell × (ℕ → ℝ) × (ℕ → ℝ) × ℝ)) : List Satellite :=
  (shells.foldl (fun acc s => (places s.2.1 s.2.2.1 s.2.2.2 s.1).foldl
    (fun acc p => (acc.1 ++ [⟨acc.2, s.1.inc, p.2, p.1, motion s.1.alt⟩], acc.2 + 1)) acc) (([], 8000) : List Satellite × ℕ)).1

/-- `nplanes` and `sats_per_plane`, `sat_utils.py:190-191`, 208-209 and 226-227. -/
def starlinkV1 : List (ℕ × ℕ) := [(72, 22), (72, 22), (36, 20), (6, 58), (4, 43)]

@[inherit_doc starlinkV1]
def starlinkV2 : List (ℕ × ℕ) := [(48, 110), (48, 110), (48, 110), (30, 120), (28, 120), (28, 120), (28, 120), (12, 12), (18, 18)]

@[inherit_doc starlinkV1]
def oneweb : List (ℕ × ℕ) := [(49, 36), (72, 32), (72, 32)]

/-! ## Positions -/

/-- A satellite at a time. -/
structure Pos where
  alt : ℝ
  illum : Bool
  pix : ℕ

open Classical in
/-- `visible` of `update_mjd`, `sat_utils.py:283-301`: the altitude is NaN in the dark. -/
noncomputable def visible (limit : ℝ) (ps : List Pos) : List ℕ :=
  let alts := ps.map (fun p => if p.illum then some p.alt else none)
  (List.range ps.length).filter (fun i => (match (alts[i]?).join with
    | some a => decide (limit ≤ a)
    | none => false) && ((ps[i]?).map Pos.illum).getD false)

open Classical in
/-- `_update_satellite_maps`, `model_observatory.py:137-155`, at one time and pixel. -/
noncomputable def spot (limit : ℝ) (ps : List Pos) (pix : ℕ) : ℕ :=
  let weight := fun p : Pos => if p.alt < limit then 0 else if p.illum then 1 else 0
  (((ps.filter Pos.illum).filter (fun p => decide (p.pix = pix))).map weight).sum

/-! ## Observatory -/

/-- The time, the night and the maps. -/
structure Obsy (M : Type) where
  mjd : ℝ
  night : ℤ
  maps : Option M

/-- The state before the first time, `model_observatory.py:73-76`. -/
def Obsy.start {M : Type} (mjd : ℝ) : Obsy M := ⟨mjd, -1, none⟩

/-- The setter of `mjd`, `model_observatory.py:113-121`, with the index and the night of the almanac and
the maps for an index. -/
def Obsy.set {M : Type} (indx : ℝ → ℕ) (night : ℕ → ℤ) (mk : ℕ → M) (o : Obsy M) (value : ℝ) : Obsy M :=
  if night (indx value) ≠ o.night then ⟨value, night (indx value), some (mk (indx value))⟩ else { o with mjd := value }

/-- What the parent class gets as `nside`, `model_observatory.py:79-80`. -/
def parentNside (_nside : Option ℕ) : Option ℕ := none

/-! ## Basis function -/

open Classical in
/-- `_calc_value`, `basis_function.py:25-40`; none is the number 0. -/
noncomputable def avoid (smooth : List (List ℝ) → List ℝ) (forecast mjd : ℝ) (mjds : List ℝ) (maps : List (List ℝ)) : Option (List ℝ) :=
  let lo := searchsortedLeft mjds mjd
  let hi := searchsortedLeft mjds (mjd + forecast)
  if lo < hi then some ((smooth (pySlice maps lo hi)).map (fun x => (if x < 0 then 0 else x) * -1)) else none

/-! ## Streaks -/

/-- A satellite near a pointing: altitude and illumination at both ends, distance to the track. -/
structure Track where
  alt1 : ℝ
  alt2 : ℝ
  ill1 : Bool
  ill2 : Bool
  dist : ℝ

open Classical in
/-- `sat_utils.py:410-413` and 427. -/
noncomputable def close (limit test : ℝ) (t : Track) : Bool :=
  ((decide (limit < t.alt1) || decide (limit < t.alt2)) && (t.ill1 || t.ill2)) && decide (t.dist < test)

/-- `np.round(vt / dt)`; halves go to the even number. -/
noncomputable def samples (vt dt : ℝ) : ℤ :=
  let f := ⌊vt / dt⌋
  if vt / dt - f < 1 / 2 then f else if 1 / 2 < vt / dt - f then f + 1 else if f % 2 = 0 then f else f + 1

/-- `_streak_length`, `sat_utils.py:461-488`, of a path of `n` points: a line of one point is an
exception, one of no points has no length. -/
def streak (n : ℤ) (length : ℝ) : Selfcal.Res ℝ :=
  if n = 0 then .val 0 else if n = 1 then .error "GEOSException" else .val length

open Classical in
/-- The loop, `sat_utils.py:438-458`, for pairs of pointings and lengths. -/
noncomputable def tally (n : ℕ) (hits : List (ℕ × ℝ)) : List (ℝ × ℕ) :=
  hits.foldl (fun acc h => if h.2 > 0 then acc.mapIdx (fun i a => if i = h.1 then (a.1 + h.2, a.2 + 1) else a) else acc) (List.replicate n (0, 0))

/-- `check_pointings`, `sat_utils.py:343-458`, for pointings and the tracks of the satellites, with paths of
two points or more; lengths in radians. -/
noncomputable def checkPointings (limit test : ℝ) (length : ℕ → Track → ℝ) (n : ℕ) (sats : List (ℕ → Track)) : List (ℝ × ℕ) :=
  tally n (sats.flatMap (fun s => ((List.range n).filter (fun i => close limit test (s i))).map (fun i => (i, length i (s i)))))

end Verif.Sat
