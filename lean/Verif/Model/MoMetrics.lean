import Mathlib.Algebra.Order.Field.Basic
import Mathlib.Algebra.Order.Floor.Defs
import Verif.Model.NumpyMore
import Verif.Model.TimeSlicers
import Verif.Model.Seasons

/-!
# Model of `rubin_sim/maf/metrics/mo_metrics.py`

One object at one `H`: the observations of the object with the columns added by the
stackers. Floats are an ordered field. Not modelled: the construction of names and units,
`PeakVMagMetric` (a minimum).
-/

namespace Verif.Mo

open Verif.Np
open Verif.Seasons (uniqueInt)

variable {K : Type*}

/-- The columns used. -/
structure Obs (K : Type*) where
  mjd : K
  night : Int
  snr : K
  vis : K
  band : String
  velocity : K
  seeing : K
  expTime : K
  ecLon : K
  phase : K
  elong : K
  magV : K
  deriving DecidableEq

section Visible
variable [Zero K] [LinearOrder K]

/-- `_set_vis`, `mo_metrics.py:33-38`: whether a row is kept. -/
def visible (limit : Option K) (o : Obs K) : Bool :=
  match limit with
  | some s => decide (s ≤ o.snr)
  | none => decide (0 < o.vis)

/-- `sso_obs[vis]` -/
def vis (limit : Option K) (l : List (Obs K)) : List (Obs K) := l.filter (visible limit)

/-- The positions `vis` themselves. -/
def visIdx (limit : Option K) (l : List (Obs K)) : List Nat :=
  (List.range l.length).filter (fun i => match l[i]? with | some o => visible limit o | none => false)

/-- `NObsMetric.run`, lines 249-255. -/
def nObs (limit : Option K) (l : List (Obs K)) : Nat := (vis limit l).length

/-- `np.bincount`: counts of `0 .. max`; raises (`none`) for negative entries. -/
def bincount (xs : List Int) : Option (List Nat) :=
  if xs.any (fun x => decide (x < 0)) then none
  else some ((List.range ((xs.map Int.toNat).foldr max 0 + 1)).map (fun i : Nat => xs.count (i : Int)))

/-- `NObsNoSinglesMetric.run`, lines 274-282; `none` is the error of `np.bincount`. -/
def nObsNoSingles (limit : Option K) (l : List (Obs K)) : Option Nat :=
  let v := vis limit l
  if v.length = 0 then some 0
  else (bincount (v.map (·.night))).map (fun n => (n.filter (fun c => decide (1 < c))).sum)

/-- `NNightsMetric.run`, lines 300-305. -/
def nNights (limit : Option K) (l : List (Obs K)) : Nat :=
  let v := vis limit l
  if v.length = 0 then 0 else (uniqueInt (v.map (·.night))).length

end Visible

/-- `ObsArcMetric.run`, lines 324-329. -/
def obsArc [Zero K] [Sub K] [LinearOrder K] (limit : Option K) (l : List (Obs K)) : K :=
  match (vis limit l).map (·.mjd) with
  | [] => 0
  | t :: ts => ts.foldl max t - ts.foldl min t

section Activity
variable [Field K] [LinearOrder K] [FloorRing K]

/-- `self.window_bins`, line 738. -/
def windowBins (window surveyYears : K) : List K :=
  Slicers.arange 0 (surveyYears * 365 + window / 2) window

/-- `ActivityOverTimeMetric.run`, lines 742-751. -/
def activityOverTime (window surveyYears badval : K) (limit : Option K) (l : List (Obs K)) : K :=
  let bins := windowBins window surveyYears
  let v := vis limit l
  if v.length = 0 then badval
  else
    let n := histogram bins (v.map (fun o => (o.night : K)))
    ((n.filter (fun c => decide (0 < c))).length : K) / (bins.length : K)

/-- Python's `x % m` of floats. -/
def pyMod (x m : K) : K := x - m * (⌊x / m⌋ : K)

/-- The mean anomaly of line 834, for orbits given by their time of perihelion; `twoPi`
is `2 * np.pi`. -/
def anomalyFromPeri (twoPi period tPeri mjd : K) : K := pyMod ((mjd - tPeri) / period) twoPi

/-- The mean anomaly of lines 830-832, for orbits given by the anomaly (in degrees) at an
epoch. -/
def anomalyFromEpoch (twoPi period anomaly epoch mjd : K) : K :=
  pyMod ((anomaly + (mjd - epoch) / period * 360) * (twoPi / 360)) twoPi

/-- `self.anomaly_bins`, lines 811-812. -/
def anomalyBins (twoPi binSize : K) : List K := Slicers.arange 0 twoPi binSize ++ [twoPi]

/-- `ActivityOverPeriodMetric.run`, lines 838-843, given the anomaly of each visible
observation. -/
def activityOverPeriod (twoPi binSize badval : K) (anomalies : List K) : K :=
  let bins := anomalyBins twoPi binSize
  if anomalies.length = 0 then badval
  else
    let n := histogram bins anomalies
    ((n.filter (fun c => decide (0 < c))).length : K) / ((bins.length - 1 : Nat) : K)

end Activity

section Counting

/-- `(n_idx - np.roll(n_idx, 1))[1:]` followed by the last night, lines 411-418 and
968-973: the number of observations on each of the nights `np.unique(nights)`. -/
def obsPerNight (nights : List Int) : List Int :=
  let nIdx := (uniqueInt nights).map (fun d => (searchsortedLeft nights d : Int))
  let rolled := nIdx.getLast?.toList ++ nIdx.dropLast
  (List.zipWith (fun a b => a - b) nIdx rolled).tail ++
    (nIdx.getLast?.map (fun i => (nights.length : Int) - i)).toList

/-- `n[np.where(obs_per_night >= self.n_obs_per_night)]`, lines 420, 976. -/
def nightsWith (k : Nat) (nights : List Int) : List Int :=
  (((uniqueInt nights).zip (obsPerNight nights)).filter (fun x => decide ((k : Int) ≤ x.2))).map (·.1)

/-- `MagicDiscoveryMetric.run`, lines 868-878. The nights of all rows are sorted and only
then restricted to the visible positions. -/
def magic [Zero K] [LinearOrder K] (need : Nat) (window : Int) (limit : Option K) (l : List (Obs K)) : Nat :=
  let idx := visIdx limit l
  if idx.length < need then 0
  else
    let sorted := sort (l.map (·.night))
    let t := idx.filterMap (fun i => sorted[i]?)
    let u := uniqueInt t
    (u.filter (fun d => decide ((need : Int) ≤
      (searchsortedLeft (t.map (· - window)) d : Int) - (searchsortedLeft t d : Int)))).length

variable [Field K] [LinearOrder K]

/-- Lines 910-913 and 959-962. -/
def fast (psf : K) (o : Obs K) : Bool := decide (24 * psf * o.seeing / o.expTime ≤ o.velocity)

/-- `HighVelocityMetric.run`, lines 906-914. -/
def highVelocity (psf : K) (limit : Option K) (l : List (Obs K)) : Nat :=
  ((vis limit l).filter (fast psf)).length

/-- `HighVelocityNightsMetric.run`, lines 955-980. -/
def highVelocityNights (psf badval : K) (k : Nat) (limit : Option K) (l : List (Obs K)) : K :=
  let v := vis limit l
  if v.length = 0 then badval
  else
    let h := v.filter (fast psf)
    if h.length = 0 then 0
    else
      match nightsWith k (h.map (·.night)) with
      | [] => badval
      | d :: _ =>
        match l.filter (fun o => decide (o.night = d)) with
        | [] => badval
        | o :: _ => o.mjd

end Counting

section Colours
variable [Field K] [LinearOrder K]

/-- The clipped signal to noise, lines 1048-1052 and 1148-1152. -/
def clipSnr (snrMax : K) (limit : Option K) (o : Obs K) : K :=
  match limit with
  | some s => if o.snr ≤ s then 0 else min o.snr snrMax
  | none => if o.vis = 0 then 0 else min o.snr snrMax

/-- `np.sum(clip_snr[match]) / self.snr_max`, lines 1062, 1160. -/
def snrWeight (snrMax : K) (limit : Option K) (f : String) (l : List (Obs K)) : K :=
  ((l.filter (fun o => decide (o.band = f))).map (clipSnr snrMax limit)).sum / snrMax

/-- The flag of lines 1176-1194, from the bands in `filter_weight`. -/
def colorFlag (has : String → Bool) : Nat :=
  let six := ["u", "g", "r", "i", "z", "y"]
  let five := ["g", "r", "i", "z", "y"]
  if (six.filter has).length = 0 then 0
  else if six.all has then 4
  else if five.all has then 3
  else if (five.filter has).length = 4 then 2
  else if has "g" then
    if (has "r" || has "i") && (has "z" || has "y") then 1 else 0
  else 0

/-- `ColorAsteroidMetric.run`, lines 1147-1196. -/
def colorAsteroid (weight snrMax : K) (badval : Nat) (limit : Option K) (l : List (Obs K)) : Nat :=
  if (l.filter (fun o => decide (0 < clipSnr snrMax limit o))).length = 0 then badval
  else colorFlag (fun f => decide (weight < snrWeight snrMax limit f l))

/-- `LightcurveColorOuterMetric.run`, lines 1257-1282. -/
def lightcurveColor (numReq numSec : Nat) (bands : List String) (limit : Option K) (l : List (Obs K)) : Nat :=
  let v := vis limit l
  if v.length = 0 then 0
  else
    let n := fun f => (v.filter (fun o => decide (o.band = f))).length
    let lightcurves := (bands.filter (fun f => decide (numReq ≤ n f))).dedup
    let colors := (bands.filter (fun f => decide (numSec ≤ n f))).dedup
    let flag := lightcurves.length
    if 0 < (colors.filter (fun f => decide (f ∉ lightcurves))).length then
      if lightcurves.length = 0 then 0 else flag + 1
    else flag

/-- `InstantaneousColorMetric.run`, lines 1323-1342; `dTime` is `self.n_hours / 24`. -/
def instantaneousColor (nPairs : Nat) (snrLimit dTime : K) (one two : String) (l : List (Obs K)) : Nat :=
  let v := l.filter (fun o => decide (snrLimit ≤ o.snr))
  if v.length < nPairs * 2 then 0
  else
    let t1 := (v.filter (fun o => decide (o.band = one))).map (·.mjd)
    let t2 := (v.filter (fun o => decide (o.band = two))).map (·.mjd)
    if t1.length = 0 || t2.length = 0 then 0
    else
      let dt := t2.map (fun t =>
        let i : Int := (searchsortedRight t1 t : Int) - 1
        let i : Nat := if 0 < i then i.toNat else 0
        t - t1.getD i 0)
      if nPairs ≤ (dt.filter (fun d => decide (d < dTime))).length then 1 else 0

/-- `np.median` -/
def median (xs : List K) : K :=
  let s := sort xs
  let n := s.length
  if n % 2 = 1 then s.getD (n / 2) 0 else (s.getD (n / 2 - 1) 0 + s.getD (n / 2) 0) / 2

/-- `np.max(xs) - np.min(xs)` -/
def ptp (xs : List K) : K :=
  match xs with
  | [] => 0
  | x :: xs => xs.foldl max x - xs.foldl min x

/-- The condition of lines 1067-1083 on the longitudes and phase angles of the visible
observations in one band. -/
def inversionOk [FloorRing K] (ecL phase : List K) : Bool :=
  let med := median ecL
  let centred := ecL.map (fun x => pyMod (x - med) 360)
  let mean := centred.sum / (centred.length : K)
  let aDev := (centred.map (fun x => |x - mean|)).sum / (centred.length : K)
  let dL := ptp ecL
  decide (90 ≤ dL) && decide (dL / 8 ≤ aDev) && decide (5 ≤ ptp phase)

/-- `LightcurveInversionAsteroidMetric.run`, lines 1046-1085. -/
def inversion [FloorRing K] (weight snrMax : K) (bands : List String) (limit : Option K) (l : List (Obs K)) : Nat :=
  if (l.filter (fun o => decide (0 < clipSnr snrMax limit o))).length = 0 then 0
  else if bands.any (fun f => decide (weight ≤ snrWeight snrMax limit f l) &&
      (let v := (l.filter (fun o => decide (o.band = f))).filter (fun o => decide (0 < clipSnr snrMax limit o))
       inversionOk (v.map (·.ecLon)) (v.map (·.phase)))) then 1 else 0

end Colours

section Known
variable [LinearOrder K]

/-- One period of `KnownObjectsMetric`: the limits of time, the magnitude and the
efficiency. `none` as a limit is no limit. -/
structure Period (K : Type*) where
  from_ : Option K
  until_ : Option K
  mag : K
  eff : K

/-- The rows of a period, lines 1468-1469 and like. -/
def inPeriod (elongThresh : K) (p : Period K) (o : Obs K) : Bool :=
  (match p.from_ with | some a => decide (a ≤ o.mjd) | none => true) &&
  (match p.until_ with | some b => decide (o.mjd < b) | none => true) &&
  decide (elongThresh ≤ o.elong) && decide (o.magV ≤ p.mag)

/-- `_pick_obs`, lines 1452-1461: `draws` are the random numbers. -/
def pickObs (draws : List K) (eff : K) (times : List K) : Option K :=
  match ((draws.zip times).filter (fun x => decide (x.1 ≤ eff))).map (·.2) with
  | [] => none
  | t :: ts => some (ts.foldl min t)

/-- The periods in turn, lines 1468-1496. `draws i` are the random numbers of period `i`. -/
def knownLoop (elongThresh : K) (draws : Nat → List K) (l : List (Obs K)) : Nat → List (Period K) → Option K
  | _, [] => none
  | i, p :: ps =>
    match pickObs (draws i) p.eff ((l.filter (inPeriod elongThresh p)).map (·.mjd)) with
    | some t => some t
    | none => knownLoop elongThresh draws l (i + 1) ps

/-- `KnownObjectsMetric.run`, lines 1463-1496, with the switch times `t1 t2 t3`. -/
def knownObjects (elongThresh badval t1 t2 t3 m1 m2 m3 m4 e1 e2 e3 e4 : K) (draws : Nat → List K) (l : List (Obs K)) : K :=
  (knownLoop elongThresh draws l 0
    [⟨none, some t1, m1, e1⟩, ⟨some t1, some t2, m2, e2⟩, ⟨some t2, some t3, m3, e3⟩, ⟨some t3, none, m4, e4⟩]).getD badval

end Known

section Discovery
variable [Field K] [LinearOrder K]

/-- The parameters of `DiscoveryMetric`, lines 362-373; the two counts are at least 1. -/
structure Disc (K : Type*) where
  nObs : Nat := 2
  tMin : K
  tMax : K
  nNights : Nat := 3
  tWindow : Int := 15

/-- The result of lines 471-476. -/
structure Found where
  start : List Nat
  stop : List Nat
  nChances : Nat
  deriving DecidableEq

/-- `a[idx]` -/
def index {β : Type*} (a : List β) (idx : List Nat) : List β := idx.filterMap (fun i => a[i]?)

/-- `(dt >= self.t_min) & (dt <= self.t_max)` -/
def Disc.inRange (c : Disc K) (dt : K) : Bool := decide (c.tMin ≤ dt) && decide (dt ≤ c.tMax)

/-- Lines 441-443: the time from each observation to the one `n_obs_per_night - 1` later.
`np.roll` by `1 - n` is the rotation to the left by `n - 1`. -/
def Disc.steps (c : Disc K) (t : List K) : List K :=
  (List.zipWith (fun a b => a - b) (t.rotate (c.nObs - 1)) t).dropLast

/-- `good` for one night, lines 424-445: `first` and `last` are the positions of its first
and last observation in time order, `times` the sorted times, `p` is `vis_sort`. The loop
takes the rows `vis_sort[first] .. vis_sort[last]` of the sorted times. -/
def Disc.goodNight (c : Disc K) (times : List K) (p : List Nat) (fl : Nat × Nat) : Bool :=
  let dt := times.getD fl.2 0 - times.getD fl.1 0
  c.inRange dt ||
    (decide (c.nObs < fl.2 + 1 - fl.1) && decide (c.tMax < dt) &&
      (c.steps (pySlice times (p.getD fl.1 0) (p.getD fl.2 0 + 1))).any c.inRange)

/-- Lines 405-448: first and last position, in time order, of the nights that could make
tracklets. -/
def Disc.tracklets (c : Disc K) (v : List (Obs K)) (p : List Nat) : List (Nat × Nat) :=
  let s := index v p
  let nights := s.map (·.night)
  let times := s.map (·.mjd)
  ((nightsWith c.nObs nights).map (fun d => (searchsortedLeft nights d, searchsortedRight nights d - 1))).filter
    (c.goodNight times p)

/-- Lines 451-475: `goodIdx`, `goodEnds` index `v = sso_obs[vis]`. -/
def Disc.tracks (c : Disc K) (v : List (Obs K)) (goodIdx goodEnds : List Nat) : Option Found :=
  if goodIdx.length < c.nNights then none
  else
    let gn := (index v goodIdx).map (·.night)
    let delta := List.zipWith (fun a b => a - b) (gn.rotate (c.nNights - 1)) gn
    let start := (List.range delta.length).filter (fun i =>
      match delta[i]? with | some x => decide (0 ≤ x) && decide (x ≤ c.tWindow) | none => false)
    let ends := start.map (fun s =>
      ((List.range gn.length).filter (fun i => decide (gn.getD i 0 - gn.getD s 0 ≤ c.tWindow))).foldl max 0)
    some { start := (index goodIdx start).take 1, stop := (index goodEnds ends).take 1, nChances := start.length }

/-- `DiscoveryMetric.run`, lines 401-476; `none` is `badval`. `v` is `sso_obs[vis]` and `p`
its `np.argsort` by time. -/
def Disc.run (c : Disc K) (v : List (Obs K)) (p : List Nat) : Option Found :=
  if v.length = 0 then none
  else
    let k := c.tracklets v p
    c.tracks v (index p (k.map (·.1))) (index p (k.map (·.2)))

/-- `DiscoveryNObsMetric.run`, lines 537-543. -/
def Found.nObs (r : Found) : Int :=
  match r.start, r.stop with
  | s :: _, e :: _ => (e : Int) - (s : Int)
  | _, _ => 0

/-- `DiscoveryTimeMetric.run`, lines 564-576 (likewise the distance, position and velocity):
the entry of the time sorted rows. -/
def Found.row (r : Found) (v : List (Obs K)) (p : List Nat) : Option (Obs K) :=
  match r.start with
  | [] => none
  | s :: _ => (index v p)[s]?

end Discovery

end Verif.Mo
