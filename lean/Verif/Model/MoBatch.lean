import Mathlib.Algebra.Order.Floor.Semiring
import Mathlib.Data.Rat.Floor
import Verif.Model.Batch2
import Verif.Model.MoMetrics

/-!
# Model of the batches for moving objects

`rubin_sim/maf/batches/moving_objects_batch.py`: `quick_discovery_batch`, `discovery_batch`, `characterization_inner_batch`,
`characterization_outer_batch` and the choice of curves in `plot_completeness`. Of a bundle the names are kept, and the criterion of discovery.
Times are fractions of a day, as rationals. Stackers, children of the bundles, plots and colours are not modelled. -/

namespace Verif.MoBatch

open Verif.Mo Verif.Batch2

abbrev Str := List Char

/-- A number as text. -/
def digits (n : Nat) : Str := Nat.toDigits 10 n

/-- A criterion: the words of its label and the arguments of `DiscoveryMetric`; `limit` is `snr_limit`. -/
structure Crit where
  words : Str
  disc : Disc ℚ
  limit : Option ℚ := none

/-- `t_min = 5.0 / 60.0 / 24.0`, lines 205 and 350. -/
def tMin : ℚ := 5 / 60 / 24

/-- `t_max = 90.0 / 60.0 / 24.0`, lines 206 and 351. -/
def tMax : ℚ := 90 / 60 / 24

/-- Pairs in some nights of a window. -/
def pairs (k : Nat) (w : Int) : Disc ℚ := { nObs := 2, tMin := tMin, tMax := tMax, nNights := k, tWindow := w }

/-- The criteria of `quick_discovery_batch`, `moving_objects_batch.py:208-262`. -/
def quickCrits : List Crit :=
  [{ words := "3 pairs in 15 nights".toList, disc := pairs 3 15 },
   { words := "3 pairs in 30 nights".toList, disc := pairs 3 30 }]

/-- The criterion of lines 384-394. -/
def triplets : Disc ℚ := { nObs := 3, tMin := tMin, tMax := 120 / 60 / 24, nNights := 3, tWindow := 30 }

/-- The criterion of lines 412-422. -/
def quad : Disc ℚ := { nObs := 4, tMin := tMin, tMax := 150 / 60 / 24, nNights := 1, tWindow := 2 }

/-- The criterion of lines 560-571. -/
def single : Disc ℚ := { nObs := 1, tMin := tMin, tMax := tMax, nNights := 1, tWindow := 5 }

/-- The criteria of `discovery_batch` that use `DiscoveryMetric`, lines 355-614. -/
def discCrits : List Crit :=
  [{ words := "4 pairs in 20 nights".toList, disc := pairs 4 20 },
   { words := "3 triplets in 30 nights".toList, disc := triplets },
   { words := "1 quad in 1 night".toList, disc := quad },
   { words := "3 pairs in 15 nights SNR=5".toList, disc := pairs 3 15, limit := some 5 },
   { words := "3 pairs in 15 nights SNR=4".toList, disc := pairs 3 15, limit := some 4 },
   { words := "3 pairs in 15 nights SNR=3".toList, disc := pairs 3 15, limit := some 3 },
   { words := "3 pairs in 15 nights SNR=0".toList, disc := pairs 3 15, limit := some 0 },
   { words := "Single detection".toList, disc := single },
   { words := "Single pair".toList, disc := pairs 1 5 }]

/-- The name of a `DiscoveryMetric`, `mo_metrics.py:387-391`. -/
def discName (c : Disc ℚ) : Str :=
  "Discovery_".toList ++ digits c.nObs ++ 'x' :: digits c.nNights ++ "in".toList ++ digits c.tWindow.toNat

/-- `MagicDiscovery` and `HighVelocityNights` get the name of their class, `mo_metrics.py:122-125`. -/
def highName : Str := "HighVelocityNights".toList

def magicName : Str := "MagicDiscovery".toList

/-- The words for the losses, `moving_objects_batch.py:162-169`, 306-315. -/
def lossWords (losses : Str) : Except String Str :=
  if losses = "trailing".toList then .ok " trailing loss".toList
  else if losses = "detection".toList then .ok " detection loss".toList
  else .error "ValueError"

/-- One bundle: the label of the population, a blank, the words and the losses. The letters of the slicer are those of `MoObjSlicer`. -/
def bundle (label loss : Str) (x : Str × Str) : Bun :=
  { metric := x.1, info := label ++ ' ' :: (x.2 ++ loss), slicer := "MOOB".toList }

/-- The metric and the words of all bundles of `quick_discovery_batch`. -/
def quickNames : List (Str × Str) := quickCrits.map (fun c => (discName c.disc, c.words))

/-- The metric and the words of all bundles of `discovery_batch`, with lines 616-650. -/
def discNames : List (Str × Str) :=
  discCrits.map (fun c => (discName c.disc, c.words)) ++
  [(highName, "High velocity pair".toList), (magicName, "6 detections in 60 nights".toList)]

/-- `quick_discovery_batch`, lines 127-268. -/
def quickBatch (run label losses : Str) : Except String (List (Str × Bun)) :=
  match lossWords losses with
  | .error e => .error e
  | .ok loss => makeDict run (quickNames.map (bundle label loss))

/-- `discovery_batch`, lines 271-655. -/
def discBatch (run label losses : Str) : Except String (List (Str × Bun)) :=
  match lossWords losses with
  | .error e => .error e
  | .ok loss => makeDict run (discNames.map (bundle label loss))

/-- `DiscoveryMetric.run` of a criterion on the rows `l` of one object, in order of time. -/
def Crit.run (c : Crit) (l : List (Obs ℚ)) : Option Found :=
  c.disc.run (Mo.vis c.limit l) (List.range (Mo.vis c.limit l).length)

/-- Whether `MoCompletenessMetric` with a threshold of 1 counts the object: at least one chance. -/
def chances (r : Option Found) : Nat := match r with | some f => f.nChances | none => 0

/-! ## Characterization -/

/-- `"%.0f" % w` for `w` that is not negative: to the next whole number, halves to the even one. -/
def fmt0 (w : ℚ) : Nat :=
  if w - ⌊w⌋₊ < 1 / 2 then ⌊w⌋₊
  else if 1 / 2 < w - ⌊w⌋₊ then ⌊w⌋₊ + 1
  else if ⌊w⌋₊ % 2 = 0 then ⌊w⌋₊ else ⌊w⌋₊ + 1

/-- The name of the metric of one window, `moving_objects_batch.py:1017` and 1215. -/
def windowName (w : ℚ) : Str := "Chances of detecting activity lasting".toList ++ ' ' :: (digits (fmt0 w) ++ ' ' :: "days".toList)

/-- The name of the metric of one bin, lines 1038 and 1236. -/
def binName (b : ℚ) : Str := "Chances of detecting activity covering".toList ++ ' ' :: (digits (fmt0 b) ++ ' ' :: "deg".toList)

/-- The names of the metrics of `characterization_inner_batch`, lines 965-1098, or of `characterization_outer_batch`, lines 1163-1273. -/
def charNames (inner : Bool) (windows bins : List ℚ) : List Str :=
  ["NObs".toList, "ObsArc".toList] ++ windows.map windowName ++ bins.map binName ++
  (if inner then ["LightcurveInversionAsteroid".toList, "ColorAsteroid".toList] else ["LightcurveColorOuter".toList])

/-- One bundle of these batches. -/
def charBun (label m : Str) : Bun := { metric := m, info := label, slicer := "MOOB".toList }

/-- The two batches: all bundles have the same label (lines 1025, 1046 do not pass `md`). -/
def charBatch (run label : Str) (inner : Bool) (windows bins : List ℚ) : Except String (List (Str × Bun)) :=
  makeDict run ((charNames inner windows bins).map (charBun label))

/-- `np.arange(10, 200, 30.0)`, lines 960 and 1158. -/
def windows0 : List ℚ := [10, 40, 70, 100, 130, 160, 190]

/-- `np.arange(5, 185, 20.0)`, lines 963 and 1161. -/
def bins0 : List ℚ := [5, 25, 45, 65, 85, 105, 125, 145, 165]

/-! ## Plots of completeness -/

/-- `s in t` for texts. -/
def has (s t : Str) : Bool := t.tails.any (fun u => s.isPrefixOf u)

/-- One completeness: its key, and whether `run_completeness_summary` gave it times (lines 706-717). -/
structure Curve where
  key : Str
  timed : Bool
deriving DecidableEq

/-- `keys`, lines 779-782. -/
def wanted (k : Str) : Bool :=
  has "3_pairs_in_30_nights_detection_loss".toList k || has "3_pairs_in_15_nights_detection_loss".toList k

/-- `plotTimes`, lines 786-791. -/
def plotTimes (l : List Curve) : List Curve := l.filter (fun c => wanted c.key && (has "Time".toList c.key && has "Cumulative".toList c.key))

/-- `plotDiff`, lines 786-794. -/
def plotDiff (l : List Curve) : List Curve :=
  l.filter (fun c => wanted c.key && (!has "Time".toList c.key && (has "Chances".toList c.key && has "Differential".toList c.key)))

/-- `plotComp`, lines 786-796. -/
def plotComp (l : List Curve) : List Curve :=
  l.filter (fun c => wanted c.key && (!has "Time".toList c.key && (has "Chances".toList c.key &&
    (!has "Differential".toList c.key && has "Cumulative".toList c.key))))

/-- The plot over time, lines 830-835: `plot_dict["times"]` of every curve. -/
def overTime (l : List Curve) : Except String (List Str) :=
  if (plotTimes l).all (·.timed) then .ok ((plotTimes l).map (·.key)) else .error "KeyError"

/-- `allComp`, lines 881-889. -/
def allComp : List Curve → List Str
  | [] => []
  | c :: l => (if has "DiscoveryNChances".toList c.key && has "Cumulative".toList c.key then [c.key] else []) ++
      ((if has "Magic".toList c.key && has "Cumulative".toList c.key then [c.key] else []) ++ allComp l)

end Verif.MoBatch
