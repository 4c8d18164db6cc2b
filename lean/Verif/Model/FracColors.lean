import Mathlib.Data.List.Dedup
import Mathlib.Data.List.Infix

/-!
# Colours of fractions of populations

Model of the colours of `plot_fractions`, `rubin_sim/maf/batches/moving_objects_batch.py:1374-1389`, with the colours that
`PlotHandler` gives to bundles without one (`plot_handler.py:456-488`), for bundles without a filter in the constraint. The
names are those of `run_fraction_summary` (1314-1329) and `fraction_population_at_threshold`.
-/

namespace Verif.FracColors

/-- Colours; `random` stands for those of line 482-487, which are different with probability one. -/
inductive Color
  | b | cyan | orange | r | magenta | k | random (i : Nat)
  deriving DecidableEq

/-- `"6" in k` and the like. -/
def has (sub name : List Char) : Bool := decide (sub <:+: name)

/-- `moving_objects_batch.py:1374-1389`: the colour in the dict of a bundle, none before. The last one stays. -/
def setColor (name : List Char) : Option Color :=
  let c : Option Color := none
  let c := if has ['6'] name then some .b else c
  let c := if has ['5'] name then some .cyan else c
  let c := if has ['4'] name then some .orange else c
  let c := if has ['2'] name then some .r else c
  let c := if has ['1'] name then some .magenta else c
  if has "Lightcurve Inversion".toList name then some .k else c

/-- `_build_colors`, `plot_handler.py:456-488`, and the update with the dict of the bundle (202). -/
def colors (names : List (List Char)) : List Color :=
  let auto := names.map (fun n => (setColor n).getD .b)
  if 1 < names.length ∧ auto.dedup.length = 1 then
    names.mapIdx (fun i n => (setColor n).getD (.random i))
  else auto

/-- The names of the fractions of asteroids, 1314-1318. -/
def asteroid : List (List Char) :=
  ["FractionPop Lightcurve Inversion".toList, "FractionPop 6 of ugrizy".toList, "FractionPop 5 of grizy".toList,
    "FractionPop 4 of grizy".toList, "FractionPop 2 of g, r or i, z or y".toList]

/-- The names of the fractions of outer objects, 1326-1329. -/
def outer : List (List Char) :=
  ["FractionPop 6 filters".toList, "FractionPop 5 filters".toList, "FractionPop 4 filters".toList,
    "FractionPop 3 filters".toList, "FractionPop 2 filters".toList, "FractionPop 1 filters".toList]

end Verif.FracColors
