import Mathlib.Algebra.Order.Group.Abs
import Mathlib.Algebra.Field.Defs
import Mathlib.Data.List.Basic

/-!
# Model of the plots of metrics against orbits

`rubin_sim/maf/plots/mo_plotters.py`: the cells of `MetricVsOrbit` (192-237), the points of `MetricVsOrbitPoints`
(293-354) and the mark of `MetricVsH` (129-135), and the dictionary of `make_completeness_bundle`
(`rubin_sim/maf/metric_bundles/mo_metric_bundle.py:89-107`).

The keys `hval` and `hwidth` are given (without them there is a `KeyError`, C383). The edges of the bins are a parameter,
in increasing order. An orbit is given by its two values. Masked values are filled (216-219), so values are a list.
Objects either share the values of H, then the metric has a value for each object and H, or have one H each, then it
has one value for each object. Colours and contours are not modelled.
-/

namespace Verif.OrbitPlots

section Cells
variable {K V W : Type*} [LinearOrder K]

/-- `np.digitize(vals, bins)`: the number of edges that are not above the value. -/
def digitize (bins : List K) (x : K) : Nat := bins.countP (fun b => decide (b ≤ x))

/-- `np.where(idxs == i)[0]` for `idxs = np.digitize(vals, bins) - 1`, `mo_plotters.py:226-234`. -/
def matchIdx (bins : List K) (vals : List K) (i : Nat) : List Nat :=
  (List.range vals.length).filter (fun j => match vals[j]? with
    | some x => decide ((digitize bins x : Int) - 1 = (i : Int))
    | none => false)

/-- `m_vals[idxs]`, `none` is the `IndexError` for a number that is too large. -/
def takeVals (vals : List V) (idxs : List Nat) : Option (List V) := idxs.mapM (fun j => vals[j]?)

/-- `xmatch`, `mo_plotters.py:234`: places in `ymatch`. -/
def xMatch (bins xs : List K) (ymatch : List Nat) (ix : Nat) : List Nat :=
  (List.range ymatch.length).filter (fun k => match ymatch[k]? with
    | some j => decide (j ∈ matchIdx bins xs ix)
    | none => false)

/-- One cell, `mo_plotters.py:232-237`. -/
def cell (xbins ybins xs ys : List K) (mvals : List V) (reduce : List V → W) (bad : W) (iy ix : Nat) : Option W :=
  let ymatch := matchIdx ybins ys iy
  (takeVals mvals ymatch).bind (fun row =>
    (takeVals row (xMatch xbins xs ymatch ix)).map (fun l => if l.length > 0 then reduce l else bad))

/-- All cells, `mo_plotters.py:231-237`. -/
def cells (xbins ybins xs ys : List K) (mvals : List V) (reduce : List V → W) (bad : W) : Option (List (List W)) :=
  (List.range ybins.length).mapM (fun iy =>
    (List.range xbins.length).mapM (fun ix => cell xbins ybins xs ys mvals reduce bad iy ix))

end Cells

section Own
variable {K V W : Type*} [Field K] [LinearOrder K]

/-- `hidx` for objects with an H each, `mo_plotters.py:209-215`. -/
def ownIdx (hs : List K) (hval hwidth : K) : List Nat :=
  (List.range hs.length).filter (fun j => match hs[j]? with
    | some h => decide (|h - hval| ≤ hwidth / 2)
    | none => false)

/-- `m_vals` for objects with an H each, `mo_plotters.py:218-219`. -/
def ownVals (hs : List K) (hval hwidth : K) (vals : List V) : List V :=
  (ownIdx hs hval hwidth).filterMap (fun j => vals[j]?)

/-- `MetricVsOrbit` for objects with an H each. -/
def orbitOwn (xbins ybins xs ys hs : List K) (hval hwidth : K) (vals : List V) (reduce : List V → W) (bad : W) :
    Option (List (List W)) :=
  cells xbins ybins xs ys (ownVals hs hval hwidth vals) reduce bad

/-- Errors of `MetricVsOrbitPoints`. -/
inductive PErr
  | indexError
  | valueError
  | unbound
deriving DecidableEq

/-- `MetricVsOrbitPoints`, `mo_plotters.py:315-354`: the points with their colours. With an H each the values are a
table of one column, whose places (329) do not fit the list of orbits (331); the number of colours has to be that of
the points (339-342); `cbar` is only there with points in the foreground (350, 354). -/
def points (own fore back : Bool) (orbits : List (K × K)) (mvals : List V) : Except PErr (List ((K × K) × V)) :=
  if back && own then .error .indexError
  else if fore then (if mvals.length = orbits.length then .ok (orbits.zip mvals) else .error .valueError)
  else .error .unbound

end Own

section Mark
variable {K : Type*}

/-- The dictionary of a plotter: its defaults, then the options of the user. -/
def lookupOpt (defaults user : List (String × Option K)) (k : String) : Option (Option K) :=
  ((user ++ defaults).find? (fun e => decide (e.1 = k))).map Prod.snd

/-- `MetricVsH`, `mo_plotters.py:129-135`: where a line is drawn for a mark; the default of `Hmark` is None (37). -/
def drawnMark (user : List (String × Option K)) : Option K := (lookupOpt [("Hmark", none)] user "Hmark").join

/-- A key of a dictionary is set. -/
def setOpt {A : Type*} (d : List (String × A)) (k : String) (v : A) : List (String × A) :=
  (k, v) :: d.filter (fun e => decide (e.1 ≠ k))

/-- The dictionary that `make_completeness_bundle` gives to the new bundle, `mo_metric_bundle.py:89-106`: that of the old
one with another label. -/
def completenessDict {A : Type*} (old : List (String × A)) (label : A) : List (String × A) := setOpt old "label" label

end Mark

end Verif.OrbitPlots
