import Mathlib.Algebra.Order.Field.Basic
import Mathlib.Algebra.BigOperators.Group.List.Basic
import Mathlib.Analysis.SpecialFunctions.Trigonometric.Basic

/-!
# Mean redshifts, the Lambert projection, mappings and the map of Gaia

`MultibandMeanzBiasMetric` of `rubin_sim/maf/metrics/cosmology_summary_metrics.py`, `project_lambert` of `rubin_sim/maf/plots/spatial_plotters.py`,
`ApplyMappingMetric` of `rubin_sim/maf/metrics/simple_metrics.py` and the names in the files of `rubin_sim/maf/maps/create_gaia_density_map.py`. The standard deviation
of the depths and the quadratic curve through the four points of the figure are parameters; the straight line is given by the formula of least squares. -/

namespace Verif.Meanz

open Real

/-! ## Bias of the mean redshift -/

section Bias
variable {K : Type*} [Field K] [LinearOrder K]

/-- One tomographic bin in one band: `meanz` and `dz_dm5`. -/
structure Bin (K : Type*) where
  meanz : K
  dz : K

/-- The model of one year: for each bin, the values of the bands. -/
abbrev Year (K : Type*) := List (List (String × Bin K))

/-- `self.tomo_model["year%i" % n]`, by its number. -/
abbrev Tomo (K : Type*) := List (Nat × Year K)

inductive Err | key | index | type | value
  deriving DecidableEq

/-- The loop of `compute_dzfromdm`, `cosmology_summary_metrics.py:501-503`, over the numbers `zs` of the bins. -/
def readBins (y : Year K) (band : String) : List Nat → Except Err (List (Bin K))
  | [] => .ok []
  | z :: zs =>
    match y[z]? with
    | none => .error .index
    | some row =>
      match row.lookup band with
      | none => .error .key
      | some b =>
        match readBins y band zs with
        | .error e => .error e
        | .ok r => .ok (b :: r)

/-- `compute_dzfromdm`, `cosmology_summary_metrics.py:475-505`: the model of the year after `year`. -/
def dzFromDm (m : Tomo K) (zbins : Nat) (band : String) (year : Nat) : Except Err (List (Bin K)) :=
  if zbins = 0 then .ok [] else
  match m.lookup (year + 1) with
  | none => .error .key
  | some y => readBins y band (List.range zbins)

/-- `np.polyfit(x, y, 1)` and its values at `x`, lines 582-585. With one point, or all at one place, the line is flat. -/
def lineFit (p : List (K × K)) : List K :=
  let n : K := p.length
  let mx := (p.map (·.1)).sum / n
  let my := (p.map (·.2)).sum / n
  let sxy := (p.map (fun a => (a.1 - mx) * (a.2 - my))).sum
  let sxx := (p.map (fun a => (a.1 - mx) * (a.1 - mx))).sum
  p.map (fun a => my + sxy / sxx * (a.1 - mx))

/-- `max_z_use`, lines 509, 528: 1.0 + 2 * 0.2. -/
def maxZ : K := 14 / 10

/-- `compute_Clbias`, lines 533-586: `curve` is `poly_fit`; bins beyond the limit are left out. `np.polyfit` of nothing is a `TypeError`. -/
def clBias (curve : K → K) (bins : List (Bin K)) (rms : K) : Except Err (List K) :=
  match bins.filter (fun b => decide (b.meanz < maxZ)) with
  | [] => .error .type
  | b :: bs => .ok (lineFit ((b :: bs).map (fun b => (b.meanz, curve b.meanz * (|b.dz| * rms / (2 / 100))))))

/-- `totclbias += clbias`, line 619: the shape of what there is stays. -/
def addTo : List K → List K → Except Err (List K)
  | t, [c] => .ok (t.map (· + c))
  | t, c => if t.length = c.length then .ok (List.zipWith (· + ·) t c) else .error .value

/-- One band of the loop, lines 612-620; `none` is the number 0 that the sum starts with. -/
def stepBand (curve : K → K) (m : Tomo K) (zbins year : Nat) (t : Option (List K)) (x : String × K) : Except Err (Option (List K)) :=
  match dzFromDm m zbins x.1 year with
  | .error e => .error e
  | .ok bins =>
    match clBias curve bins x.2 with
    | .error e => .error e
    | .ok c =>
      match t with
      | none => .ok (some c)
      | some t =>
        match addTo t c with
        | .error e => .error e
        | .ok s => .ok (some s)

/-- The loop over the bands, lines 612-620. -/
def bands (curve : K → K) (m : Tomo K) (zbins year : Nat) : Option (List K) → List (String × K) → Except Err (Option (List K))
  | t, [] => .ok t
  | t, x :: xs =>
    match stepBand curve m zbins year t x with
    | .error e => .error e
    | .ok t' => bands curve m zbins year t' xs

/-- `result["y1ratio"] = y1ratio`, lines 628-632, into an array of `zbins`. -/
def fill (zbins : Nat) (div : K) : Option (List K) → Except Err (List K)
  | none => .ok (List.replicate zbins 0)
  | some [c] => .ok (List.replicate zbins (c / div))
  | some t => if t.length = zbins then .ok (t.map (· / div)) else .error .value

/-- `run`, lines 473-633: `y1ratio` and `y10ratio`, with the deviations of the depths of the bands. -/
def run (curve : K → K) (m : Tomo K) (zbins year : Nat) (rms : List (String × K)) : Except Err (List K × List K) :=
  match bands curve m zbins year none rms with
  | .error e => .error e
  | .ok t =>
    match fill zbins (13 / 1000) t with
    | .error e => .error e
    | .ok y1 =>
      match fill zbins (3 / 1000) t with
      | .error e => .error e
      | .ok y10 => .ok (y1, y10)

end Bias

/-! ## Lambert projection -/

/-- `r_polar`, `spatial_plotters.py:899`. -/
noncomputable def rPolar (lat : ℝ) : ℝ := 2 * cos ((π / 2 + lat) / 2)

/-- `project_lambert`, `spatial_plotters.py:893-905`. -/
noncomputable def lambert (lon lat : ℝ) : ℝ × ℝ := (rPolar lat * cos (lon + π / 2), rPolar lat * sin (lon + π / 2))

/-- `max_val`, `spatial_plotters.py:1014-1016`. -/
noncomputable def limit : ℝ := max |(lambert 0 (10 * π / 180)).1| |(lambert 0 (10 * π / 180)).2|

/-! ## Mappings -/

/-- `ApplyMappingMetric.run`, `simple_metrics.py:570-578`, for an array: `None` for what is not in the mapping. -/
def applyArray {α β : Type*} [BEq α] (mapping : List (α × β)) (l : List α) : List (Option β) := l.map (fun x => mapping.lookup x)

/-- The same for a single value: `KeyError`. -/
def applyOne {α β : Type*} [BEq α] (mapping : List (α × β)) (x : α) : Except String β :=
  match mapping.lookup x with
  | some y => .ok y
  | none => .error "KeyError"

/-! ## The map of Gaia -/

/-- The names in a file saved on the way, `create_gaia_density_map.py:137-143`. -/
def saved : List String := ["starDensity", "bins", "icheck", "overMaxMask"]

/-- The names that are read on a restart, `create_gaia_density_map.py:63-65`. -/
def restoreKeys : List String := ["star_density", "icheck", "over_max_mask"]

/-- Lines 60-65: a restart from the names of a file. -/
def restore (names : List String) : Except String Unit :=
  if restoreKeys.all (fun k => names.contains k) then .ok () else .error "KeyError"

end Verif.Meanz
