import Mathlib.Analysis.SpecialFunctions.Log.Base
import Mathlib.Analysis.SpecialFunctions.Pow.Real
import Mathlib.Analysis.SpecialFunctions.Sqrt

/-!
# Model of the metric for dwarf galaxies and of two tables of colours

`rubin_sim/maf/maf_contrib/lv_dwarfs/lv_dwarfs_metrics.py`,
`rubin_sim/maf/maf_contrib/lss_obs_strategy/galaxy_counts_metric_extended.py` and
`rubin_sim/maf/utils/stellar_mags.py`. Floats are real numbers. The draws of the random
generator are any numbers, the depths come from other metrics (`ExgalM5`), and the integral
over magnitudes and the function `erfc` are parameters.
-/

namespace Verif.Dwarf

inductive PyErr | value | key | attribute
  deriving DecidableEq, Repr

/-! ## Luminosity functions -/

/-- `make__fake_old_galaxy_lf`, `lv_dwarfs_metrics.py:62-75`: the bins of the file moved to
the distance and the counts scaled. -/
noncomputable def fakeLF (lf : List (ℝ × ℝ)) (intB mu : ℝ) : List (ℝ × ℝ) :=
  let model := 6.856379 + mu
  let factor := (10 : ℝ) ^ (-0.4 * (intB - model))
  lf.map (fun b => (b.1 + mu, factor * b.2))

/-- `_sum_luminosity`, `lv_dwarfs_metrics.py:115-123`; an empty list is an IndexError, here 0. -/
noncomputable def sumLuminosity (lf : List (ℝ × ℕ)) : ℝ :=
  match lf with
  | [] => 0
  | b :: rest =>
    let tot := ((b :: rest).map (fun x => ((List.replicate x.2 x.1).map (fun m => (10 : ℝ) ^ ((b.1 - m) / 2.5))).sum)).sum
    b.1 - 2.5 * Real.logb 10 tot

/-- The distance modulus, `lv_dwarfs_metrics.py:149-150`, for a distance in Mpc. -/
noncomputable def distMod (d : ℝ) : ℝ := 5 * Real.logb 10 (d * 1000000) - 5

/-! ## The search for the limit -/

section
variable {K : Type*} [LinearOrder K]

/-- The loop of `_dwarf_sblimit`, `lv_dwarfs_metrics.py:154-173`: `draw k` are the numbers
of stars in g and i of the `k`th dwarf, brightest first; the result is the number of dwarfs
tried and the last numbers. -/
def search (need : K) (draw : Nat → K × K) : Nat → Nat → K × K → Nat × (K × K)
  | 0, k, cur => (k, cur)
  | fuel + 1, k, cur => if need < cur.1 ∧ need < cur.2 then search need draw fuel (k + 1) (draw k) else (k, cur)

/-- The whole of the search, `lv_dwarfs_metrics.py:152-201`: the index of the dwarf whose
magnitude is returned and the flag, none if there is no limit. There are 150 dwarfs with
magnitudes below 5. -/
def limitDwarf [OfNat K 0] [OfNat K 1000000] (need : K) (draw : Nat → K × K) : Option (Nat × String) :=
  let r := search need draw 150 0 (1000000, 1000000)
  if 1 < r.1 ∧ 0 < r.2.1 ∧ 0 < r.2.2 then some (r.1 - 1, if r.2.1 < r.2.2 then "g" else "i") else none

end

/-! ## The number of stars that is needed -/

/-- The attributes of the inner metric that matter: `star_density.py:52` has `mag_limit`. -/
abbrev Attrs := List (String × ℝ)

def setAttr (a : Attrs) (k : String) (v : ℝ) : Attrs := (k, v) :: a.filter (fun x => x.1 ≠ k)

/-- `lv_dwarfs_metrics.py:331-334`: the limit is set and the density of stars asked for, which
`star_density.py:69` does at `mag_limit`; `lum` is the luminosity function. -/
def starDensity (lum : ℝ → ℝ) (a : Attrs) (limit : ℝ) : Except PyErr ℝ :=
  match (setAttr a "magLimit" limit).lookup "mag_limit" with
  | none => .error .attribute
  | some m => .ok (lum m)

/-- The number of stars needed, `lv_dwarfs_metrics.py:342-361`. -/
noncomputable def starsRequired (nsigma cmdFrac contamination ngal nstar : ℝ) : ℝ :=
  let ngal := if ngal < 10 then 10000000 else ngal
  nsigma * √(ngal / 3600 * cmdFrac * contamination + nstar * 3600 * cmdFrac)

/-- What may be given for the limit of the distance. -/
inductive DistLim
  | num (v : ℝ)
  | quantity (v : ℝ) (unitMpc : ℝ)

/-- `lv_dwarfs_metrics.py:363-379`: the number that is passed on as a distance in Mpc;
`point` is the distance of the point. -/
def distValue (lim : Option DistLim) (point : ℝ) : Except PyErr ℝ :=
  match lim with
  | none => .ok point
  | some (.num _) => .error .attribute
  | some (.quantity v _) => .ok v

/-! ## Counts of galaxies -/

/-- The correction for the band, `galaxy_counts_metric_extended.py:134-144`. -/
noncomputable def bandCorrection (b : String) : ℝ :=
  let f : ℝ := 0.4
  match b with
  | "u" => -3 * f
  | "g" => -2 * f
  | "r" => -1 * f
  | "i" => 0
  | "z" => f
  | "y" => 2 * f
  | _ => 0

/-- The number of galaxies per magnitude, `galaxy_counts_metric_extended.py:146-176`, with
the redshift bin that is used: an unknown one is changed to all. -/
noncomputable def galCount (laws : List (String × ℝ × ℝ)) (cfht : Bool) (bin band : String) (complete : ℝ) (mag : ℝ) : String × ℝ :=
  let bin := if bin ≠ "all" ∧ laws.lookup bin = none then "all" else bin
  let law := fun ab : ℝ × ℝ => (10 : ℝ) ^ (ab.1 * (mag + bandCorrection band) + ab.2)
  let dn :=
    if bin = "all" then
      if cfht then 46 * 3600 * (10 : ℝ) ^ (0.31 * (mag + bandCorrection band - 25))
      else (laws.map (fun l => law l.2)).sum
    else law ((laws.lookup bin).getD (0, 0))
  (bin, dn * complete)

/-- The number of galaxies, `galaxy_counts_metric_extended.py:191-205`, where `integral` is
what `quad` gives. -/
noncomputable def galTotal (norm scale coadd integral : ℝ) : ℝ :=
  if coadd < 1 then 0 else (if norm * integral < 1 then 0 else norm * integral) * scale

/-! ## Colours of stars -/

/-- A row of the table, `stellar_mags.py:82`. -/
structure Row where
  name : String
  ug : ℚ
  gr : ℚ
  ri : ℚ
  iz : ℚ
  zy : ℚ

/-- The table, `stellar_mags.py:84-178`. -/
def table : List Row :=
  [⟨"O", -0.4835688497, -0.5201721327, -0.3991733698, -0.3106800468, -0.2072290744⟩,
    ⟨"B", -0.3457202828, -0.4834762052, -0.3812792176, -0.2906072887, -0.1927230035⟩,
    ⟨"A", 0.8823182684, -0.237288029, -0.2280783991, -0.1587960264, -0.03043824335⟩,
    ⟨"F", 0.9140316091, 0.1254277486, -0.03419150003, -0.0802010739, -0.03802756413⟩,
    ⟨"G", 1.198219095, 0.3915608688, 0.09129426676, 0.002604263747, -0.004659443668⟩,
    ⟨"K", 1.716635024, 0.6081567546, 0.1796910856, 0.06492278686, 0.0425155827⟩,
    ⟨"M", 2.747842719, 1.287599638, 0.5375622482, 0.4313486709, 0.219308065⟩,
    ⟨"HeWD_25200_80", -0.218959, -0.388374, -0.326946, -0.253573, -0.239460⟩,
    ⟨"WD_11000_85", 0.286146, -0.109115, -0.178500, -0.185833, -0.186913⟩,
    ⟨"WD_3000_85", 3.170620, 1.400062, 0.167195, 0.127024, -0.378069⟩]

/-- `stellar_mags`, `stellar_mags.py:184-197`. -/
def stellarMags (t : List Row) (type : String) (rmag : ℚ) : Except PyErr (List (String × ℚ)) :=
  match t.find? (fun r => r.name == type) with
  | none => .error .value
  | some c =>
    let i := rmag - c.ri
    let z := i - c.iz
    let y := z - c.zy
    let g := c.gr + rmag
    let u := c.ug + g
    .ok [("r", rmag), ("i", i), ("z", z), ("y", y), ("g", g), ("u", u)]

end Verif.Dwarf
