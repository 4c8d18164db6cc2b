import Verif.Model.Spectres
import Mathlib.Algebra.Order.Group.Unbundled.Abs
import Mathlib.Tactic.NormNum

/-!
# Fluxes through bandpasses, `rubin_sim/phot_utils/sed.py` and `bandpass.py`

Numbers are elements of an ordered field. `none` stands for NaN and for the exceptions
raised on arrays that are too short; where an exception matters it is modelled separately.
-/

namespace Verif.Sed

open Verif.Spectres

variable {K : Type*} [Field K] [LinearOrder K]

/-- `PhysicalParameters`, `physical_parameters.py:4-15` -/
def lightspeed : K := 299792458
def planck : K := 6626068 / 10 ^ 33
def nm2m : K := 1 / 10 ^ 9
def ergsetc2jansky : K := 10 ^ 23

/-- The values held by `PhotometricParameters`, `photometric_parameters.py:141-449`. -/
structure Params (K : Type*) where
  exptime : K
  nexp : K
  effarea : K
  gain : K
  readnoise : K
  darkcurrent : K
  othernoise : K
  platescale : K
  sigmaSys : K

/-- The arrays of `Bandpass`, `bandpass.py:71-80`. -/
structure Band (K : Type*) where
  wavelen : List K
  sb : List K
  phi : Option (List K)

/-- A spectrum given by wavelengths and one flux per wavelength. -/
structure Spec (K : Type*) where
  wavelen : List K
  flux : List K

/-- `trapezoid(y, x=x)` -/
def trapz : List K → List K → K
  | y₀ :: y₁ :: ys, x₀ :: x₁ :: xs => (x₁ - x₀) * (y₀ + y₁) / 2 + trapz (y₁ :: ys) (x₁ :: xs)
  | _, _ => 0

/-- All entries, if none is NaN. -/
def allSome : List (Option K) → Option (List K)
  | [] => some []
  | none :: _ => none
  | some x :: l => (allSome l).map (x :: ·)

/-- `Sed._need_resample` for a given grid, `sed.py:719-724`. -/
def needResample (target wavelen : List K) : Bool :=
  decide (target.length ≠ wavelen.length) ||
    (List.zipWith (fun t w => decide (1 / 10 ^ 10 < |t - w|)) target wavelen).any id

/-- `Sed.resample_sed` of a pair of arrays onto a given grid, `sed.py:769-818`. -/
def resample (target : List K) (s : Spec K) (fill : Option K) : Option (Spec K) :=
  if needResample target s.wavelen then
    match spectres target s.wavelen s.flux fill with
    | none => none
    | some out => (allSome out).map (fun f => ⟨target, f⟩)
  else some s

/-- `Sed.calc_adu` of a spectrum in `fnu`, `sed.py:1219-1232`. -/
def calcAdu (bp : Band K) (pp : Params K) (s : Spec K) : Option K :=
  match resample bp.wavelen s none with
  | none => none
  | some r =>
    if r.wavelen.length < 2 then none
    else
      let dlambda := r.wavelen.getD 1 0 - r.wavelen.getD 0 0
      let nphoton := (List.zipWith (· * ·) (List.zipWith (· / ·) r.flux r.wavelen) bp.sb).sum
      some (nphoton * (pp.exptime * pp.nexp * pp.effarea / pp.gain) *
        (1 / ergsetc2jansky) * (1 / planck) * dlambda)

/-- `Bandpass.sb_tophi`, `bandpass.py:327-331`; `none` if the norm is zero. -/
def sbToPhi (bp : Band K) : Option (List K) :=
  let phi := List.zipWith (· / ·) bp.sb bp.wavelen
  let norm := trapz phi bp.wavelen
  if norm = 0 then none else some (phi.map (· / norm))

/-- The `phi` used by `calc_flux`, `sed.py:1323-1324`. -/
def usedPhi (bp : Band K) : Option (List K) :=
  match bp.phi with
  | some p => some p
  | none => sbToPhi bp

/-- `Sed.calc_flux` of a spectrum in `fnu`, `sed.py:1321-1327`. -/
def calcFlux (bp : Band K) (s : Spec K) (fill : Option K) : Option K :=
  match resample bp.wavelen s fill, usedPhi bp with
  | some r, some phi => some (trapz (List.zipWith (· * ·) r.flux phi) r.wavelen)
  | _, _ => none

/-- `Sed.calc_ergs` of a spectrum in `flambda`, `sed.py:1276-1284`. -/
def calcErgs (bp : Band K) (s : Spec K) (fill : Option K) : Option K :=
  match resample bp.wavelen s fill with
  | none => none
  | some r =>
    if r.wavelen.length < 2 then none
    else
      let dlambda := r.wavelen.getD 1 0 - r.wavelen.getD 0 0
      let y := List.zipWith (· * ·) r.flux bp.sb
      some (List.zipWith (fun a b => 1 / 2 * (a + b) * dlambda) y.tail y.dropLast).sum

/-- `Sed.many_flux_calc` for one row of `phiarray`, `sed.py:1656`. -/
def manyFlux (phi fnu : List K) (step : K) : K :=
  (List.zipWith (· * ·) phi fnu).sum * step

/-- `Sed.flambda_tofnu` of a pair of arrays, `sed.py:840-841`. -/
def toFnu (wavelen flambda : List K) : List K :=
  List.zipWith (fun f w => f * w * w * nm2m / lightspeed * ergsetc2jansky) flambda wavelen

/-- `Sed.fnu_toflambda` of a pair of arrays, `sed.py:869-870`. -/
def toFlambda (wavelen fnu : List K) : List K :=
  List.zipWith (fun f w => f / w / w * lightspeed / nm2m / ergsetc2jansky) fnu wavelen

/-- `arange(lo, hi + step, step)` as in `set_flat_sed` -/
def grid (lo step : K) (n : Nat) : List K := (List.range n).map fun i : Nat => lo + step * (i : K)

/-- The flat spectrum of `Sed.set_flat_sed` with the default grid, `sed.py:488-498`. The
last wavelength is 1150 in exact arithmetic. -/
def flat : Spec K :=
  ⟨grid 300 (1 / 10) 8501, List.replicate 8501 3631⟩

/-- `Sed.multiply_flux_norm`, `sed.py:1393`. -/
def Spec.scale (s : Spec K) (c : K) : Spec K := ⟨s.wavelen, s.flux.map (· * c)⟩

end Verif.Sed
