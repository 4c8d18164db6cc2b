import Verif.Model.Sed

/-!
# The state of a `Sed` object, `rubin_sim/phot_utils/sed.py`

A `Sed` keeps wavelengths, fluxes per wavelength (`flambda`) and fluxes per frequency
(`fnu`). Methods called without arrays update the object. Operations that raise are kept,
with the state they leave behind. Numbers are elements of an ordered field; the filler of
`resample_sed` is a number.
-/

namespace Verif.Sed

open Verif.Spectres

variable {K : Type*} [Field K] [LinearOrder K]

/-- The arrays of a `Sed`, `sed.py:389-391`. -/
structure Obj (K : Type*) where
  wavelen : Option (List K)
  flambda : Option (List K)
  fnu : Option (List K)

/-- A new object, `sed.py:383-404`. -/
def Obj.new : Obj K := ⟨none, none, none⟩

/-- `Sed.flambda_tofnu()`, `sed.py:833-849`. Without fluxes it raises after `fnu` is unset. -/
def Obj.tofnu (o : Obj K) : Obj K :=
  match o.wavelen, o.flambda with
  | some w, some f => { o with fnu := some (toFnu w f) }
  | _, _ => { o with fnu := none }

/-- `Sed.fnu_toflambda()`, `sed.py:863-877`. Without `fnu` it raises and changes nothing. -/
def Obj.toflambda (o : Obj K) : Obj K :=
  match o.wavelen, o.fnu with
  | some w, some f => { o with flambda := some (toFlambda w f) }
  | _, _ => o

/-- `fnu` is calculated if it is not present, e.g. `sed.py:1214-1216`. -/
def Obj.ensureFnu (o : Obj K) : Obj K := if o.fnu.isNone then o.tofnu else o

/-- `Sed.resample_sed` of the object onto a given grid, `sed.py:770-818`. -/
def Obj.resample (o : Obj K) (target : List K) (fill : K) : Obj K :=
  match o.wavelen, o.flambda with
  | some w, some f =>
    if needResample target w then
      match spectres target w f (some fill) with
      | some out =>
        match allSome out with
        | some g => ⟨some target, some g, none⟩
        | none => { o with fnu := none }
      | none => { o with fnu := none }
    else o
  | _, _ => { o with fnu := none }

/-- Methods that change a `Sed`. -/
inductive Op (K : Type*)
  /-- `set_sed(wavelen, flambda)` and `read_sed_flambda` -/
  | setFlambda (w f : List K)
  /-- `set_sed(wavelen, fnu=fnu)` and `read_sed_fnu` -/
  | setFnu (w f : List K)
  /-- `set_flat_sed(min, max, step)` with `n` wavelengths -/
  | setFlat (lo step : K) (n : Nat)
  | clear
  | flambdaToFnu
  | fnuToFlambda
  | resample (target : List K) (fill : K)
  /-- `synchronize_sed` with a grid -/
  | synchronize (target : List K) (fill : K)
  | redshift (z : K) (dimming : Bool)
  /-- `add_dust` with the factors `exp(-a_lambda * ln10_04)`; `none` if the parameters are
  rejected -/
  | addDust (factors : Option (List K))
  | multiplyFluxNorm (c : K)
  /-- `renormalize_sed(normflux="flambda")` with the factor `normvalue / gapval`; `none` if
  it raises before -/
  | renormFlambda (konst : Option K)
  /-- `renormalize_sed(normflux="fnu")`, which always raises -/
  | renormFnu
  /-- `calc_adu`, `calc_flux`, `calc_mag`, `calc_flux_norm` -/
  | measure

/-- Effect of a method, `sed.py:454-498`, `648-676`, `883-918`, `1077-1136`, `1371-1402`,
`1435-1524`. -/
def Op.run (o : Obj K) : Op K → Obj K
  | .setFlambda w f => if f.length = w.length then ⟨some w, some f, none⟩ else ⟨some w, none, none⟩
  | .setFnu w f =>
    if f.length = w.length then ⟨some w, some (toFlambda w f), some f⟩ else ⟨some w, none, none⟩
  | .setFlat lo step n =>
    Obj.toflambda ⟨some (grid lo step n), o.flambda, some (List.replicate n 3631)⟩
  | .clear => ⟨none, none, none⟩
  | .flambdaToFnu => o.tofnu
  | .fnuToFlambda => o.toflambda
  | .resample t fill => o.resample t fill
  | .synchronize t fill => (o.resample t fill).tofnu
  | .redshift z dimming =>
    match o.wavelen, o.flambda with
    | some w, some f =>
      let w' := if z < 0 then w.map (· / (1 - z)) else w.map (· * (1 + z))
      let f' := if dimming then (if z < 0 then f.map (· * (1 - z)) else f.map (· / (1 + z))) else f
      ⟨some w', some f', none⟩
    | _, _ => { o with fnu := none }
  | .addDust factors =>
    match o.flambda, factors with
    | some f, some d =>
      if d.length = f.length then ⟨o.wavelen, some (List.zipWith (· * ·) f d), none⟩
      else { o with fnu := none }
    | _, _ => { o with fnu := none }
  | .multiplyFluxNorm c =>
    let o := o.ensureFnu
    match o.fnu with
    | some f => Obj.toflambda { o with fnu := some (f.map (· * c)) }
    | none => o
  | .renormFlambda konst =>
    match o.wavelen, o.flambda, konst with
    | some w, some f, some k => ⟨some w, some (f.map (· * k)), some (toFnu w (f.map (· * k)))⟩
    | _, _, _ => o
  | .renormFnu => o.ensureFnu
  | .measure => o.ensureFnu

/-- A sequence of method calls on a new object. -/
def runOps (ops : List (Op K)) : Obj K := ops.foldl Op.run Obj.new

end Verif.Sed
