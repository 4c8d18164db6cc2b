import Verif.Model.Sed
import Mathlib.Analysis.SpecialFunctions.Log.Base
import Mathlib.Analysis.SpecialFunctions.Pow.Real

/-!
# Magnitudes, dust and signal to noise, `rubin_sim/phot_utils`

Over the real numbers: `sed.py` (magnitudes and dust), `signaltonoise.py`, `bandpass.py`
(zeropoint) and `predicted_zeropoints.py`. `none` is NaN or an exception.
-/

namespace Verif.Snr

open Real Verif.Sed

/-! ## Magnitudes -/

/-- The zeropoint of a new `Sed`, `sed.py:393`. -/
noncomputable def newZp : ℝ := -2.5 * logb 10 3631

/-- The zeropoint after `Sed.clear_sed`, `sed.py:655`. -/
noncomputable def clearedZp : ℝ := -8.9

/-- `Sed.flux_from_mag`, `sed.py:1240`. -/
noncomputable def fluxFromMag (zp mag : ℝ) : ℝ := 10 ^ (-0.4 * (mag + zp))

/-- `Sed.mag_from_flux`, `sed.py:1248`. -/
noncomputable def magFromFlux (zp flux : ℝ) : ℝ := -2.5 * logb 10 flux - zp

/-- `Sed.calc_mag`, `sed.py:1339-1343`. -/
noncomputable def calcMag (zp : ℝ) (bp : Band ℝ) (s : Spec ℝ) : Option ℝ :=
  match calcFlux bp s none with
  | none => none
  | some flux => if flux < 1 / 10 ^ 300 then none else some (magFromFlux zp flux)

/-- `Sed.calc_flux_norm`, `sed.py:1364-1369`; `badval` is NaN and equals nothing. -/
noncomputable def calcFluxNorm (zp magmatch : ℝ) (bp : Band ℝ) (s : Spec ℝ) : Option ℝ :=
  match calcMag zp bp s with
  | none => none
  | some curmag => some (10 ^ (-0.4 * (magmatch - curmag)))

/-- A spectrum scaled to a magnitude: `calc_flux_norm` followed by `multiply_flux_norm`. -/
noncomputable def scaledTo (zp mag : ℝ) (bp : Band ℝ) (s : Spec ℝ) : Option (Spec ℝ) :=
  (calcFluxNorm zp mag bp s).map s.scale

/-! ## Signal to noise -/

/-- `fwhm_eff2_fwhm_geom`, `signaltonoise.py:42-43`, and `fwhm_geom2_fwhm_eff`,
`signaltonoise.py:64-65`. -/
noncomputable def effToGeom (f : ℝ) : ℝ := 0.822 * f + 0.052
noncomputable def geomToEff (f : ℝ) : ℝ := (f - 0.052) / 0.822

/-- `calc_neff`, `signaltonoise.py:96`. -/
noncomputable def neff (fwhm platescale : ℝ) : ℝ := 2.266 * (fwhm / platescale) ^ 2

/-- `calc_instr_noise_sq`, `signaltonoise.py:115-124`. -/
noncomputable def instrNoiseSq (p : Params ℝ) : ℝ :=
  (p.nexp * p.readnoise ^ 2 + p.darkcurrent * p.exptime * p.nexp + p.nexp * p.othernoise ^ 2) /
    (p.gain * p.gain)

/-- `calc_total_non_source_noise_sq`, `signaltonoise.py:154-180`. -/
noncomputable def nonSourceNoiseSq (sky : Spec ℝ) (hardware : Band ℝ) (p : Params ℝ)
    (fwhm : ℝ) : Option ℝ :=
  match calcAdu hardware p sky with
  | none => none
  | some adu =>
    let skycounts := adu * p.platescale * p.platescale
    some (neff fwhm p.platescale * (skycounts / p.gain + instrNoiseSq p + 0))

/-- `calc_snr_sed`, `signaltonoise.py:518-545`. -/
noncomputable def calcSnrSed (source : Spec ℝ) (total : Band ℝ) (sky : Spec ℝ)
    (hardware : Band ℝ) (p : Params ℝ) (fwhm : ℝ) : Option ℝ :=
  match calcAdu total p source, nonSourceNoiseSq sky hardware p fwhm with
  | some counts, some noiseSq => some (counts / √(counts / p.gain + noiseSq))
  | _, _ => none

/-- `counts_5sigma` of `calc_m5`, `signaltonoise.py:291-296`. -/
noncomputable def counts5sigma (gain noiseSq : ℝ) : ℝ :=
  5 ^ 2 / 2 / gain + √(5 ^ 4 / 4 / gain + 5 ^ 2 * noiseSq)

/-- `calc_m5`, `signaltonoise.py:288-305`. -/
noncomputable def calcM5 (sky : Spec ℝ) (total hardware : Band ℝ) (p : Params ℝ) (fwhm : ℝ) :
    Option ℝ :=
  match nonSourceNoiseSq sky hardware p fwhm, calcAdu total p flat with
  | some noiseSq, some countsFlat =>
    calcMag newZp total (flat.scale (counts5sigma p.gain noiseSq / countsFlat))
  | _, _ => none

/-- `calc_sky_counts_per_pixel_for_m5`, `signaltonoise.py:215-247`. -/
noncomputable def skyCountsForM5 (m5 : ℝ) (total : Band ℝ) (p : Params ℝ) (fwhm : ℝ) :
    Option ℝ :=
  match scaledTo newZp m5 total flat with
  | none => none
  | some source =>
    match calcAdu total p source with
    | none => none
    | some counts =>
      let nSigmaSq := counts * counts / 25 - counts / p.gain
      some ((nSigmaSq / neff fwhm p.platescale - instrNoiseSq p) * p.gain)

/-- `scale_sky_m5`, `signaltonoise.py:682-695`. -/
noncomputable def scaleSkyM5 (m5 : ℝ) (sky : Spec ℝ) (total hardware : Band ℝ) (p : Params ℝ)
    (fwhm : ℝ) : Option (Spec ℝ) :=
  match skyCountsForM5 m5 total p fwhm, calcAdu hardware p sky with
  | some target, some adu => some (sky.scale (target / (adu * p.platescale * p.platescale)))
  | _, _ => none

/-- `mag_error_from_snr`, `signaltonoise.py:323`. -/
noncomputable def magErrorFromSnr (snr : ℝ) : ℝ := 2.5 * logb 10 (1 + 1 / snr)

/-- `calc_gamma`, `signaltonoise.py:352-386`. -/
noncomputable def calcGamma (bp : Band ℝ) (m5 : ℝ) (p : Params ℝ) : Option ℝ :=
  match scaledTo newZp m5 bp flat with
  | none => none
  | some s => (calcAdu bp p s).map (fun counts => 0.04 - 1 / (counts * p.gain))

/-- The expression under the root in `calc_snr_m5`, `signaltonoise.py:427-429`, and in
`calc_astrometric_error`; `x` is the flux at the limit over the flux of the source. -/
noncomputable def noiseOverSignalSq (gamma x : ℝ) : ℝ := (0.04 - gamma) * x + gamma * x * x

/-- `calc_snr_m5` with a given `gamma`, `signaltonoise.py:423-431`; `none` is the root of a
negative number. -/
noncomputable def snrM5 (gamma m5 mag : ℝ) : Option ℝ :=
  let x := fluxFromMag newZp m5 / fluxFromMag newZp mag
  if noiseOverSignalSq gamma x < 0 then none else some (1 / √(noiseOverSignalSq gamma x))

/-- `calc_snr_m5`, `signaltonoise.py:420-431`. -/
noncomputable def calcSnrM5 (mag : ℝ) (bp : Band ℝ) (m5 : ℝ) (p : Params ℝ)
    (gamma : Option ℝ) : Option ℝ :=
  match gamma with
  | some g => snrM5 g m5 mag
  | none =>
    match calcGamma bp m5 p with
    | none => none
    | some g => snrM5 g m5 mag

/-- The quadrature of `calc_mag_error_m5`, `signaltonoise.py:464-467`, and
`calc_mag_error_sed`, `signaltonoise.py:603-604`. -/
noncomputable def magError (sigmaSys snr : ℝ) : ℝ := √(magErrorFromSnr snr ^ 2 + sigmaSys ^ 2)

/-- `calc_mag_error_m5`, `signaltonoise.py:462-470`, with `sigma_sys` set. -/
noncomputable def calcMagErrorM5 (mag : ℝ) (bp : Band ℝ) (m5 : ℝ) (p : Params ℝ)
    (gamma : Option ℝ) : Option ℝ :=
  (calcSnrM5 mag bp m5 p gamma).map (magError p.sigmaSys)

/-- `calc_mag_error_sed`, `signaltonoise.py:593-606`, with `sigma_sys` set. -/
noncomputable def calcMagErrorSed (source : Spec ℝ) (total : Band ℝ) (sky : Spec ℝ)
    (hardware : Band ℝ) (p : Params ℝ) (fwhm : ℝ) : Option ℝ :=
  (calcSnrSed source total sky hardware p fwhm).map (magError p.sigmaSys)

/-- `calc_astrometric_error`, `signaltonoise.py:647-657`. -/
noncomputable def astrometricError (mag m5 fwhmGeom nvisit floor : ℝ) : ℝ :=
  let x := (10 : ℝ) ^ (0.4 * (mag - m5))
  let rand := fwhmGeom * 1000 * √(noiseOverSignalSq 0.039 x) / √nvisit
  √(floor * floor + rand * rand)

/-! ## Zeropoints -/

/-- `Bandpass.calc_zp_t`, `bandpass.py:378-387`. -/
noncomputable def calcZpT (bp : Band ℝ) (p : Params ℝ) : Option ℝ :=
  match calcAdu bp p flat with
  | none => none
  | some adu => calcMag newZp bp (flat.scale (1 / adu))

/-- `predicted_zeropoint` and its variants for detector types, `predicted_zeropoints.py:59`,
given the two coefficients of the band. -/
noncomputable def predictedZp (zpX1 k airmass exptime : ℝ) : ℝ :=
  zpX1 + k * (airmass - 1) + 2.5 * logb 10 exptime

/-- `extinction_coeff` of `predicted_zeropoint`, `predicted_zeropoints.py:39-46`. -/
noncomputable def extinctionCoeff : List ℝ :=
  [-0.45815823969467745, -0.20789273881603035, -0.12233514157672552,
   -0.07387773563152214, -0.0573260392897174, -0.09549137502152871]

end Verif.Snr
