import Verif.Model.Snr
import Mathlib.Algebra.Order.Floor.Ring
import Mathlib.Algebra.Order.Floor.Semiring

/-!
# Dust, `rubin_sim/phot_utils/sed.py` and `photometric_parameters.py`

Over the real numbers. `x` is the inverse wavelength in 1/micron. Later assignments to
`a_x[condition]` and `b_x[condition]` replace earlier ones where both conditions hold.
-/

namespace Verif.Dust

open Real Verif.Sed Verif.Snr

/-! ## Extinction laws -/

/-- One masked assignment of `a_x` and `b_x`. -/
noncomputable def assign (cond : Prop) [Decidable cond] (new old : ℝ × ℝ) : ℝ × ℝ :=
  if cond then new else old

/-- The optical part of the CCM law, `sed.py:973-977`, in `y = x - 1.82`. -/
noncomputable def ccmOptical (y : ℝ) : ℝ × ℝ :=
  (1 + 0.17699 * y - 0.50447 * y ^ 2 - 0.02427 * y ^ 3 + 0.72085 * y ^ 4 + 0.01979 * y ^ 5 -
      0.77530 * y ^ 6 + 0.32999 * y ^ 7,
   1.41338 * y + 2.28305 * y ^ 2 + 1.07233 * y ^ 3 - 5.38434 * y ^ 4 - 0.62251 * y ^ 5 +
      5.30260 * y ^ 6 - 2.09002 * y ^ 7)

/-- The optical part of O'Donnell's law, `sed.py:1035-1039`. -/
noncomputable def odOptical (y : ℝ) : ℝ × ℝ :=
  (1 + 0.104 * y - 0.609 * y ^ 2 + 0.701 * y ^ 3 + 1.137 * y ^ 4 - 1.718 * y ^ 5 -
      0.827 * y ^ 6 + 1.647 * y ^ 7 - 0.505 * y ^ 8,
   1.952 * y + 2.908 * y ^ 2 - 3.989 * y ^ 3 - 7.985 * y ^ 4 + 11.102 * y ^ 5 + 5.491 * y ^ 6 -
      10.805 * y ^ 7 + 3.347 * y ^ 8)

/-- The infrared part, `sed.py:967-969`. -/
noncomputable def infrared (x : ℝ) : ℝ × ℝ := (0.574 * x ^ (1.61 : ℝ), -0.527 * x ^ (1.61 : ℝ))

/-- The ultraviolet part, `sed.py:981-983`. -/
noncomputable def ultraviolet (y : ℝ) : ℝ × ℝ :=
  (1.752 - 0.316 * y - 0.104 / ((y - 4.67) ^ 2 + 0.341),
   -3.090 + 1.825 * y + 1.206 / ((y - 4.62) ^ 2 + 0.263))

/-- The second ultraviolet part, `sed.py:986-992`. -/
noncomputable def ultraviolet2 (y : ℝ) : ℝ × ℝ :=
  ((ultraviolet y).1 + (-0.04473 * (y - 5.9) ^ 2 - 0.009779 * (y - 5.9) ^ 3),
   (ultraviolet y).2 + (0.2130 * (y - 5.9) ^ 2 + 0.1207 * (y - 5.9) ^ 3))

/-- The far ultraviolet part, `sed.py:996-998`, in `y = x - 8`. -/
noncomputable def farUv (y : ℝ) : ℝ × ℝ :=
  (-1.073 - 0.628 * y + 0.137 * y ^ 2 - 0.070 * y ^ 3,
   13.670 + 4.257 * y - 0.420 * y ^ 2 + 0.374 * y ^ 3)

/-- `a_x` and `b_x` at one wavelength, `sed.py:958-999` and `sed.py:1020-1061`, which differ
in the optical part. -/
noncomputable def law (optical : ℝ → ℝ × ℝ) (x : ℝ) : ℝ × ℝ :=
  assign (8 ≤ x ∧ x ≤ 11) (farUv (x - 8)) <|
  assign (5.9 < x ∧ x < 8) (ultraviolet2 x) <|
  assign (3.3 ≤ x ∧ x < 5.9) (ultraviolet x) <|
  assign (1.1 ≤ x ∧ x ≤ 3.3) (optical (x - 1.82)) <|
  assign (0.3 ≤ x ∧ x ≤ 1.1) (infrared x) (0, 0)

/-- `setup_ccm_ab` at a wavelength in nm, `sed.py:961-963`. -/
noncomputable def ccm (wavelen : ℝ) : ℝ × ℝ := law ccmOptical (1 / (wavelen * (1 / 1000)))

/-- `setup_o_donnell_ab` at a wavelength in nm, `sed.py:1023-1025`. -/
noncomputable def oDonnell (wavelen : ℝ) : ℝ × ℝ := law odOptical (1 / (wavelen * (1 / 1000)))

/-! ## Adding dust -/

/-- The values of `a_v` and `r_v` used by `add_dust`, or the exception. -/
inductive Chosen
  | ok (a_v r_v : ℝ)
  /-- `r_v * None` -/
  | typeError
  | valueError
  /-- division of floats by zero -/
  | zeroDivision

/-- Choice of parameters in `Sed.add_dust`, `sed.py:1109-1124`. -/
noncomputable def choose (a_v ebv : Option ℝ) (r_v : ℝ) : Chosen :=
  if r_v = 3.1 then
    match a_v, ebv with
    | none, none => .typeError
    | none, some e => .ok (r_v * e) r_v
    | some a, none => .ok a r_v
    | some a, some e => if e = 0 then .zeroDivision else .ok a (a / e)
  else
    match a_v, ebv with
    | some a, some e =>
      if e = 0 then .zeroDivision else if a / e = r_v then .ok a r_v else .valueError
    | none, none => .typeError
    | none, some e => .ok (r_v * e) r_v
    | some a, none => .ok a r_v

/-- `a_lambda` of `add_dust`, `sed.py:1127`. -/
noncomputable def aLambda (ab : ℝ × ℝ) (a_v r_v : ℝ) : ℝ := (ab.1 + ab.2 / r_v) * a_v

/-- `dust` of `add_dust`, `sed.py:1130`, with `_ln10_04 = 0.4 * log(10)`. -/
noncomputable def factor (ab : ℝ × ℝ) (a_v r_v : ℝ) : ℝ := exp (-aLambda ab a_v r_v * (0.4 * log 10))

/-- The new `flambda` of `Sed.add_dust` with given parameters, `sed.py:1127-1131`. -/
noncomputable def addDust (abs : List (ℝ × ℝ)) (a_v r_v : ℝ) (flambda : List ℝ) : List ℝ :=
  List.zipWith (fun f ab => f * factor ab a_v r_v) flambda abs

/-! ## `DustValues` -/

/-- `set_flat_sed` on a grid with step 1, `photometric_parameters.py:48` and `sed.py:494-495`. -/
noncomputable def flatFrom (lo hi : ℝ) : Spec ℝ :=
  let n := ⌈hi + 1 - lo⌉₊
  ⟨grid lo 1 n, List.replicate n 3631⟩

/-- The spectrum with dust, in `fnu`: `fnu_toflambda`, `add_dust` and `flambda_tofnu`. -/
noncomputable def dusted (abs : List (ℝ × ℝ)) (a_v r_v : ℝ) (s : Spec ℝ) : Spec ℝ :=
  ⟨s.wavelen, toFnu s.wavelen (addDust abs a_v r_v (toFlambda s.wavelen s.flux))⟩

/-- `ax1` of `DustValues` for one bandpass, `photometric_parameters.py:45-57`; `lo` and `hi` are
the ends of its wavelengths. -/
noncomputable def ax1 (bp : Band ℝ) (lo hi r_v ebv : ℝ) : Option ℝ :=
  let s := flatFrom lo hi
  match choose none (some ebv) r_v with
  | .ok a_v r_v =>
    match calcMag newZp bp s, calcMag newZp bp (dusted (s.wavelen.map ccm) a_v r_v s) with
    | some m, some m' => some (m' - m)
    | _, _ => none
  | _ => none

end Verif.Dust
