import Verif.Model.Lens
import Verif.Props.MoSummary
import Mathlib.Analysis.SpecialFunctions.Sqrt
import Mathlib.Analysis.Calculus.Deriv.Pow
import Mathlib.Analysis.Calculus.Deriv.Inv
import Mathlib.Analysis.Calculus.Deriv.Comp
import Mathlib.Analysis.Calculus.Deriv.Add
import Mathlib.Data.Rat.Floor
import Mathlib.Data.List.GetD
import Mathlib.Tactic.Linarith
import Mathlib.Tactic.NormNum
import Mathlib.Tactic.Ring
import Mathlib.Tactic.FieldSimp
import Mathlib.Tactic.Positivity
import Mathlib.Tactic.LinearCombination

/-!
# Properties of the microlensing events (C316–C323)
-/

namespace Verif.Lens

open Real

/-! ## The magnification -/

/-- The magnification as a function of the square of the separation. -/
noncomputable def mag2 (w : ℝ) : ℝ := (w + 2) / sqrt (w * (w + 4))

theorem mag2_eq (w : ℝ) (hw : 0 < w) : mag2 w = sqrt (1 + 4 / (w * (w + 4))) := by
  have hP : 0 < w * (w + 4) := by positivity
  have e : 1 + 4 / (w * (w + 4)) = (w + 2) ^ 2 / (w * (w + 4)) := by
    field_simp
    ring
  rw [e, sqrt_div (by positivity), sqrt_sq (by linarith)]
  rfl

theorem mag2_gt_one (w : ℝ) (hw : 0 < w) : 1 < mag2 w := by
  rw [mag2_eq w hw]
  apply lt_sqrt_of_sq_lt
  have : 0 < 4 / (w * (w + 4)) := by positivity
  linarith

theorem mag2_anti (w w' : ℝ) (hw : 0 < w) (h : w < w') : mag2 w' < mag2 w := by
  rw [mag2_eq w hw, mag2_eq w' (by linarith)]
  have hP : 0 < w * (w + 4) := by positivity
  have hl : w * (w + 4) < w' * (w' + 4) := by nlinarith
  have : 4 / (w' * (w' + 4)) < 4 / (w * (w + 4)) := div_lt_div_of_pos_left (by norm_num) hP hl
  have : 0 < 4 / (w' * (w' + 4)) := by
    have : 0 < w' := by linarith
    positivity
  exact sqrt_lt_sqrt (by linarith) (by linarith)

theorem sep_sq (t u0 te t0 : ℝ) : sep t u0 te t0 ^ 2 = u0 ^ 2 + (t - t0) ^ 2 / te ^ 2 := by
  unfold sep
  exact sq_sqrt (by positivity)

theorem amp_eq (t u0 te t0 bf : ℝ) :
    amp t u0 te t0 bf = mag2 (u0 ^ 2 + (t - t0) ^ 2 / te ^ 2) * bf + (1 - bf) := by
  unfold amp
  dsimp only
  rw [sep_sq]
  unfold mag2 sep
  rw [sqrt_mul (by positivity)]

theorem w_pos (t u0 te t0 : ℝ) (hu : 0 < u0) : 0 < u0 ^ 2 + (t - t0) ^ 2 / te ^ 2 := by positivity

/-- **C316.** A lensed source is never dimmed: the amplification is above one whenever some of the light is that of the source, and is one when none is. -/
theorem amp_gt_one (t u0 te t0 bf : ℝ) (hu : 0 < u0) (hb : 0 < bf) : 1 < amp t u0 te t0 bf ∧ amp t u0 te t0 0 = 1 := by
  constructor
  · rw [amp_eq]
    have := mag2_gt_one _ (w_pos t u0 te t0 hu)
    nlinarith
  · rw [amp_eq]
    ring

/-- **C316.** The light curve is symmetric about the peak time and falls away from it. -/
theorem amp_shape (u0 te t0 bf : ℝ) (hu : 0 < u0) (hte : 0 < te) (hb : 0 < bf) :
    (∀ x, amp (t0 + x) u0 te t0 bf = amp (t0 - x) u0 te t0 bf) ∧
    (∀ t t', |t - t0| < |t' - t0| → amp t' u0 te t0 bf < amp t u0 te t0 bf) := by
  constructor
  · intro x
    rw [amp_eq, amp_eq]
    have : (t0 + x - t0) ^ 2 = (t0 - x - t0) ^ 2 := by ring
    rw [this]
  · intro t t' h
    rw [amp_eq, amp_eq]
    have a := mag2_anti (u0 ^ 2 + (t - t0) ^ 2 / te ^ 2) (u0 ^ 2 + (t' - t0) ^ 2 / te ^ 2) (w_pos t u0 te t0 hu)
      (by
        have h2 : (t - t0) ^ 2 < (t' - t0) ^ 2 := sq_lt_sq.mpr h
        have : (t - t0) ^ 2 / te ^ 2 < (t' - t0) ^ 2 / te ^ 2 := div_lt_div_of_pos_right h2 (by positivity)
        linarith)
    nlinarith

/-- **C316.** A closer passage is amplified more, at every time. -/
theorem amp_impact (t u0 u0' te t0 bf : ℝ) (hu : 0 < u0) (h : u0 < u0') (hb : 0 < bf) :
    amp t u0' te t0 bf < amp t u0 te t0 bf := by
  rw [amp_eq, amp_eq]
  have h2 : u0 ^ 2 < u0' ^ 2 := pow_lt_pow_left₀ h hu.le (by norm_num)
  have a := mag2_anti _ (u0' ^ 2 + (t - t0) ^ 2 / te ^ 2) (w_pos t u0 te t0 hu) (by linarith)
  nlinarith

/-- **C316.** At the peak, with impact parameter one and no blending, the amplification is `3 / √5`. -/
theorem amp_peak (te t0 : ℝ) : amp t0 1 te t0 1 = 3 / sqrt 5 := by
  rw [amp_eq]
  unfold mag2
  norm_num

/-- **C316.** So without magnitudes of its own an event is brighter than its star at every visit. -/
theorem magnitude_brighter (m t u0 te t0 bf : ℝ) (hu : 0 < u0) (hb : 0 < bf) : magnitude m (amp t u0 te t0 bf) < m := by
  unfold magnitude
  have := logb_pos (show (1 : ℝ) < 10 by norm_num) (amp_gt_one t u0 te t0 bf hu hb).1
  linarith

/-! ## Events with magnitudes of their own -/

/-- **C317.** For an event with magnitudes of its own, the value taken for the amplification is already a magnitude, so the magnitude of the visit
rises with the flux: the brighter the event, the fainter it is taken to be. -/
theorem fsfb_inverted (m t t' u0 te t0 fs fb : ℝ) (hu : 0 < u0) (hte : 0 < te) (hfs : 0 < fs) (hfb : 0 ≤ fb)
    (h : |t - t0| < |t' - t0|) (h1 : mag2 (u0 ^ 2 + (t - t0) ^ 2 / te ^ 2) * fs + fb < 1) :
    magnitude m (ampFsfb t' u0 te t0 fs fb) < magnitude m (ampFsfb t u0 te t0 fs fb) := by
  have a := mag2_anti (u0 ^ 2 + (t - t0) ^ 2 / te ^ 2) (u0 ^ 2 + (t' - t0) ^ 2 / te ^ 2) (w_pos t u0 te t0 hu)
      (by
        have h2 : (t - t0) ^ 2 < (t' - t0) ^ 2 := sq_lt_sq.mpr h
        have : (t - t0) ^ 2 / te ^ 2 < (t' - t0) ^ 2 / te ^ 2 := div_lt_div_of_pos_right h2 (by positivity)
        linarith)
  have b := mag2_gt_one _ (w_pos t' u0 te t0 hu)
  have e : ∀ t, ampFsfb t u0 te t0 fs fb = logb 10 (mag2 (u0 ^ 2 + (t - t0) ^ 2 / te ^ 2) * fs + fb) * (-2.5) := by
    intro t
    unfold ampFsfb
    dsimp only
    rw [sep_sq]
    unfold mag2 sep
    rw [sqrt_mul (by positivity)]
  rw [e, e]
  set F := mag2 (u0 ^ 2 + (t - t0) ^ 2 / te ^ 2) * fs + fb with hF
  set F' := mag2 (u0 ^ 2 + (t' - t0) ^ 2 / te ^ 2) * fs + fb with hF'
  have hF0 : 0 < F' := by
    have : 0 < mag2 (u0 ^ 2 + (t' - t0) ^ 2 / te ^ 2) := by linarith
    positivity
  have hlt : F' < F := by nlinarith
  have l1 := logb_lt_logb (show (1 : ℝ) < 10 by norm_num) hF0 hlt
  have l2 := logb_neg (show (1 : ℝ) < 10 by norm_num) (by linarith : 0 < F) h1
  unfold magnitude
  have l3 := logb_lt_logb (show (1 : ℝ) < 10 by norm_num) (show 0 < logb 10 F * (-2.5) by linarith)
    (show logb 10 F * (-2.5) < logb 10 F' * (-2.5) by linarith)
  linarith

/-- **C317.** So such an event is not brightest at its peak. -/
theorem fsfb_peak_false : ¬ ∀ (m t u0 te t0 fs fb : ℝ), 0 < u0 → 0 < te → 0 < fs → 0 ≤ fb → mag2 (u0 ^ 2) * fs + fb < 1 →
    magnitude m (ampFsfb t0 u0 te t0 fs fb) ≤ magnitude m (ampFsfb t u0 te t0 fs fb) := by
  intro h
  have hm : mag2 ((1 : ℝ) ^ 2) * 0.1 + 0 < 1 := by
    unfold mag2
    norm_num
    rw [div_mul_eq_mul_div, div_lt_one (by positivity)]
    apply lt_sqrt_of_sq_lt
    norm_num
  have a := h 20 1 1 1 0 0.1 0 (by norm_num) (by norm_num) (by norm_num) le_rfl hm
  have b := fsfb_inverted 20 0 1 1 1 0 0.1 0 (by norm_num) (by norm_num) (by norm_num) le_rfl (by norm_num)
    (by
      have : (1 : ℝ) ^ 2 + (0 - 0) ^ 2 / 1 ^ 2 = 1 ^ 2 := by norm_num
      rw [this]
      exact hm)
  linarith

/-! ## The derivatives -/

theorem mag2_hasDerivAt (w : ℝ) (hw : 0 < w) : HasDerivAt mag2 (-4 / sqrt (w * (w + 4)) ^ 3) w := by
  have hP : 0 < w * (w + 4) := by positivity
  have hs : 0 < sqrt (w * (w + 4)) := sqrt_pos.mpr hP
  have h1 : HasDerivAt (fun w : ℝ => w + 2) 1 w := (hasDerivAt_id w).add_const 2
  have h2 : HasDerivAt (fun w : ℝ => w * (w + 4)) (1 * (w + 4) + w * 1) w :=
    (hasDerivAt_id w).mul ((hasDerivAt_id w).add_const 4)
  have h3 := h2.sqrt hP.ne'
  have h4 := h1.div h3 hs.ne'
  have e : (1 * sqrt (w * (w + 4)) - (w + 2) * ((1 * (w + 4) + w * 1) / (2 * sqrt (w * (w + 4))))) / sqrt (w * (w + 4)) ^ 2 =
      -4 / sqrt (w * (w + 4)) ^ 3 := by
    have hsq := sq_sqrt hP.le
    set s := sqrt (w * (w + 4)) with hsd
    have hs' : s ≠ 0 := hs.ne'
    field_simp
    nlinarith
  rw [e] at h4
  exact h4

theorem rpow_three_half (x : ℝ) (h : 0 < x) : x ^ ((3 : ℝ) / 2) = sqrt x ^ 3 := by
  rw [sqrt_eq_rpow, ← rpow_natCast, ← rpow_mul h.le]
  norm_num

/-- The three coefficients, simplified. -/
theorem coeffs_eq (t t0 te u0 fs : ℝ) (hu : 0 < u0) (hte : 0 < te) :
    let w := u0 ^ 2 + (t - t0) ^ 2 / te ^ 2
    let D := -4 / sqrt (w * (w + 4)) ^ 3
    coeffs t t0 te u0 fs = [fs * (D * (-2 * (t - t0) / te ^ 2)), fs * (D * (2 * u0)), fs * (D * (-2 * (t - t0) ^ 2 / te ^ 3))] := by
  intro w D
  have hw : 0 < w := w_pos t u0 te t0 hu
  have hx2 : u0 ^ 2 + (te ^ 2)⁻¹ * (t - t0) ^ 2 = w := by
    change _ = u0 ^ 2 + (t - t0) ^ 2 / te ^ 2
    ring
  unfold coeffs
  dsimp only
  rw [hx2, rpow_three_half w hw, rpow_three_half (w + 4) (by linarith)]
  have hD : D = -4 / (sqrt w * sqrt (w + 4)) ^ 3 := by
    change -4 / sqrt (w * (w + 4)) ^ 3 = _
    rw [sqrt_mul hw.le]
  rw [hD]
  have hs : 0 < sqrt w := sqrt_pos.mpr hw
  have hr : 0 < sqrt (w + 4) := sqrt_pos.mpr (by linarith)
  have hs2 : w = sqrt w ^ 2 := (sq_sqrt hw.le).symm
  have hr2 : sqrt (w + 4) ^ 2 = w + 4 := sq_sqrt (by linarith)
  generalize hrr : sqrt (w + 4) = r at *
  generalize hss : sqrt w = s at *
  have hrs : r ^ 2 = s ^ 2 + 4 := by rw [hr2, ← hs2]
  have hte' : te ≠ 0 := hte.ne'
  have hs' : s ≠ 0 := hs.ne'
  have hr' : r ≠ 0 := hr.ne'
  have hcore : ∀ c : ℝ, c * (2 / (s * r) - (w + 2) / (s ^ 3 * r) - (w + 2) / (s * r ^ 3)) = c * (-8 / (s * r) ^ 3) := by
    intro c
    congr 1
    rw [hs2]
    field_simp
    rw [hrs]
    ring
  congr 1
  · have := hcore (fs * (-(t - t0) / te ^ 2))
    have e1 : -1 / 2 * ((w + 2) / s ^ 3) * ((te ^ 2)⁻¹ * (-2 * t + 2 * t0) * (fs / r)) -
        1 / 2 * (fs * (1 / s) * (w + 2) / r ^ 3) * ((te ^ 2)⁻¹ * (-2 * t + 2 * t0)) + (te ^ 2)⁻¹ * (-2 * t + 2 * t0) * (fs / r) * (1 / s) =
        fs * (-(t - t0) / te ^ 2) * (2 / (s * r) - (w + 2) / (s ^ 3 * r) - (w + 2) / (s * r ^ 3)) := by
      field_simp
      ring
    rw [e1, this]
    ring
  · congr 1
    · have := hcore (fs * u0)
      have e1 : -u0 * (fs * (1 / s) * (w + 2) / r ^ 3) - (w + 2) / s ^ 3 * (u0 * (fs / r)) + u0 * (fs / r) * (2 * (1 / s)) =
          fs * u0 * (2 / (s * r) - (w + 2) / (s ^ 3 * r) - (w + 2) / (s * r ^ 3)) := by
        field_simp
        ring
      rw [e1, this]
      ring
    · congr 1
      have := hcore (fs * (-(t - t0) ^ 2 / te ^ 3))
      have e1 : (w + 2) / s ^ 3 * (fs / r * ((t - t0) ^ 2 / te ^ 3)) + fs * (1 / s) * (w + 2) / r ^ 3 * ((t - t0) ^ 2 / te ^ 3) -
          2 * (1 / s) * (fs / r * ((t - t0) ^ 2 / te ^ 3)) =
          fs * (-(t - t0) ^ 2 / te ^ 3) * (2 / (s * r) - (w + 2) / (s ^ 3 * r) - (w + 2) / (s * r ^ 3)) := by
        field_simp
        ring
      rw [e1, this]
      ring

theorem flux_eq (t t0 te u0 fs fb : ℝ) : flux t t0 te u0 fs fb = fs * mag2 (u0 ^ 2 + (t - t0) ^ 2 / te ^ 2) + fb := by
  unfold flux mag2
  dsimp only
  rw [add_comm (u0 ^ 2)]

theorem flux_deriv_te (t t0 te u0 fs fb : ℝ) (hu : 0 < u0) (hte : 0 < te) :
    HasDerivAt (fun x => flux t t0 x u0 fs fb)
      (fs * (-4 / sqrt ((u0 ^ 2 + (t - t0) ^ 2 / te ^ 2) * ((u0 ^ 2 + (t - t0) ^ 2 / te ^ 2) + 4)) ^ 3 * (-2 * (t - t0) ^ 2 / te ^ 3))) te := by
  have h1 : HasDerivAt (fun x : ℝ => x ^ 2) (2 * te) te := by simpa using hasDerivAt_pow 2 te
  have h2 : HasDerivAt (fun x : ℝ => u0 ^ 2 + (t - t0) ^ 2 / x ^ 2) (-2 * (t - t0) ^ 2 / te ^ 3) te := by
    have h3 := ((hasDerivAt_const te ((t - t0) ^ 2)).div h1 (by positivity)).const_add (u0 ^ 2)
    have e : (0 * te ^ 2 - (t - t0) ^ 2 * (2 * te)) / (te ^ 2) ^ 2 = -2 * (t - t0) ^ 2 / te ^ 3 := by
      have := hte.ne'
      field_simp
      ring
    rw [e] at h3
    exact h3
  have h3 := (mag2_hasDerivAt _ (w_pos t u0 te t0 hu)).comp te h2
  have h4 := (h3.const_mul fs).add_const fb
  have e : (fun x => flux t t0 x u0 fs fb) = fun x => fs * (mag2 ∘ fun x : ℝ => u0 ^ 2 + (t - t0) ^ 2 / x ^ 2) x + fb := by
    funext x
    rw [flux_eq]
    rfl
  rw [e]
  exact h4

/-- **C319.** The three numbers of `coefficients_pspl` are the derivatives of the flux with respect to the time of the peak, the impact parameter and
the crossing time, in this order. -/
theorem coeffs_derivatives (t t0 te u0 fs fb : ℝ) (hu : 0 < u0) (hte : 0 < te) :
    ∃ a b c, coeffs t t0 te u0 fs = [a, b, c] ∧
      HasDerivAt (fun x => flux t x te u0 fs fb) a t0 ∧
      HasDerivAt (fun x => flux t t0 te x fs fb) b u0 ∧
      HasDerivAt (fun x => flux t t0 x u0 fs fb) c te := by
  refine ⟨_, _, _, coeffs_eq t t0 te u0 fs hu hte, ?_, ?_, ?_⟩
  · have h2 : HasDerivAt (fun x : ℝ => u0 ^ 2 + (t - x) ^ 2 / te ^ 2) (-2 * (t - t0) / te ^ 2) t0 := by
      have h0 : HasDerivAt (fun x : ℝ => t - x) (-1) t0 := HasDerivAt.const_sub t (hasDerivAt_id t0)
      have h1 := h0.pow 2
      have h3 := (h1.div_const (te ^ 2)).const_add (u0 ^ 2)
      have e : ((2 : ℕ) : ℝ) * (t - t0) ^ (2 - 1) * (-1) / te ^ 2 = -2 * (t - t0) / te ^ 2 := by
        norm_num
      rw [e] at h3
      exact h3
    have h3 := (mag2_hasDerivAt _ (w_pos t u0 te t0 hu)).comp t0 h2
    have h4 := (h3.const_mul fs).add_const fb
    have e : (fun x => flux t x te u0 fs fb) = fun x => fs * (mag2 ∘ fun x : ℝ => u0 ^ 2 + (t - x) ^ 2 / te ^ 2) x + fb := by
      funext x
      rw [flux_eq]
      rfl
    rw [e]
    exact h4
  · have h2 : HasDerivAt (fun x : ℝ => x ^ 2 + (t - t0) ^ 2 / te ^ 2) (2 * u0) u0 := by
      have h1 : HasDerivAt (fun x : ℝ => x ^ 2) (2 * u0) u0 := by simpa using hasDerivAt_pow 2 u0
      exact h1.add_const _
    have h3 := (mag2_hasDerivAt _ (w_pos t u0 te t0 hu)).comp u0 h2
    have h4 := (h3.const_mul fs).add_const fb
    have e : (fun x => flux t t0 te x fs fb) = fun x => fs * (mag2 ∘ fun x : ℝ => x ^ 2 + (t - t0) ^ 2 / te ^ 2) x + fb := by
      funext x
      rw [flux_eq]
      rfl
    rw [e]
    exact h4
  · exact flux_deriv_te t t0 te u0 fs fb hu hte

/-- **C319.** `coefficients_fsfb` gives the derivatives with respect to the flux of the blend and of the source. -/
theorem coeffsFsfb_derivatives (t t0 te u0 fs fb : ℝ) :
    ∃ a b, coeffsFsfb t t0 te u0 = [b, a] ∧ HasDerivAt (fun x => flux t t0 te u0 x fb) a fs ∧ HasDerivAt (fun x => flux t t0 te u0 fs x) b fb := by
  refine ⟨mag2 (u0 ^ 2 + (t - t0) ^ 2 / te ^ 2), 1, ?_, ?_, ?_⟩
  · unfold coeffsFsfb mag2
    dsimp only
    rw [← sqrt_mul (by positivity)]
  · have e : (fun x => flux t t0 te u0 x fb) = fun x => x * mag2 (u0 ^ 2 + (t - t0) ^ 2 / te ^ 2) + fb := by
      funext x
      rw [flux_eq]
    rw [e]
    have h := HasDerivAt.add_const fb ((hasDerivAt_id fs).mul_const (mag2 (u0 ^ 2 + (t - t0) ^ 2 / te ^ 2)))
    rw [one_mul] at h
    exact h
  · have e : (fun x => flux t t0 te u0 fs x) = fun x => fs * mag2 (u0 ^ 2 + (t - t0) ^ 2 / te ^ 2) + x := by
      funext x
      rw [flux_eq]
    rw [e]
    exact HasDerivAt.const_add (fs * mag2 (u0 ^ 2 + (t - t0) ^ 2 / te ^ 2)) (hasDerivAt_id fb)

/-- **C319.** The first parameter of the Fisher matrix is said to be the crossing time, and its variance is reported as such; it is not: at the peak,
nothing is learnt of the crossing time, but off it the first coefficient is not the derivative with respect to it. -/
theorem first_is_te_false : ¬ ∀ (t t0 te u0 fs fb : ℝ), 0 < u0 → 0 < te →
    HasDerivAt (fun x => flux t t0 x u0 fs fb) ((coeffs t t0 te u0 fs).getD 0 0) te := by
  intro h
  have a := h 2 0 1 1 1 0 (by norm_num) (by norm_num)
  have b := flux_deriv_te 2 0 1 1 1 0 (by norm_num) (by norm_num)
  have e := a.unique b
  have c := coeffs_eq 2 0 1 1 1 (by norm_num) (by norm_num)
  dsimp only at c
  rw [c] at e
  simp only [List.getD_cons_zero] at e
  norm_num at e

/-! ## The time of most information -/

theorem key_ineq (a v w : ℝ) (hv : 0 < v) (hq : 2 * v ^ 2 - (3 * a - 2) * v - 6 * a = 0) (hw : a ≤ w) :
    (w - a) ^ 2 * (v * (v + 4)) ^ 3 ≤ (v - a) ^ 2 * (w * (w + 4)) ^ 3 := by
  have hv2 : 0 < v + 2 := by linarith
  have hL : 3 * (v + 2) * (w - a) = v * (v + 4) + 3 * ((v + 2) * (w - v)) := by linear_combination hq
  have hQ : 3 * (v + 2) * (v - a) = v * (v + 4) := by linear_combination hq
  set Q := v * (v + 4) with hQd
  set e := (v + 2) * (w - v) with hed
  have hQ0 : 0 < Q := by positivity
  have hLn : 0 ≤ Q + 3 * e := by
    rw [← hL]
    have : 0 ≤ w - a := by linarith
    positivity
  have hP : w * (w + 4) = Q + 2 * e + (w - v) ^ 2 := by rw [hQd, hed]; ring
  have hT : 0 ≤ Q + 2 * e := by linarith
  have h3 : (Q + 2 * e) ^ 3 ≤ (w * (w + 4)) ^ 3 := by
    apply pow_le_pow_left₀ hT
    rw [hP]
    linarith [sq_nonneg (w - v)]
  have h4 : (Q + 3 * e) ^ 2 * Q ≤ (Q + 2 * e) ^ 3 := by
    have : (Q + 2 * e) ^ 3 - (Q + 3 * e) ^ 2 * Q = e ^ 2 * (3 * Q + 8 * e) := by ring
    have h5 : 0 ≤ e ^ 2 * (3 * Q + 8 * e) := mul_nonneg (sq_nonneg _) (by linarith)
    linarith
  have h6 : (3 * (v + 2) * (w - a)) ^ 2 * Q ^ 3 ≤ (3 * (v + 2) * (v - a)) ^ 2 * (w * (w + 4)) ^ 3 := by
    rw [hL, hQ]
    have := mul_le_mul_of_nonneg_left (h4.trans h3) (sq_nonneg Q)
    nlinarith
  have h7 : 0 < (3 * (v + 2)) ^ 2 := by positivity
  rw [mul_pow, mul_pow (3 * (v + 2)), mul_assoc, mul_assoc] at h6
  exact le_of_mul_le_mul_left h6 h7

/-- The square of the reported time, and the quadratic it solves. -/
theorem infoPeak_sq (u0 te : ℝ) (hu : 0 < u0) (hte : 0 < te) :
    ∃ v, u0 ^ 2 < v ∧ 2 * v ^ 2 - (3 * u0 ^ 2 - 2) * v - 6 * u0 ^ 2 = 0 ∧ infoPeak u0 te ^ 2 = te ^ 2 * (v - u0 ^ 2) ∧ 0 < infoPeak u0 te := by
  set a := u0 ^ 2 with ha
  have ha0 : 0 < a := by positivity
  have e4 : u0 ^ 4 = a ^ 2 := by rw [ha]; ring
  have hd : sqrt (9 * a ^ 2 + 36 * a + 4) ^ 2 = 9 * a ^ 2 + 36 * a + 4 := sq_sqrt (by positivity)
  have hgt : a + 2 < sqrt (9 * a ^ 2 + 36 * a + 4) := by
    apply lt_sqrt_of_sq_lt
    nlinarith
  set d := sqrt (9 * a ^ 2 + 36 * a + 4) with hdd
  refine ⟨(3 * a - 2 + d) / 4, by linarith, ?_, ?_, ?_⟩
  · nlinarith
  · unfold infoPeak
    rw [e4, ← hdd, div_pow, mul_pow, sq_sqrt (by linarith)]
    ring
  · unfold infoPeak
    rw [e4, ← hdd]
    have : 0 < sqrt (-a + d - 2) := sqrt_pos.mpr (by linarith)
    positivity

theorem amp_deriv_te (t t0 te u0 : ℝ) (hu : 0 < u0) (hte : 0 < te) :
    deriv (fun x => amp t u0 x t0 1) te =
      8 * ((t - t0) ^ 2 / te ^ 3) / sqrt ((u0 ^ 2 + (t - t0) ^ 2 / te ^ 2) * ((u0 ^ 2 + (t - t0) ^ 2 / te ^ 2) + 4)) ^ 3 := by
  have h := flux_deriv_te t t0 te u0 1 0 hu hte
  have e : (fun x => amp t u0 x t0 1) = fun x => flux t t0 x u0 1 0 := by
    funext x
    rw [amp_eq, flux_eq]
    ring
  rw [e, h.deriv]
  ring

/-- **C318.** The reported time before the peak is positive, and at it a change of the crossing time changes the amplification most. -/
theorem infoPeak_max (t t0 te u0 : ℝ) (hu : 0 < u0) (hte : 0 < te) :
    0 < infoPeak u0 te ∧
    |deriv (fun x => amp t u0 x t0 1) te| ≤ |deriv (fun x => amp (t0 - infoPeak u0 te) u0 x t0 1) te| := by
  obtain ⟨v, hv, hq, ho, hp⟩ := infoPeak_sq u0 te hu hte
  refine ⟨hp, ?_⟩
  have ha : 0 < u0 ^ 2 := by positivity
  have hv0 : 0 < v := by linarith
  rw [amp_deriv_te _ _ _ _ hu hte, amp_deriv_te _ _ _ _ hu hte]
  have e1 : (t0 - infoPeak u0 te - t0) ^ 2 = te ^ 2 * (v - u0 ^ 2) := by rw [← ho]; ring
  rw [e1]
  have e2 : te ^ 2 * (v - u0 ^ 2) / te ^ 2 = v - u0 ^ 2 := by field_simp
  rw [e2, add_sub_cancel]
  obtain ⟨w, hw⟩ : ∃ w, w = u0 ^ 2 + (t - t0) ^ 2 / te ^ 2 := ⟨_, rfl⟩
  have hw0 : u0 ^ 2 ≤ w := by rw [hw]; linarith [show 0 ≤ (t - t0) ^ 2 / te ^ 2 by positivity]
  have e3 : (t - t0) ^ 2 = te ^ 2 * (w - u0 ^ 2) := by
    rw [hw]
    field_simp
    ring
  rw [← hw, e3]
  have hPw : 0 < w * (w + 4) := by
    have : 0 < w := by linarith
    positivity
  have hPv : 0 < v * (v + 4) := by positivity
  have hsw := sqrt_pos.mpr hPw
  have hsv := sqrt_pos.mpr hPv
  have hc : ∀ x : ℝ, te ^ 2 * x / te ^ 3 = x / te := by
    intro x
    field_simp
  rw [hc, hc, abs_of_nonneg, abs_of_nonneg]
  · rw [div_le_div_iff₀ (by positivity) (by positivity)]
    have key := key_ineq (u0 ^ 2) v w hv0 hq hw0
    have hsq : ((w - u0 ^ 2) * sqrt (v * (v + 4)) ^ 3) ^ 2 ≤ ((v - u0 ^ 2) * sqrt (w * (w + 4)) ^ 3) ^ 2 := by
      have a1 : (sqrt (v * (v + 4)) ^ 3) ^ 2 = (v * (v + 4)) ^ 3 := by rw [← pow_mul, mul_comm 3 2, pow_mul, sq_sqrt hPv.le]
      have a2 : (sqrt (w * (w + 4)) ^ 3) ^ 2 = (w * (w + 4)) ^ 3 := by rw [← pow_mul, mul_comm 3 2, pow_mul, sq_sqrt hPw.le]
      rw [mul_pow, mul_pow, a1, a2]
      exact key
    have hle := abs_le_of_sq_le_sq hsq (mul_nonneg (by linarith) (by positivity))
    have hle' := (le_abs_self _).trans hle
    have : (w - u0 ^ 2) / te * sqrt (v * (v + 4)) ^ 3 ≤ (v - u0 ^ 2) / te * sqrt (w * (w + 4)) ^ 3 := by
      rw [div_mul_eq_mul_div, div_mul_eq_mul_div]
      exact div_le_div_of_nonneg_right hle' hte.le
    nlinarith
  · have : 0 ≤ v - u0 ^ 2 := by linarith
    positivity
  · have : 0 ≤ w - u0 ^ 2 := by linarith
    positivity

/-- **C318.** It is documented for a constant signal-to-noise ratio, where the error is a share of the flux; there it is not the time of most information. -/
theorem infoPeak_snr_false : ¬ ∀ (t t0 te u0 : ℝ), 0 < u0 → 0 < te →
    |deriv (fun x => amp t u0 x t0 1) te| / amp t u0 te t0 1 ≤
      |deriv (fun x => amp (t0 - infoPeak u0 te) u0 x t0 1) te| / amp (t0 - infoPeak u0 te) u0 te t0 1 := by
  intro h
  have a := h 1.1 0 1 1 (by norm_num) (by norm_num)
  have hi : infoPeak 1 1 = 1 := by
    unfold infoPeak
    have e1 : sqrt (9 * 1 ^ 4 + 36 * 1 ^ 2 + 4) = 7 := by
      rw [show (9 * 1 ^ 4 + 36 * 1 ^ 2 + 4 : ℝ) = 7 ^ 2 by norm_num, sqrt_sq (by norm_num)]
    rw [e1, show (-(1 ^ 2) + 7 - 2 : ℝ) = 2 ^ 2 by norm_num, sqrt_sq (by norm_num)]
    norm_num
  rw [hi] at a
  have g : ∀ t : ℝ, t ≠ 0 → |deriv (fun x => amp t 1 x 0 1) 1| / amp t 1 1 0 1 = 8 * t ^ 2 / ((1 + t ^ 2) * (1 + t ^ 2 + 4) * (1 + t ^ 2 + 2)) := by
    intro t ht
    rw [amp_deriv_te _ _ _ _ one_pos one_pos, amp_eq]
    have e : (1 : ℝ) ^ 2 + (t - 0) ^ 2 / 1 ^ 2 = 1 + t ^ 2 := by ring
    rw [e]
    have hP : 0 < (1 + t ^ 2) * (1 + t ^ 2 + 4) := by positivity
    have hs := sqrt_pos.mpr hP
    have hs2 := sq_sqrt hP.le
    rw [abs_of_nonneg (by positivity)]
    unfold mag2
    generalize sqrt ((1 + t ^ 2) * (1 + t ^ 2 + 4)) = s at *
    have hs' := hs.ne'
    rw [← hs2]
    have : (1 + t ^ 2 + 2) ≠ 0 := by positivity
    field_simp
    ring
  rw [g 1.1 (by norm_num), g (0 - 1) (by norm_num)] at a
  norm_num at a

/-! ## The Fisher matrix -/

theorem outer_eq (d : List ℝ) (i j : ℕ) : outer d i j = d.getD i 0 * d.getD j 0 := by
  unfold outer
  dsimp only
  rcases lt_trichotomy i j with h | h | h
  · rw [if_pos h.le, if_neg (by omega), if_neg (by omega)]
    ring
  · subst h
    simp
  · rw [if_neg (by omega), if_pos h.le, if_neg (by omega)]
    ring

theorem sum_map_sum_comm {A B : Type} (l : List A) (m : List B) (f : A → B → ℝ) :
    (l.map fun a => (m.map fun b => f a b).sum).sum = (m.map fun b => (l.map fun a => f a b).sum).sum := by
  induction l with
  | nil => simp
  | cons a l ih =>
    simp only [List.map_cons, List.sum_cons, ih]
    rw [← List.sum_map_add]

/-- **C320.** The matrix is symmetric, and the information on any combination of the parameters is not negative. -/
theorem fisher_psd (n : ℕ) (visits : List (ℝ × ℝ)) (t0 te u0 fs fb : ℝ) :
    (∀ i j, fisher n visits t0 te u0 fs fb i j = fisher n visits t0 te u0 fs fb j i) ∧
    (∀ (x : ℕ → ℝ) (N : ℕ), 0 ≤ ((List.range N).map fun i => ((List.range N).map fun j => x i * fisher n visits t0 te u0 fs fb i j * x j).sum).sum) := by
  constructor
  · intro i j
    unfold fisher
    congr 2
    funext v
    rw [outer_eq, outer_eq, mul_comm]
  · intro x N
    have e : ∀ i j, x i * fisher n visits t0 te u0 fs fb i j * x j =
        (visits.map fun v => (x i * (derivatives n v.1 t0 te u0 fs).getD i 0) * (x j * (derivatives n v.1 t0 te u0 fs).getD j 0) /
          (flux v.1 t0 te u0 fs fb / v.2) ^ 2).sum := by
      intro i j
      unfold fisher
      rw [← List.sum_map_mul_left, ← List.sum_map_mul_right]
      congr 2
      funext v
      rw [outer_eq]
      ring
    simp only [e]
    have e2 : ∀ i, ((List.range N).map fun j => (visits.map fun v => (x i * (derivatives n v.1 t0 te u0 fs).getD i 0) *
        (x j * (derivatives n v.1 t0 te u0 fs).getD j 0) / (flux v.1 t0 te u0 fs fb / v.2) ^ 2).sum).sum =
        (visits.map fun v => (x i * (derivatives n v.1 t0 te u0 fs).getD i 0) *
          ((List.range N).map fun j => x j * (derivatives n v.1 t0 te u0 fs).getD j 0).sum / (flux v.1 t0 te u0 fs fb / v.2) ^ 2).sum := by
      intro i
      rw [sum_map_sum_comm]
      congr 2
      funext v
      simp only [div_eq_mul_inv]
      rw [List.sum_map_mul_right, List.sum_map_mul_left]
    simp only [e2]
    rw [sum_map_sum_comm]
    apply List.sum_nonneg
    intro y hy
    obtain ⟨v, _, rfl⟩ := List.mem_map.mp hy
    simp only [div_eq_mul_inv]
    rw [List.sum_map_mul_right, List.sum_map_mul_right]
    apply mul_nonneg (mul_self_nonneg _)
    positivity

/-- **C320.** A visit adds its own matrix, so visits only add information. -/
theorem fisher_add (n : ℕ) (vs ws : List (ℝ × ℝ)) (t0 te u0 fs fb : ℝ) (i j : ℕ) :
    fisher n (vs ++ ws) t0 te u0 fs fb i j = fisher n vs t0 te u0 fs fb i j + fisher n ws t0 te u0 fs fb i j := by
  unfold fisher
  rw [List.map_append, List.sum_append]

/-- **C320.** The entries of the three parameters of the event are the sums of products of the derivatives over the square of the errors. -/
theorem fisher_event (n : ℕ) (visits : List (ℝ × ℝ)) (t0 te u0 fs fb : ℝ) (i j : ℕ) (hi : i < 3) (hj : j < 3) :
    fisher n visits t0 te u0 fs fb i j =
      (visits.map fun v => (coeffs v.1 t0 te u0 fs).getD i 0 * (coeffs v.1 t0 te u0 fs).getD j 0 / (flux v.1 t0 te u0 fs fb / v.2) ^ 2).sum := by
  unfold fisher
  congr 2
  funext v
  rw [outer_eq]
  have e : ∀ k, k < 3 → (derivatives n v.1 t0 te u0 fs).getD k 0 = (coeffs v.1 t0 te u0 fs).getD k 0 := by
    intro k hk
    unfold derivatives
    rw [List.getD_append]
    exact hk
  rw [e i hi, e j hj]

/-- **C320.** Nothing is ever learnt of the fluxes of the source and the blend: their rows are zero. -/
theorem fisher_flux_zero (n : ℕ) (visits : List (ℝ × ℝ)) (t0 te u0 fs fb : ℝ) (i j : ℕ) (hi : 3 ≤ i) :
    fisher n visits t0 te u0 fs fb i j = 0 := by
  unfold fisher
  have e : ∀ v : ℝ × ℝ, outer (derivatives n v.1 t0 te u0 fs) i j = 0 := by
    intro v
    rw [outer_eq]
    have : (derivatives n v.1 t0 te u0 fs).getD i 0 = 0 := by
      unfold derivatives
      rw [List.getD_append_right]
      · rw [List.getD_eq_getElem?_getD]
        rcases lt_or_ge (i - (coeffs v.1 t0 te u0 fs).length) (2 * n) with h | h
        · rw [List.getElem?_replicate_of_lt h]
          rfl
        · rw [List.getElem?_eq_none (by simpa using h)]
          rfl
      · exact hi
    rw [this, zero_mul]
  simp [e]

/-- **C320.** So the matrix is not the information on all of its parameters. -/
theorem fisher_flux_false : ¬ ∀ (n : ℕ) (t s t0 te u0 fs fb : ℝ), 0 < n → 0 < s → 0 < u0 → 0 < te → 0 < fs → 0 < fb →
    ∃ d, HasDerivAt (fun x => flux t t0 te u0 fs x) d fb ∧ fisher n [(t, s)] t0 te u0 fs fb 4 4 = d * d / (flux t t0 te u0 fs fb / s) ^ 2 := by
  intro h
  obtain ⟨d, hd, e⟩ := h 1 0 1 0 1 1 1 1 one_pos one_pos one_pos one_pos one_pos one_pos
  obtain ⟨a, b, hab, _, hb⟩ := coeffsFsfb_derivatives 0 0 1 1 1 1
  have h1 : b = 1 := by
    unfold coeffsFsfb at hab
    simp only [List.cons.injEq] at hab
    exact hab.1.symm
  have h2 := hd.unique hb
  rw [fisher_flux_zero _ _ _ _ _ _ _ _ _ (by norm_num), h2, h1] at e
  have : 0 < flux 0 0 1 1 1 1 := by
    rw [flux_eq]
    have := mag2_gt_one ((1 : ℝ) ^ 2 + (0 - 0) ^ 2 / 1 ^ 2) (by norm_num)
    linarith
  have : 0 < (1 : ℝ) * 1 / (flux 0 0 1 1 1 1 / 1) ^ 2 := by positivity
  linarith

/-- **C320.** The run adds, for every filter, the visits of the last one: visits in the others have no effect. -/
theorem fisherRun_last (filters : List String) (visits visits' : List FVisit) (t0 te u0 : ℝ) (fs fb : String → ℝ) (i j : ℕ)
    (h : (visits.filter fun v => some v.filter == filters.getLast?) = visits'.filter fun v => some v.filter == filters.getLast?) :
    fisherRun filters visits t0 te u0 fs fb i j = fisherRun filters visits' t0 te u0 fs fb i j := by
  unfold fisherRun
  dsimp only
  rw [h]

/-! ## Detection -/

/-- The unordered pairs of a list. -/
def pairs {A : Type} : List A → List (A × A)
  | [] => []
  | a :: l => l.map (fun b => (a, b)) ++ pairs l

theorem ordered_eq {A : Type} (r : A → A → Bool) (hs : ∀ a b, r a b = r b a) (hi : ∀ a, r a a = false) (l : List A) :
    ordered r l = 2 * (pairs l).countP fun p => r p.1 p.2 := by
  induction l with
  | nil => simp [ordered, pairs]
  | cons a l ih =>
    unfold ordered at ih ⊢
    unfold pairs
    simp only [List.map_cons, List.sum_cons, List.countP_cons, hi, List.countP_append, List.countP_map]
    rw [List.sum_map_add, ih]
    have e : (l.map fun x => if r x a = true then 1 else 0).sum = l.countP fun b => r a b := by
      rw [List.countP_eq_length_filter]
      clear ih
      induction l with
      | nil => simp
      | cons b l ihl =>
        simp only [List.map_cons, List.sum_cons, ihl, List.filter_cons, hs b a]
        split_ifs <;> simp <;> omega
    rw [e]
    have e2 : ((fun p : A × A => r p.1 p.2) ∘ fun b => (a, b)) = fun b => r a b := rfl
    rw [e2]
    simp
    omega

theorem above_symm (σ : ℝ) (a b : Pt) : above σ a b = above σ b a := by
  unfold above
  rw [abs_sub_comm, add_comm]

theorem above_irrefl (σ : ℝ) (hσ : 0 ≤ σ) (a : Pt) : above σ a a = false := by
  unfold above
  simp [hσ]

/-- **C321.** The halved counts are the numbers of pairs of visits, in one filter and before (or after) the peak, whose magnitudes differ by more than
`detect_sigma` times the error of the difference. -/
theorem detect_pairs (σ before t0 : ℝ) (hσ : 0 ≤ σ) (filters : List String) (pts : List Pt) :
    nPre σ before t0 filters pts = (filters.map fun f => (((pairs (pts.filter fun p => decide (p.filter = f) && decide (p.t < t0 - before))).countP
      fun q => above σ q.1 q.2 : ℕ) : ℚ)).sum ∧
    nPost σ t0 filters pts = (filters.map fun f => (((pairs (pts.filter fun p => decide (p.filter = f) && decide (t0 < p.t))).countP
      fun q => above σ q.1 q.2 : ℕ) : ℚ)).sum := by
  constructor
  · unfold nPre
    congr 2
    funext f
    rw [ordered_eq _ (above_symm σ) (above_irrefl σ hσ)]
    push_cast
    rw [mul_div_cancel_left₀ _ (by norm_num)]
    simp only [Bool.decide_and]
  · unfold nPost
    congr 2
    funext f
    rw [ordered_eq _ (above_symm σ) (above_irrefl σ hσ)]
    push_cast
    rw [mul_div_cancel_left₀ _ (by norm_num)]
    simp only [Bool.decide_and]

/-- **C321.** With `detect`, both sides of the peak need the number asked for; so a detection implies a trigger. -/
theorem detected_spec (needed pre post : ℚ) :
    (detected true needed pre post = true ↔ needed ≤ pre ∧ needed ≤ post) ∧ (detected false needed pre post = true ↔ needed ≤ pre) ∧
    (detected true needed pre post = true → detected false needed pre post = true) := by
  simp [detected]
  intro h _
  exact h

theorem uncert_depth (p : Pt) (h : p.mag = p.m5) : snr p = 5 ∧ 0 < uncert p ∧ uncert p ≤ 1 := by
  have hs : snr p = 5 := by
    unfold snr
    rw [h]
    simp
  refine ⟨hs, ?_, ?_⟩
  · unfold uncert
    rw [hs]
    have := logb_pos (show (1 : ℝ) < 10 by norm_num) (show (1 : ℝ) < 1 + 1 / 5 by norm_num)
    linarith
  · unfold uncert
    rw [hs]
    have : logb 10 (1 + 1 / 5) ≤ 0.4 := by
      rw [logb_le_iff_le_rpow (by norm_num) (by norm_num)]
      have h0 : (0 : ℝ) ≤ 10 ^ (0.4 : ℝ) := by positivity
      have h5 : ((10 : ℝ) ^ (0.4 : ℝ)) ^ 5 = 100 := by
        rw [← rpow_natCast, ← rpow_mul (by norm_num)]
        norm_num
      by_contra hc
      push Not at hc
      have := pow_lt_pow_left₀ hc h0 (show (5 : ℕ) ≠ 0 by norm_num)
      rw [h5] at this
      norm_num at this
    linarith

/-- **C321.** `pts_needed` is documented as a number of points above the five-sigma depth: an event can be detected with none. -/
theorem detect_points_false : ¬ ∀ (σ before t0 : ℝ) (filters : List String) (pts : List Pt) (needed : ℕ), 0 < σ →
    detected false needed (nPre σ before t0 filters pts) (nPost σ t0 filters pts) = true →
    ∃ sub : List Pt, sub.Sublist pts ∧ needed ≤ sub.length ∧ ∀ p ∈ sub, p.mag < p.m5 := by
  intro h
  obtain ⟨sub, hs, hn, hp⟩ := h 3 0 10 ["r"] [⟨"r", 0, 20, 20⟩, ⟨"r", 1, 25, 25⟩, ⟨"r", 2, 25, 25⟩] 2 (by norm_num) (by
    rw [(detected_spec _ _ _).2.1, (detect_pairs 3 0 10 (by norm_num) _ _).1]
    have hab : ∀ t t' : ℝ, above 3 ⟨"r", t, 20, 20⟩ ⟨"r", t', 25, 25⟩ = true := by
      intro t t'
      unfold above
      rw [decide_eq_true_eq]
      obtain ⟨_, a1, a2⟩ := uncert_depth ⟨"r", t, 20, 20⟩ rfl
      obtain ⟨_, b1, b2⟩ := uncert_depth ⟨"r", t', 25, 25⟩ rfl
      dsimp only
      generalize uncert ⟨"r", t, 20, 20⟩ = a at *
      generalize uncert ⟨"r", t', 25, 25⟩ = b at *
      have hs : sqrt (b ^ 2 + a ^ 2) ≤ 1.5 := by
        apply sqrt_le_iff.mpr
        constructor
        · norm_num
        · nlinarith
      rw [lt_div_iff₀ (sqrt_pos.mpr (by positivity))]
      norm_num
      linarith
    have hf : ([⟨"r", 0, 20, 20⟩, ⟨"r", 1, 25, 25⟩, ⟨"r", 2, 25, 25⟩] : List Pt).filter
        (fun p => decide (p.filter = "r") && decide (p.t < 10 - 0)) = [⟨"r", 0, 20, 20⟩, ⟨"r", 1, 25, 25⟩, ⟨"r", 2, 25, 25⟩] := by
      apply List.filter_eq_self.mpr
      intro p hp
      simp only [List.mem_cons, List.not_mem_nil, or_false] at hp
      rcases hp with rfl | rfl | rfl <;> norm_num
    simp only [List.map_cons, List.map_nil, List.sum_cons, List.sum_nil, add_zero, hf]
    have h2 : 2 ≤ (pairs ([⟨"r", 0, 20, 20⟩, ⟨"r", 1, 25, 25⟩, ⟨"r", 2, 25, 25⟩] : List Pt)).countP fun q => above 3 q.1 q.2 := by
      simp only [pairs, List.map_cons, List.map_nil, List.cons_append, List.nil_append, List.append_nil, List.countP_cons, hab]
      simp
    exact_mod_cast h2)
  cases sub with
  | nil => simp at hn
  | cons p sub =>
    have h1 := hp p (by simp)
    have h2 := hs.subset (show p ∈ p :: sub by simp)
    simp only [List.mem_cons, List.not_mem_nil, or_false] at h2
    rcases h2 with rfl | rfl | rfl <;> norm_num at h1

/-! ## The number of points, and the times -/

theorem length_filters {A : Type} (filters : List String) (hn : filters.Nodup) (g : A → String) (l : List A) (p : A → Bool) (hg : ∀ a ∈ l, g a ∈ filters) :
    (filters.map fun f => (l.filter fun a => decide (g a = f) && p a).length).sum = (l.filter p).length := by
  induction l with
  | nil => simp
  | cons a l ih =>
    replace ih := ih (fun b hb => hg b (List.mem_cons_of_mem _ hb))
    have ha := hg a (by simp)
    have e : ∀ f, ((a :: l).filter fun a => decide (g a = f) && p a).length =
        (if f = g a ∧ p a = true then 1 else 0) + (l.filter fun a => decide (g a = f) && p a).length := by
      intro f
      rw [List.filter_cons]
      by_cases h : g a = f
      · by_cases h2 : p a = true
        · simp [h, h2]; omega
        · simp [h, h2]
      · have : ¬ (f = g a) := fun hc => h hc.symm
        simp [h, this]
    simp only [e]
    rw [List.sum_map_add, ih, List.filter_cons]
    have hc : (filters.map fun f => if f = g a ∧ p a = true then 1 else 0).sum = if p a = true then 1 else 0 := by
      clear ih e hg
      by_cases h2 : p a = true
      · simp only [h2, and_true, if_true]
        induction filters with
        | nil => simp at ha
        | cons f fs ihf =>
          rw [List.nodup_cons] at hn
          simp only [List.map_cons, List.sum_cons]
          by_cases hf : f = g a
          · have : (fs.map fun x => if x = g a then 1 else 0).sum = 0 := by
              apply List.sum_eq_zero
              intro x hx
              obtain ⟨y, hy, rfl⟩ := List.mem_map.mp hx
              rw [if_neg]
              intro hc
              exact hn.1 (by rw [hf, ← hc]; exact hy)
            rw [this, if_pos hf]
          · rw [if_neg hf, ihf hn.2 (by
              rcases List.mem_cons.mp ha with h | h
              · exact absurd h.symm hf
              · exact h)]
      · simp [h2]
    rw [hc]
    split_ifs <;> simp
    omega

open Classical in
/-- **C322.** "Npts" counts the visits of sufficient signal-to-noise ratio less than one crossing time before or after the peak, but not at it. -/
theorem npts_spec (σ t0 te : ℝ) (filters : List String) (hn : filters.Nodup) (pts : List Pt) (hf : ∀ p ∈ pts, p.filter ∈ filters) :
    npts σ t0 te filters pts = (pts.filter fun p => decide (0 < |p.t - t0| ∧ |p.t - t0| < te ∧ σ < snr p)).length := by
  have key := fun q => length_filters filters hn (fun p : Pt => p.filter) pts q hf
  unfold npts
  have e1 := key fun p => decide (p.t < t0 ∧ t0 - te < p.t ∧ σ < snr p)
  have e2 := key fun p => decide (t0 < p.t ∧ p.t < t0 + te ∧ σ < snr p)
  have c1 : ∀ f : String, (fun p : Pt => decide (p.filter = f ∧ p.t < t0 ∧ t0 - te < p.t ∧ σ < snr p)) =
      fun p => decide (p.filter = f) && decide (p.t < t0 ∧ t0 - te < p.t ∧ σ < snr p) := by
    intro f
    funext p
    rw [← Bool.decide_and]
  have c2 : ∀ f : String, (fun p : Pt => decide (p.filter = f ∧ t0 < p.t ∧ p.t < t0 + te ∧ σ < snr p)) =
      fun p => decide (p.filter = f) && decide (t0 < p.t ∧ p.t < t0 + te ∧ σ < snr p) := by
    intro f
    funext p
    rw [← Bool.decide_and]
  simp only [c1, c2]
  rw [e1, e2]
  clear e1 e2 c1 c2 key hf
  induction pts with
  | nil => simp
  | cons p l ih =>
    simp only [List.filter_cons, decide_eq_true_eq]
    rcases lt_trichotomy p.t t0 with h | h | h
    · have ha : |p.t - t0| = t0 - p.t := by rw [abs_of_neg (by linarith)]; ring
      have n2 : ¬ (t0 < p.t ∧ p.t < t0 + te ∧ σ < snr p) := fun hc => absurd hc.1 (by linarith)
      rw [if_neg n2]
      by_cases hc : t0 - te < p.t ∧ σ < snr p
      · rw [if_pos ⟨h, hc⟩, if_pos ⟨by rw [ha]; linarith, by rw [ha]; linarith [hc.1], hc.2⟩]
        simp only [List.length_cons]
        omega
      · rw [if_neg (fun hx => hc hx.2), if_neg (fun hx => hc ⟨by rw [ha] at hx; linarith [hx.2.1], hx.2.2⟩)]
        exact ih
    · have n1 : ¬ (p.t < t0 ∧ t0 - te < p.t ∧ σ < snr p) := fun hc => absurd hc.1 (by linarith)
      have n2 : ¬ (t0 < p.t ∧ p.t < t0 + te ∧ σ < snr p) := fun hc => absurd hc.1 (by linarith)
      have n3 : ¬ (0 < |p.t - t0| ∧ |p.t - t0| < te ∧ σ < snr p) := fun hc => absurd hc.1 (by rw [h]; simp)
      rw [if_neg n1, if_neg n2, if_neg n3]
      exact ih
    · have ha : |p.t - t0| = p.t - t0 := abs_of_pos (by linarith)
      have n1 : ¬ (p.t < t0 ∧ t0 - te < p.t ∧ σ < snr p) := fun hc => absurd hc.1 (by linarith)
      rw [if_neg n1]
      by_cases hc : p.t < t0 + te ∧ σ < snr p
      · rw [if_pos ⟨h, hc⟩, if_pos ⟨by rw [ha]; linarith, by rw [ha]; linarith [hc.1], hc.2⟩]
        simp only [List.length_cons]
        omega
      · rw [if_neg (fun hx => hc hx.2), if_neg (fun hx => hc ⟨by rw [ha] at hx; linarith [hx.2.1], hx.2.2⟩)]
        exact ih

open Classical in
/-- **C322.** It is documented as the number within two crossing times of the peak, which it is not. -/
theorem npts_false : ¬ ∀ (σ t0 te : ℝ) (filters : List String) (pts : List Pt), filters.Nodup → (∀ p ∈ pts, p.filter ∈ filters) → 0 < te →
    npts σ t0 te filters pts = (pts.filter fun p => decide (|p.t - t0| < 2 * te ∧ σ < snr p)).length := by
  intro h
  have hs : snr ⟨"r", 15, 20, 20⟩ = 5 := (uncert_depth _ rfl).1
  have e := h 3 0 10 ["r"] [⟨"r", 15, 20, 20⟩] (by simp) (by simp) (by norm_num)
  rw [npts_spec 3 0 10 _ (by simp) _ (by simp)] at e
  have n1 : ¬ (0 < |(15 : ℝ) - 0| ∧ |(15 : ℝ) - 0| < 10 ∧ (3 : ℝ) < snr ⟨"r", 15, 20, 20⟩) := by norm_num
  have n2 : |(15 : ℝ) - 0| < 2 * 10 ∧ (3 : ℝ) < snr ⟨"r", 15, 20, 20⟩ := by rw [hs]; norm_num
  simp only [List.filter_cons, List.filter_nil, decide_eq_true_eq] at e
  rw [if_neg n1, if_pos n2] at e
  simp at e

/-- **C322.** The times are counted from the first visit of the point itself, whatever the nights. -/
theorem times_spec (mjd night : List ℝ) (m0 : ℝ) (h0 : m0 ∈ mjd) (hm : ∀ m ∈ mjd, m0 ≤ m) : times mjd night = mjd.map fun m => m - m0 := by
  unfold times
  dsimp only
  set c := night.minimum.untopD 0 with hc
  have e : (mjd.map fun m => m - c).minimum = ((m0 - c : ℝ) : WithTop ℝ) := by
    rw [List.minimum_eq_coe_iff]
    refine ⟨List.mem_map.mpr ⟨m0, h0, rfl⟩, ?_⟩
    intro a ha
    obtain ⟨m, hm', rfl⟩ := List.mem_map.mp ha
    have := hm m hm'
    linarith
  rw [e, List.map_map]
  apply List.map_congr_left
  intro m _
  change m - c - (m0 - c) = m - m0
  ring

/-- **C322.** So the same visit is at different times of the event when the point has an earlier visit: the times are not counted from the start of the
survey, as the peak times are. -/
theorem times_false : ¬ ∃ start : ℝ, ∀ (mjd night : List ℝ), mjd ≠ [] → times mjd night = mjd.map fun m => m - start := by
  intro ⟨start, h⟩
  have a := h [5] [5] (by simp)
  have b := h [6] [6] (by simp)
  rw [times_spec [5] [5] 5 (by simp) (by simp)] at a
  rw [times_spec [6] [6] 6 (by simp) (by simp)] at b
  simp at a b
  linarith

/-! ## The draw of a pixel -/

section

variable {K : Type} [Field K] [LinearOrder K] [FloorRing K] [IsStrictOrderedRing K]

theorem sum_take_lt (dist : List K) (hp : ∀ d ∈ dist, 0 < d) (i j : ℕ) (hij : i < j) (hj : j ≤ dist.length) :
    (dist.take i).sum < (dist.take j).sum := by
  have e : dist.take j = dist.take i ++ (dist.take j).drop i := by
    conv_lhs => rw [← List.take_append_drop i (dist.take j)]
    rw [List.take_take, min_eq_left hij.le]
  rw [e, List.sum_append]
  have : 0 < ((dist.take j).drop i).sum := by
    apply List.sum_pos
    · intro x hx
      exact hp x (List.mem_of_mem_take (List.mem_of_mem_drop hx))
    · intro hc
      have := congrArg List.length hc
      simp at this
      omega
  linarith

/-- The cumulative distribution. -/
theorem cumul_eq (dist : List K) (hp : ∀ d ∈ dist, 0 < d) (hne : dist ≠ []) :
    cumul dist = (List.range dist.length).map fun i => (dist.take (i + 1)).sum / dist.sum := by
  unfold cumul
  dsimp only
  have hl : 0 < dist.length := List.length_pos_iff.mpr hne
  have e : ((List.range dist.length).map fun i => (dist.take (i + 1)).sum).maximum = ((dist.sum : K) : WithBot K) := by
    rw [List.maximum_eq_coe_iff]
    constructor
    · refine List.mem_map.mpr ⟨dist.length - 1, by rw [List.mem_range]; omega, ?_⟩
      rw [Nat.sub_add_cancel hl, List.take_length]
    · intro a ha
      obtain ⟨i, hi, rfl⟩ := List.mem_map.mp ha
      rw [List.mem_range] at hi
      rcases Nat.lt_or_ge (i + 1) dist.length with h | h
      · have := sum_take_lt dist hp (i + 1) dist.length h le_rfl
        rw [List.take_length] at this
        exact this.le
      · rw [List.take_of_length_le h]
  rw [e, List.map_map]
  rfl

/-- **C323.** A draw between the shares up to a pixel and up to the next falls on the first of the two: the pixel is chosen with the weight of the next. -/
theorem draw_spec (dist : List K) (hp : ∀ d ∈ dist, 0 < d) (k : ℕ) (d : K) (hk : dist[k + 1]? = some d) (u : K)
    (h1 : (dist.take (k + 1)).sum / dist.sum ≤ u) (h2 : u < ((dist.take (k + 1)).sum + d) / dist.sum) : draw (cumul dist) u = k := by
  have hlt : k + 1 < dist.length := (List.getElem?_eq_some_iff.mp hk).1
  have hne : dist ≠ [] := by
    intro hc
    rw [hc] at hlt
    simp at hlt
  have htot : 0 < dist.sum := List.sum_pos _ hp hne
  unfold draw
  rw [cumul_eq dist hp hne]
  simp only [List.length_map, List.length_range]
  rw [List.zip_map']
  set f : ℕ → K × K := fun i => ((dist.take (i + 1)).sum / dist.sum, (i : K)) with hf
  have hsort : ((List.range dist.length).map f).Pairwise (fun a b => a.1 < b.1) := by
    rw [List.pairwise_map]
    refine List.pairwise_lt_range.imp_of_mem ?_
    intro a b _ hb hab
    rw [List.mem_range] at hb
    exact div_lt_div_of_pos_right (sum_take_lt dist hp (a + 1) (b + 1) (by omega) (by omega)) htot
  have hdec : (List.range dist.length).map f = ((List.range dist.length).map f).take k ++ f k :: f (k + 1) :: ((List.range dist.length).map f).drop (k + 2) := by
    conv_lhs => rw [← List.take_append_drop k ((List.range dist.length).map f)]
    congr 1
    rw [List.drop_eq_getElem_cons (by simp; omega), List.drop_eq_getElem_cons (by simp; omega)]
    simp
  have hd : d = dist[k + 1] := by
    rw [List.getElem?_eq_getElem hlt] at hk
    exact (Option.some.inj hk).symm
  have hb1 : (f (k + 1)).1 = ((dist.take (k + 1)).sum + d) / dist.sum := by
    change (dist.take (k + 1 + 1)).sum / dist.sum = _
    rw [List.take_add_one, List.sum_append, hk]
    simp
  have hd0 : 0 < d := hp d (List.mem_of_getElem? hk)
  have key := MoSum.interp_between (((List.range dist.length).map f).take k) (((List.range dist.length).map f).drop (k + 2))
    (f k).1 (f k).2 (f (k + 1)).1 (f (k + 1)).2 (by rw [hdec] at hsort; exact hsort) u h1 (by rw [hb1]; exact h2.le)
  have hdec' : (List.range dist.length).map f = ((List.range dist.length).map f).take k ++ ((f k).1, (f k).2) :: ((f (k + 1)).1, (f (k + 1)).2) ::
      ((List.range dist.length).map f).drop (k + 2) := hdec
  rw [← hdec', hb1] at key
  have hgap : ((dist.take (k + 1)).sum + d) / dist.sum - (f k).1 = d / dist.sum := by
    change _ - (dist.take (k + 1)).sum / dist.sum = _
    ring
  rw [hgap] at key
  have hg0 : 0 < d / dist.sum := div_pos hd0 htot
  have e1 : (f k).2 = (k : K) := rfl
  have e2 : (f (k + 1)).2 = (k : K) + 1 := by simp [hf]
  rw [e1, e2] at key
  have h1' : (f k).1 ≤ u := h1
  rw [Int.floor_eq_iff]
  set I := MoSum.interp ((List.range dist.length).map f) u with hI
  have key2 : (I - k) * (d / dist.sum) = u - (f k).1 := by
    have : I * (d / dist.sum) = k * (((dist.take (k + 1)).sum + d) / dist.sum - u) + ((k : K) + 1) * (u - (f k).1) := key
    have h3 : ((dist.take (k + 1)).sum + d) / dist.sum = (f k).1 + d / dist.sum := by rw [← hgap]; ring
    rw [h3] at this
    linear_combination this
  constructor
  · by_contra hc
    push Not at hc
    have : (I - k) * (d / dist.sum) < 0 := mul_neg_of_neg_of_pos (by push_cast at hc; linarith) hg0
    linarith
  · by_contra hc
    push Not at hc
    have : d / dist.sum ≤ (I - k) * (d / dist.sum) := by
      have : (1 : K) ≤ I - k := by push_cast at hc; linarith
      nlinarith
    have h3 : ((dist.take (k + 1)).sum + d) / dist.sum = (f k).1 + d / dist.sum := by rw [← hgap]; ring
    linarith

/-- **C323.** A draw below the share of the first pixel falls on it. -/
theorem draw_first (d : K) (dist : List K) (hp : ∀ x ∈ d :: dist, 0 < x) (u : K) (h : u < d / (d :: dist).sum) : draw (cumul (d :: dist)) u = 0 := by
  unfold draw
  rw [cumul_eq _ hp (by simp)]
  simp only [List.length_map, List.length_range]
  rw [List.zip_map', List.length_cons, List.range_succ_eq_map, List.map_cons]
  have e : ((List.take (0 + 1) (d :: dist)).sum / (d :: dist).sum, ((0 : ℕ) : K)) = (d / (d :: dist).sum, (0 : K)) := by simp
  rw [e]
  cases hl : ((List.range dist.length).map Nat.succ).map fun i : ℕ => ((List.take (i + 1) (d :: dist)).sum / (d :: dist).sum, (i : K)) with
  | nil => simp [MoSum.interp]
  | cons b l =>
    obtain ⟨b, q⟩ := b
    unfold MoSum.interp
    rw [if_pos h]
    simp

/-- **C323.** So the densest pixel, the last, is never chosen. -/
theorem densest_never (dist : List K) (hp : ∀ d ∈ dist, 0 < d) (h2 : 2 ≤ dist.length) (u : K) (hu1 : u < 1) :
    draw (cumul dist) u ≠ (dist.length - 1 : ℕ) := by
  have hne : dist ≠ [] := by
    intro hc
    rw [hc] at h2
    simp at h2
  have htot : 0 < dist.sum := List.sum_pos _ hp hne
  have key : ∀ n, n ≤ dist.length → u < (dist.take n).sum / dist.sum → 0 < n → ∃ k : ℕ, draw (cumul dist) u = k ∧ k + 1 < dist.length := by
    intro n
    induction n with
    | zero => intro _ _ h; exact absurd h (lt_irrefl _)
    | succ n ih =>
      intro hn hu _
      rcases Nat.eq_zero_or_pos n with h0 | h0
      · subst h0
        obtain ⟨d, l, rfl⟩ := List.exists_cons_of_ne_nil hne
        exact ⟨0, by rw [draw_first d l hp u (by simpa using hu)]; rfl, by omega⟩
      · rcases lt_or_ge u ((dist.take n).sum / dist.sum) with h | h
        · exact ih (by omega) h h0
        · obtain ⟨m, rfl⟩ : ∃ m, n = m + 1 := ⟨n - 1, by omega⟩
          have hk : dist[m + 1]? = some (dist[m + 1]'(by omega)) := List.getElem?_eq_getElem (by omega)
          refine ⟨m, draw_spec dist hp m _ hk u h ?_, by omega⟩
          rw [List.take_add_one, List.sum_append, hk] at hu
          simpa using hu
  obtain ⟨k, hk, hlt⟩ := key dist.length le_rfl (by rw [List.take_length, div_self htot.ne']; exact hu1) (by omega)
  rw [hk]
  intro hc
  have : k = dist.length - 1 := by exact_mod_cast hc
  omega

end

example : cumul [1, 1, (2 : ℚ)] = [1/4, 1/2, 1] ∧ draw (cumul [1, 1, (2 : ℚ)]) (3/4) = 1 ∧ draw (cumul [1, 1, (2 : ℚ)]) (1/8) = 0 := by decide +kernel

end Verif.Lens
