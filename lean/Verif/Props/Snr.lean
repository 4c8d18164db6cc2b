import Verif.Model.Snr
import Verif.Props.Sed
import Mathlib.Tactic.IntervalCases

/-!
# Magnitudes and signal to noise
-/

namespace Verif.Snr

open Real Verif.Sed Verif.Spectres

/-! ## Magnitudes -/

theorem ten_rpow_logb {x : ℝ} (h : 0 < x) : (10 : ℝ) ^ logb 10 x = x :=
  rpow_logb (by norm_num) (by norm_num) h

/-- Flux and magnitude conversions are inverse to each other. -/
theorem mag_flux (zp : ℝ) :
    (∀ f, 0 < f → fluxFromMag zp (magFromFlux zp f) = f) ∧
      ∀ m, magFromFlux zp (fluxFromMag zp m) = m := by
  constructor
  · intro f hf
    unfold fluxFromMag magFromFlux
    have : -0.4 * (-2.5 * logb 10 f - zp + zp) = logb 10 f := by ring
    rw [this, ten_rpow_logb hf]
  · intro m
    unfold fluxFromMag magFromFlux
    rw [logb_rpow (by norm_num) (by norm_num)]
    ring

/-- A hundred times the flux is five magnitudes brighter. -/
theorem mag_hundred (zp : ℝ) {f : ℝ} (hf : 0 < f) :
    magFromFlux zp (100 * f) = magFromFlux zp f - 5 := by
  unfold magFromFlux
  rw [logb_mul (by norm_num) hf.ne']
  have : logb 10 100 = 2 := by
    rw [show (100 : ℝ) = 10 ^ (2 : ℝ) by norm_num, logb_rpow (by norm_num) (by norm_num)]
  rw [this]; ring

/-- More flux, smaller magnitude. -/
theorem mag_lt (zp : ℝ) {f g : ℝ} (hf : 0 < f) (h : f < g) :
    magFromFlux zp g < magFromFlux zp f := by
  unfold magFromFlux
  have := logb_lt_logb (b := 10) (by norm_num) hf h
  linarith

theorem magFromFlux_mul (zp : ℝ) {f c : ℝ} (hf : 0 < f) (hc : 0 < c) :
    magFromFlux zp (f * c) = magFromFlux zp f - 2.5 * logb 10 c := by
  unfold magFromFlux
  rw [logb_mul hf.ne' hc.ne']; ring

theorem calcMag_eq {zp : ℝ} {bp : Band ℝ} {s : Spec ℝ} {f : ℝ} (h : calcFlux bp s none = some f)
    (hf : 1 / 10 ^ 300 ≤ f) : calcMag zp bp s = some (magFromFlux zp f) := by
  unfold calcMag
  rw [h]
  dsimp only
  rw [if_neg (not_lt.mpr hf)]

theorem calcMag_some {zp : ℝ} {bp : Band ℝ} {s : Spec ℝ} {m : ℝ} (h : calcMag zp bp s = some m) :
    ∃ f, calcFlux bp s none = some f ∧ 1 / 10 ^ 300 ≤ f ∧ m = magFromFlux zp f := by
  unfold calcMag at h
  cases hf : calcFlux bp s none with
  | none => rw [hf] at h; cases h
  | some f =>
    rw [hf] at h
    dsimp only at h
    split_ifs at h with h1
    exact ⟨f, rfl, not_lt.mp h1, (Option.some.inj h).symm⟩

/-- A spectrum normalised to a magnitude with `calc_flux_norm` has this magnitude, unless it
is beyond the range of `calc_mag`. -/
theorem scaledTo_mag {zp : ℝ} {bp : Band ℝ} (hb : bp.WF) {s : Spec ℝ} (hs : s.WF) {m₀ : ℝ}
    (h : calcMag zp bp s = some m₀) {mag : ℝ} (hm : 1 / 10 ^ 300 ≤ fluxFromMag zp mag) :
    ∃ s', scaledTo zp mag bp s = some s' ∧ calcMag zp bp s' = some mag ∧
      calcFlux bp s' none = some (fluxFromMag zp mag) := by
  obtain ⟨f, h1, h2, h3⟩ := calcMag_some h
  have hf : 0 < f := lt_of_lt_of_le (by positivity) h2
  refine ⟨s.scale (10 ^ (-0.4 * (mag - m₀))), ?_, ?_⟩
  · unfold scaledTo calcFluxNorm
    rw [h]
    rfl
  · have hfl : calcFlux bp (s.scale (10 ^ (-0.4 * (mag - m₀)))) none =
        some (fluxFromMag zp mag) := by
      rw [calcFlux_scale hb hs, h1, Option.map_some]
      congr 1
      have e : fluxFromMag zp mag = fluxFromMag zp m₀ * 10 ^ (-0.4 * (mag - m₀)) := by
        unfold fluxFromMag
        rw [← rpow_add (by norm_num)]
        congr 1; ring
      rw [e, h3, (mag_flux zp).1 f hf]
    exact ⟨by rw [calcMag_eq hfl hm, (mag_flux zp).2], hfl⟩

/-- What it is scaled by. -/
theorem scaledTo_eq {zp : ℝ} {bp : Band ℝ} {s s' : Spec ℝ} {mag f : ℝ}
    (hf : calcFlux bp s none = some f) (h : scaledTo zp mag bp s = some s') :
    0 < f ∧ s' = s.scale (fluxFromMag zp mag / f) := by
  unfold scaledTo calcFluxNorm at h
  cases hm : calcMag zp bp s with
  | none => rw [hm] at h; cases h
  | some m₀ =>
    obtain ⟨f', h1, h2, h3⟩ := calcMag_some hm
    rw [hf] at h1
    cases h1
    have hf0 : 0 < f := lt_of_lt_of_le (by positivity) h2
    rw [hm] at h
    refine ⟨hf0, ?_⟩
    rw [← Option.some.inj h]
    congr 1
    have : fluxFromMag zp mag = f * 10 ^ (-0.4 * (mag - m₀)) := by
      rw [← (mag_flux zp).1 f hf0, ← h3]
      unfold fluxFromMag
      rw [← rpow_add (by norm_num)]
      congr 1; ring
    rw [this]
    field_simp

theorem grid_grid {lo step : ℝ} (h : 0 < step) {n : Nat} (hn : 2 ≤ n) : Grid (grid lo step n) := by
  unfold Grid grid
  refine ⟨by rw [List.length_map, List.length_range]; exact hn, ?_⟩
  rw [List.pairwise_map]
  refine List.pairwise_lt_range.imp fun {a b} hab => ?_
  have : (a : ℝ) < b := by exact_mod_cast hab
  have := mul_lt_mul_of_pos_left this h
  linarith

theorem grid_length {K : Type*} [Field K] (lo step : K) (n : Nat) :
    (grid lo step n).length = n := by
  unfold grid; rw [List.length_map, List.length_range]

theorem flat_grid : (flat : Spec ℝ).wavelen = grid 300 (1 / 10) 8501 := by
  rw [flat]

theorem flat_flux_eq : (flat : Spec ℝ).flux = List.replicate 8501 3631 := by
  rw [flat]

theorem flat_length : (flat : Spec ℝ).wavelen.length = 8501 := by rw [flat_grid, grid_length]

theorem flat_wf : (flat : Spec ℝ).WF := by
  unfold Spec.WF
  rw [flat_length, flat_grid, flat_flux_eq, List.length_replicate]
  exact ⟨grid_grid (by norm_num) (by norm_num), rfl⟩

/-- A bandpass for which the standard flat spectrum has a flux. -/
structure Usable (bp : Band ℝ) : Prop where
  wf : bp.WF
  covers : Covers flat bp
  apart : Apart bp.wavelen (flat : Spec ℝ).wavelen
  sb : ∀ x ∈ bp.sb, 0 ≤ x
  norm : sbToPhi bp ≠ none

theorem flat_flux {bp : Band ℝ} (h : Usable bp) : calcFlux bp flat none = some 3631 :=
  calcFlux_const h.wf flat_wf h.covers h.apart h.sb h.norm none 3631
    (fun _ hx => List.eq_of_mem_replicate (by rw [flat_flux_eq] at hx; exact hx))

set_option exponentiation.threshold 400 in
theorem tiny_le : (1 / 10 ^ 300 : ℝ) ≤ 3631 := by
  have h : (1 : ℝ) ≤ 10 ^ 300 := one_le_pow₀ (by norm_num)
  have := div_le_one_of_le₀ h (by positivity)
  linarith

/-- A flat source of 3631 Jansky has magnitude zero in every bandpass. -/
theorem flat_mag {bp : Band ℝ} (h : Usable bp) : calcMag newZp bp flat = some 0 := by
  rw [calcMag_eq (flat_flux h) tiny_le]
  unfold magFromFlux newZp
  ring_nf

set_option exponentiation.threshold 9000 in
/-- After `clear_sed` the zeropoint is another one: magnitudes of the same flux are smaller,
by less than a thousandth. -/
theorem cleared_differs : newZp < clearedZp ∧ clearedZp < newZp + 1 / 1000 := by
  unfold newZp clearedZp
  have h1 : (89 / 25 : ℝ) < logb 10 3631 := by
    rw [lt_logb_iff_rpow_lt (by norm_num) (by norm_num)]
    refine lt_of_pow_lt_pow_left₀ 25 (by norm_num) ?_
    have : ((10 : ℝ) ^ (89 / 25 : ℝ)) ^ 25 = 10 ^ 89 := by
      rw [← rpow_natCast, ← rpow_mul (by norm_num)]
      norm_num
    rw [this]
    norm_num
  have h2 : logb 10 3631 < (8901 / 2500 : ℝ) := by
    rw [logb_lt_iff_lt_rpow (by norm_num) (by norm_num)]
    refine lt_of_pow_lt_pow_left₀ 2500 (by positivity) ?_
    have : ((10 : ℝ) ^ (8901 / 2500 : ℝ)) ^ 2500 = 10 ^ 8901 := by
      rw [← rpow_natCast, ← rpow_mul (by norm_num), ← rpow_natCast]
      norm_num
    rw [this]
    norm_num
  constructor <;> linarith

/-- The claim that a flat source of 3631 Jansky has magnitude zero fails in every bandpass for
a `Sed` that was cleared before. -/
theorem cleared_false {bp : Band ℝ} (h : Usable bp) :
    ∃ m, calcMag clearedZp bp flat = some m ∧ -1 / 1000 < m ∧ m < 0 := by
  refine ⟨_, calcMag_eq (flat_flux h) tiny_le, ?_⟩
  have h1 := cleared_differs
  have h2 : magFromFlux newZp 3631 = 0 := by unfold magFromFlux newZp; ring
  unfold magFromFlux at h2 ⊢
  constructor <;> linarith [h1.1, h1.2]

/-! ## Bandpasses -/

theorem not_outside_self {w : List ℝ} (h : Grid w) {j : Nat} (hj : j < w.length) :
    ¬ Outside w w j := by
  have h2 := h.1
  unfold Outside
  push Not
  rw [← edge_left w 0 (by omega), ← edge_left w j hj, ← edge_right w j hj,
    ← edge_right w (w.length - 1) (by omega)]
  exact ⟨edge_mono h (by omega) (by omega), edge_mono h (by omega) (by omega)⟩

/-- Bandpasses on the default grid are usable. -/
theorem usable_default {bp : Band ℝ} (hw : bp.wavelen = grid 300 (1 / 10) 8501)
    (hl : bp.sb.length = 8501) (h0 : ∀ x ∈ bp.sb, 0 ≤ x)
    (hp : bp.phi = none ∨ bp.phi = sbToPhi bp) (hn : sbToPhi bp ≠ none) : Usable bp := by
  have hf : bp.wavelen = (flat : Spec ℝ).wavelen := by rw [hw, flat_grid]
  refine ⟨⟨by rw [hf]; exact flat_wf.1, ?_, by rw [hf, flat_length, hl], hp⟩, ?_, Or.inl hf, h0, hn⟩
  · intro w hm
    rw [hw] at hm
    obtain ⟨i, -, rfl⟩ := List.mem_map.mp hm
    have : (0 : ℝ) ≤ i := Nat.cast_nonneg i
    linarith
  · intro j hj
    rw [hf] at hj ⊢
    exact not_outside_self flat_wf.1 hj

theorem grid_getD {lo step : ℝ} {n i : Nat} (h : i < n) :
    (grid lo step n).getD i 0 = lo + step * i := by
  rw [List.getD_eq_getElem _ _ (by rw [grid_length]; exact h)]
  unfold grid
  rw [List.getElem_map, List.getElem_range]

/-- A bandpass on another grid. -/
noncomputable def tent : Band ℝ := ⟨[400, 500, 600], [0, 1, 0], none⟩

theorem tent_usable : Usable tent where
  wf := ⟨by unfold Grid tent; simp; norm_num, by unfold tent; simp, rfl, Or.inl rfl⟩
  covers := by
    intro j hj
    have hl := flat_length
    have h0 : (flat : Spec ℝ).wavelen.getD 0 0 = 300 + 1 / 10 * (0 : ℕ) := by
      rw [flat_grid]; exact grid_getD (by norm_num)
    have h1 : (flat : Spec ℝ).wavelen.getD 1 0 = 300 + 1 / 10 * (1 : ℕ) := by
      rw [flat_grid]; exact grid_getD (by norm_num)
    have h2 : (flat : Spec ℝ).wavelen.getD 8500 0 = 300 + 1 / 10 * (8500 : ℕ) := by
      rw [flat_grid]; exact grid_getD (by norm_num)
    have h3 : (flat : Spec ℝ).wavelen.getD 8499 0 = 300 + 1 / 10 * (8499 : ℕ) := by
      rw [flat_grid]; exact grid_getD (by norm_num)
    have e0 : cellLeft (flat : Spec ℝ).wavelen 0 = 299.95 := by
      unfold cellLeft
      rw [if_pos rfl, h0, h1]; norm_num
    have e1 : cellRight (flat : Spec ℝ).wavelen (8501 - 1) = 1150.05 := by
      unfold cellRight
      rw [hl, if_pos (by norm_num), show (8501 - 1 : ℕ) = 8500 from rfl,
        show (8500 - 1 : ℕ) = 8499 from rfl, h2, h3]
      norm_num
    unfold Outside
    rw [hl, e0, e1]
    have hj : j < 3 := hj
    unfold cellLeft cellRight tent
    interval_cases j <;> norm_num
  apart := by
    right
    unfold needResample
    rw [flat_length, decide_eq_true (by unfold tent; simp), Bool.true_or]
  sb := by unfold tent; simp
  norm := by
    have : trapz [(0 : ℝ) / 400, 1 / 500, 0 / 600] [400, 500, 600] ≠ 0 := by
      simp only [trapz]; norm_num
    unfold sbToPhi tent
    dsimp only [List.zipWith]
    rw [if_neg this]
    simp

example : calcMag newZp tent flat = some 0 := flat_mag tent_usable

end Verif.Snr
