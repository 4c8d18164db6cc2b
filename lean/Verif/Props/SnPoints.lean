import Mathlib.Tactic.Linarith
import Mathlib.Tactic.NormNum
import Mathlib.Tactic.Ring
import Verif.Model.SnPoints
import Verif.Props.Astrometry

/-!
# Properties of points of light curves of supernovae (C604, C605)
-/

namespace Verif.SnPoints

open Verif.Astro
open Classical

/-! ## Which visits are points (C604) -/

/-- The rows are exactly those of pairs of a supernova and a visit with a time in the window of the supernova, a
wavelength at rest between the limits, and a flux above 1e-10 and above that of half a magnitude fainter than the depth. -/
theorem point_iff (c : Ref) (gens : List Gen) (obs : List Obs) (hz : ∀ g ∈ gens, 0 < 1 + c.round4 g.z) (p : Pt) :
    p ∈ processBand c gens obs ↔ ∃ g ∈ gens, ∃ o ∈ obs, p = point c g o ∧
      g.daymax + (1 + c.round4 g.z) * g.minRF ≤ o.mjd ∧ o.mjd ≤ g.daymax + (1 + c.round4 g.z) * g.maxRF ∧
      c.blue < c.wave / (1 + g.z) ∧ c.wave / (1 + g.z) < c.red ∧ 1 / 10 ^ 10 < p.flux ∧
      3631 * (10 : ℝ) ^ (-(0.4 * (o.m5 + 0.5))) < p.flux := by
  have hmag : ∀ g o, 1 / 10 ^ 10 < (point c g o).flux → ((point c g o).mag < (point c g o).m5 + 0.5 ↔
      3631 * (10 : ℝ) ^ (-(0.4 * (o.m5 + 0.5))) < (point c g o).flux) := by
    intro g o hf
    have hf' : 0 < (point c g o).flux / 3631 := div_pos (lt_trans (by norm_num) hf) (by norm_num)
    have e : (point c g o).mag = -2.5 * Real.logb 10 ((point c g o).flux / 3631) := rfl
    have e2 : (point c g o).m5 = o.m5 := rfl
    have h1 : -(0.4 * (o.m5 + 0.5)) < Real.logb 10 ((point c g o).flux / 3631) ↔
        (10 : ℝ) ^ (-(0.4 * (o.m5 + 0.5))) < (point c g o).flux / 3631 := Real.lt_logb_iff_rpow_lt (by norm_num) hf'
    rw [lt_div_iff₀ (by norm_num)] at h1
    rw [e, e2, mul_comm (3631 : ℝ), ← h1]
    constructor <;> intro h <;> linarith
  unfold processBand
  rw [List.mem_filter, List.mem_flatMap, decide_eq_true_eq]
  constructor
  · rintro ⟨⟨g, hg, hp⟩, hm⟩
    obtain ⟨o, ho, rfl⟩ := List.mem_map.mp hp
    rw [List.mem_filter, decide_eq_true_eq] at ho
    obtain ⟨ho, ⟨h1, h2⟩, ⟨h3, h4⟩, h5⟩ := ho
    have h0 := hz g hg
    unfold phase at h1 h2
    rw [le_div_iff₀ h0] at h1
    rw [div_le_iff₀ h0] at h2
    refine ⟨g, hg, o, ho, rfl, by linarith, by linarith, h3, h4, h5, (hmag g o h5).mp hm⟩
  · rintro ⟨g, hg, o, ho, rfl, h1, h2, h3, h4, h5, hm⟩
    have h0 := hz g hg
    refine ⟨⟨g, hg, List.mem_map.mpr ⟨o, ?_, rfl⟩⟩, (hmag g o h5).mpr hm⟩
    rw [List.mem_filter, decide_eq_true_eq]
    refine ⟨ho, ⟨?_, ?_⟩, ⟨h3, h4⟩, h5⟩
    · unfold phase
      rw [le_div_iff₀ h0]
      linarith
    · unfold phase
      rw [div_le_iff₀ h0]
      linarith

/-- The row of a pair: the flux of the reference at the phase, with its magnitude in the AB system. -/
theorem point_row (c : Ref) (g : Gen) (o : Obs) (hf : 0 < (point c g o).flux) :
    (point c g o).flux = c.flux ((o.mjd - g.daymax) / (1 + c.round4 g.z)) (c.round4 g.z) ∧
    (point c g o).flux = 3631 * (10 : ℝ) ^ (-(0.4 * (point c g o).mag)) ∧ (point c g o).mjd = o.mjd ∧
    (point c g o).m5 = o.m5 ∧ (point c g o).z = g.z ∧ (point c g o).daymax = g.daymax := by
  refine ⟨rfl, ?_, rfl, rfl, rfl, rfl⟩
  have e : -(0.4 * (point c g o).mag) = Real.logb 10 ((point c g o).flux / 3631) := by
    have : (point c g o).mag = -2.5 * Real.logb 10 ((point c g o).flux / 3631) := rfl
    rw [this]
    ring
  rw [e, Real.rpow_logb (by norm_num) (by norm_num) (div_pos hf (by norm_num)), mul_div_cancel₀ _ (by norm_num)]

/-- No visit gives more than one point to a supernova. -/
theorem length_le (c : Ref) (gens : List Gen) (obs : List Obs) :
    (processBand c gens obs).length ≤ gens.length * obs.length := by
  unfold processBand
  refine (List.length_filter_le _ _).trans ?_
  induction gens with
  | nil => simp
  | cons g gens ih =>
    rw [List.flatMap_cons, List.length_append, List.length_map, List.length_cons, Nat.succ_mul]
    have h2 : (obs.filter (fun o => decide (flag c g o))).length ≤ obs.length :=
      List.length_filter_le _ _
    omega

/-! ## Signal to noise (C605) -/

/-- A point has a signal to noise ratio of less than 5 exactly if it is fainter than the depth. -/
theorem snr_lt_five (c : Ref) (g : Gen) (o : Obs) : (point c g o).snr < 5 ↔ o.m5 < (point c g o).mag := by
  have h : (point c g o).snr = m52snr (some 0.04) (point c g o).mag o.m5 := rfl
  rw [h, (m52snr_default _ _).1]
  set d := o.m5 - (point c g o).mag with hd
  constructor
  · intro hs
    by_contra hn
    have : (1 : ℝ) ≤ (10 : ℝ) ^ (0.4 * d) := Real.one_le_rpow (by norm_num) (by
      have : 0 ≤ d := by linarith
      linarith)
    linarith
  · intro hs
    have : (10 : ℝ) ^ (0.4 * d) < 1 := Real.rpow_lt_one_of_one_lt_of_neg (by norm_num) (by
      have : d < 0 := by linarith
      linarith)
    linarith

/-- All points of a light curve have a signal to noise ratio above 3. -/
theorem snr_floor (c : Ref) (gens : List Gen) (obs : List Obs) : ∀ p ∈ processBand c gens obs, 3 < p.snr := by
  intro p hp
  unfold processBand at hp
  rw [List.mem_filter, List.mem_flatMap, decide_eq_true_eq] at hp
  obtain ⟨⟨g, hg, hp⟩, hm⟩ := hp
  obtain ⟨o, ho, rfl⟩ := List.mem_map.mp hp
  have h : (point c g o).snr = m52snr (some 0.04) (point c g o).mag o.m5 := rfl
  have hm' : (point c g o).mag < o.m5 + 0.5 := hm
  rw [h, (m52snr_default _ _).1]
  have h1 : (10 : ℝ) ^ (-(1 / 5) : ℝ) < (10 : ℝ) ^ (0.4 * (o.m5 - (point c g o).mag)) :=
    Real.rpow_lt_rpow_of_exponent_lt (by norm_num) (by linarith)
  have h2 : (3 / 5 : ℝ) ≤ (10 : ℝ) ^ (-(1 / 5) : ℝ) := by
    have e1 : (3 / 5 : ℝ) = (((3 / 5 : ℝ) ^ (5 : ℕ))) ^ (1 / 5 : ℝ) := by
      rw [← Real.rpow_natCast, ← Real.rpow_mul (by norm_num)]
      norm_num
    have e2 : (10 : ℝ) ^ (-(1 / 5) : ℝ) = (1 / 10 : ℝ) ^ (1 / 5 : ℝ) := by
      rw [Real.rpow_neg (by norm_num), one_div (10 : ℝ), Real.inv_rpow (by norm_num)]
    rw [e1, e2]
    exact Real.rpow_le_rpow (by norm_num) (by norm_num) (by norm_num)
  linarith

/-- A least signal to noise ratio of up to 3, such as the default of 1, takes no point away. -/
theorem cut_void (c : Ref) (gens : List Gen) (obs : List Obs) (m : ℝ) (hm : m ≤ 3) :
    snrCut m (processBand c gens obs) = processBand c gens obs := by
  unfold snrCut
  rw [List.filter_eq_self]
  intro p hp
  rw [decide_eq_true_eq]
  exact hm.trans (le_of_lt (snr_floor c gens obs p hp))

/-- The documented default of 5 keeps exactly the points that are not fainter than the depth. -/
theorem cut_five (c : Ref) (gens : List Gen) (obs : List Obs) (p : Pt) :
    p ∈ snrCut 5 (processBand c gens obs) ↔ p ∈ processBand c gens obs ∧ p.mag ≤ p.m5 := by
  unfold snrCut
  rw [List.mem_filter, decide_eq_true_eq]
  refine and_congr_right fun hp => ?_
  unfold processBand at hp
  rw [List.mem_filter, List.mem_flatMap] at hp
  obtain ⟨⟨g, hg, hp⟩, _⟩ := hp
  obtain ⟨o, ho, rfl⟩ := List.mem_map.mp hp
  have := snr_lt_five c g o
  rw [← not_iff_not, not_le, not_le]
  exact this

/-- Points before and after the maximum: a point with enough signal is one of them, and not both, unless it is at the
maximum, where it is neither. -/
theorem before_after (c : Ref) (g : Gen) (o : Obs) :
    ((point c g o).nBef ↔ (point c g o).phase < 0 ∧ c.snrMin ≤ (point c g o).snr) ∧
    ((point c g o).nAft ↔ 0 < (point c g o).phase ∧ c.snrMin ≤ (point c g o).snr) := by
  constructor
  · exact and_congr_left fun _ => sign_eq_neg_one_iff
  · exact and_congr_left fun _ => sign_eq_one_iff

/-- Phases are negative exactly at times before the maximum. -/
theorem before_time (c : Ref) (g : Gen) (o : Obs) (hz : 0 < 1 + c.round4 g.z) :
    (point c g o).phase < 0 ↔ o.mjd < g.daymax := by
  have h : (point c g o).phase = (o.mjd - g.daymax) / (1 + c.round4 g.z) := rfl
  rw [h, div_lt_iff₀ hz]
  constructor <;> intro h <;> linarith

/-- A visit at the maximum of a supernova of magnitude zero is a point. -/
example : point ⟨fun _ _ => 3631, 500, 380, 800, id, 1⟩ ⟨0, 0, -20, 60⟩ ⟨0, 24⟩
    ∈ processBand ⟨fun _ _ => 3631, 500, 380, 800, id, 1⟩ [⟨0, 0, -20, 60⟩] [⟨0, 24⟩] := by
  rw [point_iff _ _ _ (by simp)]
  refine ⟨_, List.mem_singleton.mpr rfl, _, List.mem_singleton.mpr rfl, rfl, ?_, ?_, ?_, ?_, ?_, ?_⟩
  · norm_num
  · norm_num
  · norm_num
  · norm_num
  · norm_num [point, fluxOf]
  · have h : (point ⟨fun _ _ => 3631, 500, 380, 800, id, 1⟩ ⟨0, 0, -20, 60⟩ ⟨0, 24⟩).flux = 3631 := rfl
    rw [h]
    have : (10 : ℝ) ^ (-(0.4 * ((24 : ℝ) + 0.5))) < 1 :=
      Real.rpow_lt_one_of_one_lt_of_neg (by norm_num) (by norm_num)
    show 3631 * (10 : ℝ) ^ (-(0.4 * ((24 : ℝ) + 0.5))) < 3631
    linarith

end Verif.SnPoints
