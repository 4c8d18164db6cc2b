import Verif.Model.MoStackers
import Verif.Model.Snr
import Mathlib.Tactic.Linarith
import Mathlib.Tactic.Ring
import Mathlib.Tactic.FieldSimp
import Mathlib.Tactic.Positivity

/-!
# Stackers for moving objects
-/

namespace Verif.MoStack

open Real

/-! ## Apparent magnitudes -/

/-- At the reference value of `H` the magnitude is that of the observation, and it shifts with
`H`. -/
theorem appMag_spec (vMag color loss href d : ℝ) :
    appMag vMag color loss href href = vMag + color + loss ∧
    appMag vMag color loss (href + d) href = appMag vMag color loss href href + d := by
  unfold appMag
  constructor <;> ring

theorem combine_flux (m m' : ℝ) :
    (10 : ℝ) ^ (-0.4 * combine m m') = 10 ^ (-0.4 * m) + 10 ^ (-0.4 * m') := by
  unfold combine
  have hpos : (0 : ℝ) < 10 ^ (-0.4 * m) + 10 ^ (-0.4 * m') := by positivity
  rw [show -0.4 * (-2.5 * logb 10 ((10 : ℝ) ^ (-0.4 * m) + 10 ^ (-0.4 * m'))) =
    logb 10 ((10 : ℝ) ^ (-0.4 * m) + 10 ^ (-0.4 * m')) by ring]
  exact rpow_logb (by norm_num) (by norm_num) hpos

theorem lt_of_flux {m m' : ℝ} (h : (10 : ℝ) ^ (-0.4 * m') < 10 ^ (-0.4 * m)) : m < m' := by
  have := (rpow_lt_rpow_left_iff (x := (10 : ℝ)) (by norm_num)).mp h
  linarith

theorem le_of_flux {m m' : ℝ} (h : (10 : ℝ) ^ (-0.4 * m') ≤ 10 ^ (-0.4 * m)) : m ≤ m' := by
  have := (rpow_le_rpow_left_iff (x := (10 : ℝ)) (by norm_num)).mp h
  linarith

/-- The magnitude of two sources together is brighter than both, by at most 2.5 log10 2, and does
not depend on their order. -/
theorem combine_spec (m m' : ℝ) : combine m m' < m ∧ combine m m' < m' ∧
    min m m' - 2.5 * logb 10 2 ≤ combine m m' ∧ combine m m' = combine m' m := by
  have p : (0 : ℝ) < 10 ^ (-0.4 * m) := by positivity
  have p' : (0 : ℝ) < 10 ^ (-0.4 * m') := by positivity
  refine ⟨lt_of_flux ?_, lt_of_flux ?_, le_of_flux ?_, ?_⟩
  · rw [combine_flux]; linarith
  · rw [combine_flux]; linarith
  · rw [combine_flux, show -0.4 * (min m m' - 2.5 * logb 10 2) = -0.4 * min m m' + logb 10 2 by ring,
      rpow_add (by norm_num), rpow_logb (by norm_num) (by norm_num) (by norm_num)]
    have h1 : (10 : ℝ) ^ (-0.4 * m) ≤ 10 ^ (-0.4 * min m m') :=
      rpow_le_rpow_of_exponent_le (by norm_num) (by have := min_le_left m m'; linarith)
    have h2 : (10 : ℝ) ^ (-0.4 * m') ≤ 10 ^ (-0.4 * min m m') :=
      rpow_le_rpow_of_exponent_le (by norm_num) (by have := min_le_right m m'; linarith)
    linarith
  · unfold combine; rw [add_comm]

theorem combine_shift (m m' d : ℝ) : combine (m + d) (m' + d) = combine m m' + d := by
  have key : (10 : ℝ) ^ (-0.4 * combine (m + d) (m' + d)) = 10 ^ (-0.4 * (combine m m' + d)) := by
    rw [combine_flux, mul_add, mul_add, mul_add, rpow_add (by norm_num), rpow_add (by norm_num),
      rpow_add (by norm_num), combine_flux]
    ring
  exact le_antisymm (le_of_flux key.ge) (le_of_flux key.le)

/-- An observation with positive columns. -/
structure Obs.Pos (o : Obs) : Prop where
  rh : 0 < o.rh
  delta : 0 < o.delta
  phase : 0 < o.phaseVal
  seeing : 0 < o.seeing

theorem radius_pos {ap : ℝ} (h : 0 < ap) (hval : ℝ) : 0 < radius ap hval := by
  unfold radius kmPerAu
  have := sqrt_pos.mpr h
  positivity

theorem radius_shift (ap hval d : ℝ) : radius ap (hval + d) = radius ap hval * 10 ^ (-0.2 * d) := by
  unfold radius
  rw [show 0.2 * (vmagSun - (hval + d)) = 0.2 * (vmagSun - hval) + -0.2 * d by ring,
    rpow_add (by norm_num)]
  ring

theorem coma_arg_pos {unit const ap apScale : ℝ} (hu : 0 < unit) (hc : 0 < const) (ha : 0 < ap)
    (hs : 0 < apScale) (hval k : ℝ) {o : Obs} (h : o.Pos) :
    0 < afrho const ap hval k o * rho apScale o / (2 * o.rh * (o.delta * kmPerAu * unit)) ^ 2 := by
  have h1 := radius_pos ha hval
  have h2 := h.rh
  have h3 := h.delta
  have h4 := h.phase
  have h5 := h.seeing
  have h6 : 0 < kmPerAu := by unfold kmPerAu; norm_num
  have h7 := rpow_pos_of_pos h2 k
  unfold afrho rho
  positivity

theorem coma_shift {unit const ap apScale : ℝ} (hu : 0 < unit) (hc : 0 < const) (ha : 0 < ap)
    (hs : 0 < apScale) (hval k d : ℝ) {o : Obs} (h : o.Pos) :
    comaWith unit const ap apScale (hval + d) k o = comaWith unit const ap apScale hval k o + d := by
  have hp := coma_arg_pos hu hc ha hs hval k h
  have e : afrho const ap (hval + d) k o * rho apScale o / (2 * o.rh * (o.delta * kmPerAu * unit)) ^ 2 =
      afrho const ap hval k o * rho apScale o / (2 * o.rh * (o.delta * kmPerAu * unit)) ^ 2 *
        10 ^ (-0.4 * d) := by
    unfold afrho
    rw [radius_shift, mul_pow, ← rpow_natCast ((10 : ℝ) ^ (-0.2 * d)) 2, ← rpow_mul (by norm_num),
      show -0.2 * d * ((2 : ℕ) : ℝ) = -0.4 * d by push_cast; ring]
    ring
  unfold comaWith
  dsimp only
  rw [e, logb_mul hp.ne' (by positivity), logb_rpow (by norm_num) (by norm_num)]
  ring

/-- The magnitude of a comet shifts with `H`, as both its nucleus and its coma do. -/
theorem comet_shift {const ap apScale : ℝ} (hc : 0 < const) (ha : 0 < ap) (hs : 0 < apScale)
    (k : ℝ) {o : Obs} (h : o.Pos) (vMag color loss hval href d : ℝ) :
    cometMag const ap apScale k o vMag color loss (hval + d) href =
      cometMag const ap apScale k o vMag color loss hval href + d := by
  unfold cometMag coma
  rw [coma_shift (by norm_num) hc ha hs hval k d h, ← combine_shift]
  congr 1
  unfold appMag; ring

/-- A comet is brighter than its nucleus alone. -/
theorem comet_brighter (const ap apScale k : ℝ) (o : Obs) (vMag color loss hval href : ℝ) :
    cometMag const ap apScale k o vMag color loss hval href < appMag vMag color loss hval href :=
  (combine_spec _ _).2.1

/-- The claim that the coma is calculated with the distance in cm fails: it is in m, and the coma
is brighter by exactly ten magnitudes. -/
theorem coma_false {const ap apScale : ℝ} (hc : 0 < const) (ha : 0 < ap) (hs : 0 < apScale)
    (hval k : ℝ) {o : Obs} (h : o.Pos) :
    coma const ap apScale hval k o = comaWith (100 * 1000) const ap apScale hval k o - 10 := by
  have hp := coma_arg_pos (unit := 100 * 1000) (by norm_num) hc ha hs hval k h
  have e : afrho const ap hval k o * rho apScale o / (2 * o.rh * (o.delta * kmPerAu * 1000)) ^ 2 =
      afrho const ap hval k o * rho apScale o / (2 * o.rh * (o.delta * kmPerAu * (100 * 1000))) ^ 2 *
        10 ^ (4 : ℝ) := by
    have h2 := h.rh
    have h3 := h.delta
    have h6 : 0 < kmPerAu := by unfold kmPerAu; norm_num
    rw [show ((10 : ℝ) ^ (4 : ℝ)) = 10000 by
      rw [show (4 : ℝ) = ((4 : ℕ) : ℝ) by norm_num, rpow_natCast]; norm_num]
    field_simp
    norm_num
  unfold coma comaWith
  dsimp only
  rw [e, logb_mul hp.ne' (by positivity), logb_rpow (by norm_num) (by norm_num)]
  ring

example : (⟨1, 1, 1, 1, 0⟩ : Obs).Pos := ⟨by norm_num, by norm_num, by norm_num, by norm_num⟩

/-- The three types of comets have the documented values, and a dictionary needs the keys `k`
and `Afrho1_const`. -/
theorem cometParams_partial :
    cometParams (.name "short") = some (-4, 100) ∧ cometParams (.name "oort") = some (-2, 1000) ∧
    cometParams (.name "mbc") = some (-6, 4000) ∧
    ∀ d k c, cometParams (.dict d) = some (k, c) ↔ d "k" = some k ∧ d "Afrho1_const" = some c := by
  refine ⟨by simp [cometParams], by simp [cometParams], by simp [cometParams], fun d k c => ?_⟩
  unfold cometParams
  dsimp only
  cases h1 : d "k" <;> cases h2 : d "Afrho1_const" <;> simp

/-- The claim that a dictionary with the documented keys `k` and `afrho1_const` is accepted fails. -/
theorem cometParams_false (k c : ℝ) :
    cometParams (.dict fun s => if s = "k" then some k else if s = "afrho1_const" then some c
      else none) = none := by
  simp [cometParams]

/-! ## Signal to noise -/

theorem noise_pos {gamma x : ℝ} (h0 : 0 ≤ gamma) (h1 : gamma ≤ 0.04) (hx : 0 < x) :
    0 < (0.04 - gamma) * x + gamma * x * x := by
  rcases h0.eq_or_lt with rfl | h0
  · norm_num; exact hx
  · have : 0 < gamma * x * x := by positivity
    have : 0 ≤ (0.04 - gamma) * x := mul_nonneg (by linarith) hx.le
    linarith

/-- The ratio is five at the limiting magnitude. -/
theorem snr_limit (gamma m5 : ℝ) : snr gamma m5 m5 = 5 := by
  unfold snr
  rw [sub_self, mul_zero, rpow_zero]
  dsimp only
  rw [show (0.04 - gamma) * 1 + gamma * 1 * 1 = 0.2 ^ 2 by ring, sqrt_sq (by norm_num)]
  norm_num

/-- Brighter objects have a larger ratio. -/
theorem snr_decreasing {gamma : ℝ} (h0 : 0 ≤ gamma) (h1 : gamma ≤ 0.04) {m m' m5 : ℝ} (h : m < m') :
    snr gamma m' m5 < snr gamma m m5 := by
  unfold snr
  dsimp only
  have hx : (10 : ℝ) ^ (0.5 * (m - m5)) < 10 ^ (0.5 * (m' - m5)) :=
    rpow_lt_rpow_of_exponent_lt (by norm_num) (by linarith)
  have hx0 : (0 : ℝ) < 10 ^ (0.5 * (m - m5)) := by positivity
  generalize (10 : ℝ) ^ (0.5 * (m - m5)) = x at hx hx0 ⊢
  generalize (10 : ℝ) ^ (0.5 * (m' - m5)) = y at hx ⊢
  have hp := noise_pos h0 h1 hx0
  refine one_div_lt_one_div_of_lt (sqrt_pos.mpr hp) (sqrt_lt_sqrt hp.le ?_)
  rcases h0.eq_or_lt with rfl | h0
  · norm_num; exact hx
  · have a : gamma * x * x < gamma * y * y := by
      have : x * x < y * y := by nlinarith
      nlinarith
    have b : (0.04 - gamma) * x ≤ (0.04 - gamma) * y := mul_le_mul_of_nonneg_left hx.le (by linarith)
    linarith

/-- The ratio is that of `calc_snr_m5` for a source whose distance from the limiting magnitude is
larger by a quarter. -/
theorem snr_partial {gamma : ℝ} (h0 : 0 ≤ gamma) (h1 : gamma ≤ 0.04) (m m5 : ℝ) :
    Verif.Snr.snrM5 gamma m5 (m5 + 1.25 * (m - m5)) = some (snr gamma m m5) := by
  unfold Verif.Snr.snrM5 snr Verif.Snr.noiseOverSignalSq
  dsimp only
  have e : Verif.Snr.fluxFromMag Verif.Snr.newZp m5 /
      Verif.Snr.fluxFromMag Verif.Snr.newZp (m5 + 1.25 * (m - m5)) = 10 ^ (0.5 * (m - m5)) := by
    unfold Verif.Snr.fluxFromMag
    rw [← rpow_sub (by norm_num)]
    congr 1; ring
  rw [e]
  have hx : (0 : ℝ) < 10 ^ (0.5 * (m - m5)) := by positivity
  generalize (10 : ℝ) ^ (0.5 * (m - m5)) = x at hx ⊢
  have hp := noise_pos h0 h1 hx
  rw [if_neg (not_lt.mpr (by linarith))]

/-- The claim that it is the ratio of `calc_snr_m5` fails for every other magnitude than the
limit: it is too large for brighter objects and too small for fainter ones. -/
theorem snr_false {gamma : ℝ} (h0 : 0 ≤ gamma) (h1 : gamma ≤ 0.04) (m m5 : ℝ) :
    ∃ s, Verif.Snr.snrM5 gamma m5 m = some s ∧ (m < m5 → s < snr gamma m m5) ∧
      (m5 < m → snr gamma m m5 < s) := by
  have e := snr_partial h0 h1 (m5 + 0.8 * (m - m5)) m5
  rw [show m5 + 1.25 * (m5 + 0.8 * (m - m5) - m5) = m by ring] at e
  exact ⟨_, e, fun h => snr_decreasing h0 h1 (by linarith), fun h => snr_decreasing h0 h1 (by linarith)⟩

/-! ## Visibility -/

/-- Completeness is a half at the limiting magnitude, between 0 and 1, and lower for fainter
objects. -/
theorem completeness_spec {sigma : ℝ} (hs : 0 < sigma) (m m5 : ℝ) :
    completeness sigma m5 m5 = 1 / 2 ∧ 0 < completeness sigma m m5 ∧ completeness sigma m m5 < 1 ∧
    ∀ m', m < m' → completeness sigma m' m5 < completeness sigma m m5 := by
  unfold completeness
  have hp : ∀ x : ℝ, 0 < 1 + exp x := fun x => by positivity
  refine ⟨?_, by positivity, ?_, fun m' h => ?_⟩
  · rw [sub_self, zero_div, exp_zero]; norm_num
  · rw [div_lt_one (hp _)]; have := exp_pos ((m - m5) / sigma); linarith
  · refine one_div_lt_one_div_of_lt (hp _) ?_
    have : exp ((m - m5) / sigma) < exp ((m' - m5) / sigma) :=
      exp_lt_exp.mpr (div_lt_div_of_pos_right (by linarith) hs)
    linarith

/-- With the same random number, an object seen at a magnitude is seen at brighter ones, and
with the random number 1 / 2 it is seen exactly if it is not fainter than the limit. -/
theorem vis_spec {sigma : ℝ} (hs : 0 < sigma) (p : ℝ) {m m' m5 : ℝ} :
    (vis sigma p m m5 = 0 ∨ vis sigma p m m5 = 1) ∧
    (m ≤ m' → vis sigma p m' m5 = 1 → vis sigma p m m5 = 1) ∧
    (vis sigma (1 / 2) m m5 = 1 ↔ m ≤ m5) := by
  have key : ∀ p m, vis sigma p m m5 = 1 ↔ p ≤ completeness sigma m m5 := by
    intro p m; unfold vis; split_ifs with h <;> simp [h]
  have mono : ∀ a b, a ≤ b → completeness sigma b m5 ≤ completeness sigma a m5 := by
    intro a b h
    rcases h.eq_or_lt with rfl | h
    · exact le_rfl
    · exact ((completeness_spec hs a m5).2.2.2 b h).le
  refine ⟨?_, fun h => ?_, ?_⟩
  · unfold vis; split_ifs <;> simp
  · rw [key, key]; exact fun h' => h'.trans (mono _ _ h)
  · rw [key, ← (completeness_spec hs m m5).1]
    constructor
    · intro h
      by_contra hc
      exact absurd h (not_le.mpr ((completeness_spec hs m5 m5).2.2.2 m (not_le.mp hc)))
    · exact mono _ _

theorem run_eq (sigma : ℝ) (rng : ℕ → ℝ) (rows : List (ℝ × ℝ)) (i : ℕ) :
    (run sigma rng rows).1[i]? = rows[i]?.map fun row => vis sigma (rng i) row.1 row.2 := by
  unfold run
  rw [List.getElem?_zipWith]
  rcases lt_or_ge i rows.length with h | h
  · rw [List.getElem?_range h, List.getElem?_eq_getElem h]; rfl
  · rw [List.getElem?_eq_none h]
    simp [h]

theorem run_length (sigma : ℝ) (rng : ℕ → ℝ) (rows : List (ℝ × ℝ)) :
    (run sigma rng rows).1.length = rows.length := by
  unfold run; simp

theorem run_append (sigma : ℝ) (rng : ℕ → ℝ) (rows rows' : List (ℝ × ℝ)) :
    (run sigma rng (rows ++ rows')).1 =
      (run sigma rng rows).1 ++ (run sigma (run sigma rng rows).2 rows').1 := by
  refine List.ext_getElem? fun i => ?_
  rw [run_eq]
  rcases lt_or_ge i rows.length with h | h
  · rw [List.getElem?_append_left h, List.getElem?_append_left (by rwa [run_length]), run_eq]
  · rw [List.getElem?_append_right h, List.getElem?_append_right (by rwa [run_length]), run_eq,
      run_length]
    show _ = Option.map (fun row : ℝ × ℝ => vis sigma (rng (rows.length + (i - rows.length))) row.1 row.2) _
    rw [Nat.add_sub_cancel' h]

/-- The flags of the observations do not depend on how they are divided among calls. -/
theorem runs_flatten (sigma : ℝ) (rng : ℕ → ℝ) (calls : List (List (ℝ × ℝ))) :
    (runs sigma rng calls).flatten = (run sigma rng calls.flatten).1 := by
  induction calls generalizing rng with
  | nil => rfl
  | cons rows more ih =>
    rw [runs, List.flatten_cons, ih, List.flatten_cons, run_append]

/-- The claim that an object seen at some value of `H` is seen at brighter ones fails if the
stacker is called for one after the other: random numbers are drawn again, whatever the
magnitudes. -/
theorem runs_false {sigma : ℝ} (hs : 0 < sigma) (m d m5 : ℝ) :
    ∃ rng : ℕ → ℝ, (∀ i, 0 ≤ rng i ∧ rng i < 1) ∧
      runs sigma rng [[(m, m5)], [(m + d, m5)]] = [[0], [1]] := by
  obtain ⟨-, -, h1, -⟩ := completeness_spec hs m m5
  obtain ⟨-, h0, -, -⟩ := completeness_spec hs m m5
  obtain ⟨-, h2, -, -⟩ := completeness_spec hs (m + d) m5
  refine ⟨fun i => if i = 0 then (completeness sigma m m5 + 1) / 2 else 0, fun i => ?_, ?_⟩
  · dsimp only; split_ifs
    · constructor <;> linarith
    · norm_num
  · have a : ¬ ((completeness sigma m m5 + 1) / 2 ≤ completeness sigma m m5) := by linarith
    have b := h2.le
    simp [runs, run, vis, List.range_succ, a, b]

/-! ## Ecliptic coordinates -/

theorem radians_degrees (x : ℝ) : radians (degrees x) = x := by
  unfold radians degrees
  have := pi_ne_zero
  field_simp

theorem rotated_norm (inc ra dec : ℝ) :
    (rotated inc ra dec).1 ^ 2 + (rotated inc ra dec).2.1 ^ 2 + (rotated inc ra dec).2.2 ^ 2 = 1 := by
  unfold rotated
  dsimp only
  have h1 := sin_sq_add_cos_sq ra
  have h2 := sin_sq_add_cos_sq dec
  have h3 := sin_sq_add_cos_sq inc
  have a : (cos inc * (sin ra * cos dec) + sin inc * sin dec) ^ 2 +
      (-sin inc * (sin ra * cos dec) + cos inc * sin dec) ^ 2 =
      (sin inc ^ 2 + cos inc ^ 2) * ((sin ra * cos dec) ^ 2 + sin dec ^ 2) := by ring
  rw [add_assoc, a, h3]
  calc (cos ra * cos dec) ^ 2 + 1 * ((sin ra * cos dec) ^ 2 + sin dec ^ 2)
      = (sin ra ^ 2 + cos ra ^ 2) * cos dec ^ 2 + sin dec ^ 2 := by ring
    _ = 1 := by rw [h1]; linarith

theorem mod360_range (x : ℝ) : 0 ≤ mod360 x ∧ mod360 x < 360 := by
  unfold mod360
  have h1 := Int.floor_le (x / 360)
  have h2 := Int.lt_floor_add_one (x / 360)
  rw [le_div_iff₀ (by norm_num)] at h1
  rw [div_lt_iff₀ (by norm_num)] at h2
  constructor <;> linarith

theorem radians_mod (x : ℝ) : radians (mod360 x) = radians x - ⌊x / 360⌋ * (2 * π) := by
  unfold radians mod360; ring

theorem cos_mod (x : ℝ) : cos (radians (mod360 x)) = cos (radians x) := by
  rw [radians_mod, cos_sub_int_mul_two_pi]

theorem sin_mod (x : ℝ) : sin (radians (mod360 x)) = sin (radians x) := by
  rw [radians_mod, sin_sub_int_mul_two_pi]

/-- Latitude and longitude are those of the direction turned by the obliquity: they are in their
ranges and give its vector back. -/
theorem ecliptic_spec (inc ra dec : ℝ) :
    let e := ecliptic inc false ra dec;
    -90 ≤ e.1 ∧ e.1 ≤ 90 ∧ 0 ≤ e.2 ∧ e.2 < 360 ∧
    (cos (radians e.1) * cos (radians e.2), cos (radians e.1) * sin (radians e.2),
      sin (radians e.1)) =
    (cos ra * cos dec, cos inc * (sin ra * cos dec) + sin inc * sin dec,
      -sin inc * (sin ra * cos dec) + cos inc * sin dec) := by
  have hn := rotated_norm inc ra dec
  unfold ecliptic
  simp only [Bool.false_eq_true, if_false]
  have hr : rotated inc ra dec = (cos ra * cos dec, cos inc * (sin ra * cos dec) + sin inc * sin dec,
      -sin inc * (sin ra * cos dec) + cos inc * sin dec) := rfl
  rw [← hr]
  generalize rotated inc ra dec = p at hn
  obtain ⟨x, y, z⟩ := p
  dsimp only at hn ⊢
  have hz1 : -1 ≤ z := by nlinarith [sq_nonneg x, sq_nonneg y]
  have hz2 : z ≤ 1 := by nlinarith [sq_nonneg x, sq_nonneg y]
  have l1 := neg_pi_div_two_le_arcsin z
  have l2 := arcsin_le_pi_div_two z
  have hpi := pi_pos
  have d1 : -90 ≤ degrees (arcsin z) := by
    unfold degrees
    rw [mul_div_assoc', le_div_iff₀ hpi]; linarith
  have d2 : degrees (arcsin z) ≤ 90 := by
    unfold degrees
    rw [mul_div_assoc', div_le_iff₀ hpi]; linarith
  refine ⟨d1, d2, (mod360_range _).1, (mod360_range _).2, ?_⟩
  rw [cos_mod, sin_mod, radians_degrees, radians_degrees, sin_arcsin hz1 hz2, cos_arcsin]
  have hs : √(1 - z ^ 2) = ‖(⟨x, y⟩ : ℂ)‖ := by
    rw [Complex.norm_def, Complex.normSq_mk]
    congr 1
    linarith
  rw [hs]
  have e1 := Complex.norm_mul_cos_arg (⟨x, y⟩ : ℂ)
  have e2 := Complex.norm_mul_sin_arg (⟨x, y⟩ : ℂ)
  dsimp only at e1 e2
  rw [e1, e2]

/-- Degrees and radians agree. -/
theorem ecliptic_deg (inc ra dec : ℝ) :
    ecliptic inc true ra dec = ecliptic inc false (radians ra) (radians dec) := by
  unfold ecliptic; simp

/-- The equinox has longitude and latitude zero, and the north pole of the sky has longitude 90
degrees and latitude of 90 degrees less the obliquity. -/
theorem ecliptic_points {inc : ℝ} (h0 : 0 < inc) (h1 : inc < π / 2) :
    ecliptic inc false 0 0 = (0, 0) ∧ ecliptic inc false 0 (π / 2) = (90 - degrees inc, 90) := by
  constructor
  · unfold ecliptic rotated mod360 degrees
    have : Complex.arg ⟨1, 0⟩ = 0 := Complex.arg_one
    simp [this]
  · have hs : 0 < sin inc := sin_pos_of_pos_of_lt_pi h0 (by linarith)
    have a : Complex.arg ⟨0, sin inc⟩ = π / 2 := by
      have : (⟨0, sin inc⟩ : ℂ) = ((sin inc : ℝ) : ℂ) * Complex.I := by
        generalize sin inc = s
        apply Complex.ext <;> simp
      rw [this, Complex.arg_real_mul _ hs, Complex.arg_I]
    have b : arcsin (cos inc) = π / 2 - inc := by
      rw [← sin_pi_div_two_sub, arcsin_sin (by linarith) (by linarith)]
    unfold ecliptic rotated
    simp only [Bool.false_eq_true, if_false, cos_pi_div_two, sin_pi_div_two, mul_zero, mul_one,
      zero_add]
    rw [a, b]
    have c : degrees (π / 2) = 90 := by unfold degrees; have := pi_ne_zero; field_simp; norm_num
    rw [c]
    refine Prod.ext ?_ ?_
    · dsimp only
      unfold degrees; have := pi_ne_zero; field_simp; ring
    · dsimp only
      unfold mod360
      have : ⌊(90 : ℝ) / 360⌋ = 0 := by rw [Int.floor_eq_iff]; norm_num
      rw [this]; norm_num

/-! ## Phase functions -/

/-- The log linear phase function dims by the slope per degree. -/
theorem logLinear_mag (phase slope : ℝ) : -2.5 * logb 10 (logLinear phase slope) = slope * phase := by
  unfold logLinear
  rw [logb_rpow (by norm_num) (by norm_num)]
  ring

/-- The H-G phase function is 1 at opposition, and decreases up to 180 degrees for `G` between 0
and 1, staying positive. -/
theorem phaseHg_spec {g : ℝ} (h0 : 0 ≤ g) (h1 : g ≤ 1) :
    phaseHg 0 g = 1 ∧
    (∀ p p', 0 ≤ p → p < p' → p' < 180 → phaseHg p' g < phaseHg p g) ∧
    ∀ p, 0 < phaseHg p g := by
  refine ⟨?_, fun p p' hp hpp hp' => ?_, fun p => ?_⟩
  · unfold phaseHg radians
    simp only [zero_mul, zero_div, tan_zero]
    rw [zero_rpow (by norm_num), zero_rpow (by norm_num)]
    simp
  · unfold phaseHg
    have hpi := pi_pos
    have ht0 : 0 ≤ tan (radians p / 2) := tan_nonneg_of_nonneg_of_le_pi_div_two
      (by unfold radians; positivity) (by
        unfold radians
        have : p * (π / 180) ≤ 180 * (π / 180) :=
          mul_le_mul_of_nonneg_right (by linarith) (by positivity)
        linarith)
    have ht : tan (radians p / 2) < tan (radians p' / 2) := by
      refine tan_lt_tan_of_nonneg_of_lt_pi_div_two (by unfold radians; positivity) ?_ ?_
      · unfold radians
        have : p' * (π / 180) < 180 * (π / 180) :=
          mul_lt_mul_of_pos_right (by linarith) (by positivity)
        linarith
      · unfold radians
        have : p * (π / 180) < p' * (π / 180) := mul_lt_mul_of_pos_right hpp (by positivity)
        linarith
    generalize tan (radians p / 2) = t at ht0 ht
    generalize tan (radians p' / 2) = t' at ht
    have a : exp (-3.33 * t' ^ (0.63 : ℝ)) < exp (-3.33 * t ^ (0.63 : ℝ)) := by
      rw [exp_lt_exp]
      have := rpow_lt_rpow ht0 ht (show (0 : ℝ) < 0.63 by norm_num)
      linarith
    have b : exp (-1.87 * t' ^ (1.22 : ℝ)) < exp (-1.87 * t ^ (1.22 : ℝ)) := by
      rw [exp_lt_exp]
      have := rpow_lt_rpow ht0 ht (show (0 : ℝ) < 1.22 by norm_num)
      linarith
    dsimp only
    rcases h0.eq_or_lt with rfl | h0
    · simpa using a
    · have c : (1 - g) * exp (-3.33 * t' ^ (0.63 : ℝ)) ≤ (1 - g) * exp (-3.33 * t ^ (0.63 : ℝ)) :=
        mul_le_mul_of_nonneg_left a.le (by linarith)
      have d := mul_lt_mul_of_pos_left b h0
      linarith
  · unfold phaseHg
    dsimp only
    have a := exp_pos (-3.33 * tan (radians p / 2) ^ (0.63 : ℝ))
    have b := exp_pos (-1.87 * tan (radians p / 2) ^ (1.22 : ℝ))
    rcases h0.eq_or_lt with rfl | h0
    · simpa using a
    · have c := mul_pos h0 b
      have d := mul_nonneg (show 0 ≤ 1 - g by linarith) a.le
      linarith

end Verif.MoStack
