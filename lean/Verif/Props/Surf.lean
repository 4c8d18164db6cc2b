import Mathlib.Analysis.SpecialFunctions.Sqrt
import Mathlib.Tactic.Linarith
import Mathlib.Tactic.Positivity
import Mathlib.Tactic.FieldSimp
import Mathlib.Tactic.NormNum
import Mathlib.Tactic.Ring
import Verif.Model.Surf
import Verif.Props.RealMetrics

/-!
# Limits of surface brightness
-/

namespace Verif.Surf

open Real

/-! ## One visit -/

/-- Values that make sense. -/
structure Ok (a : Args) : Prop where
  rn : 0 < a.rn
  pix : 0 < a.pix
  nsigma : 0 < a.nsigma
  texp : 0 < a.texp
  area : 0 < a.area

/-- Electrons from a source of surface brightness `mu` above the atmosphere. -/
noncomputable def source (a : Args) (mu : ℝ) : ℝ := a.area * a.texp * (10 : ℝ) ^ (-0.4 * (mu + a.k * a.airmass - a.zp))

/-- Electrons from the sky, whose brightness is measured on the ground. -/
noncomputable def skyCounts (a : Args) : ℝ := a.area * a.texp * (10 : ℝ) ^ (-0.4 * (a.sky - a.zp))

/-- Variance of the readout of the pixels of the area. -/
noncomputable def readVar (a : Args) : ℝ := a.rn ^ 2 * (a.area / a.pix ^ 2)

/-- The signal to noise ratio, with all the noise. -/
noncomputable def snr (a : Args) (mu : ℝ) : ℝ := source a mu / √(source a mu + skyCounts a + readVar a)

theorem source_pos {a : Args} (h : Ok a) (mu : ℝ) : 0 < source a mu := by
  have := h.area; have := h.texp
  unfold source; positivity

theorem skyCounts_pos {a : Args} (h : Ok a) : 0 < skyCounts a := by
  have := h.area; have := h.texp
  unfold skyCounts; positivity

theorem readVar_pos {a : Args} (h : Ok a) : 0 < readVar a := by
  have := h.area; have := h.rn; have := h.pix
  unfold readVar; positivity

theorem source_anti {a : Args} (h : Ok a) {m n : ℝ} (hmn : m ≤ n) : source a n ≤ source a m := by
  have := h.area; have := h.texp
  unfold source
  have e : -0.4 * (n + a.k * a.airmass - a.zp) ≤ -0.4 * (m + a.k * a.airmass - a.zp) := by linarith
  have := rpow_le_rpow_of_exponent_le (by norm_num : (1:ℝ) ≤ 10) e
  gcongr

theorem log_source {a : Args} (h : Ok a) (mu : ℝ) :
    logb 10 (source a mu) = logb 10 a.area + logb 10 a.texp + -0.4 * (mu + a.k * a.airmass - a.zp) := by
  have h1 := h.area.ne'; have h2 := h.texp.ne'
  have h3 : (0:ℝ) < 10 ^ (-0.4 * (mu + a.k * a.airmass - a.zp)) := by positivity
  unfold source
  rw [logb_mul (mul_ne_zero h1 h2) h3.ne', logb_mul h1 h2, logb_rpow (by norm_num) (by norm_num)]

theorem log_sky {a : Args} (h : Ok a) : logb 10 (skyCounts a) = logb 10 a.area + logb 10 a.texp + -0.4 * (a.sky - a.zp) := by
  have h1 := h.area.ne'; have h2 := h.texp.ne'
  have h3 : (0:ℝ) < 10 ^ (-0.4 * (a.sky - a.zp)) := by positivity
  unfold skyCounts
  rw [logb_mul (mul_ne_zero h1 h2) h3.ne', logb_mul h1 h2, logb_rpow (by norm_num) (by norm_num)]

theorem log_read {a : Args} (h : Ok a) : logb 10 (readVar a) = 2 * logb 10 a.rn + logb 10 a.area - 2 * logb 10 a.pix := by
  have h1 := h.area.ne'; have h2 := h.rn.ne'; have h3 := h.pix.ne'
  unfold readVar
  rw [logb_mul (pow_ne_zero 2 h2) (div_ne_zero h1 (pow_ne_zero 2 h3)), logb_div h1 (pow_ne_zero 2 h3), logb_pow, logb_pow]
  push_cast; ring

theorem eq_of_log {x y : ℝ} (hx : 0 < x) (hy : 0 < y) (h : logb 10 x = logb 10 y) : x = y :=
  logb_injOn_pos (by norm_num) hx hy h

theorem sky_eq {a : Args} (h : Ok a) : source a (skyLim a) ^ 2 = a.nsigma ^ 2 * skyCounts a := by
  have h1 := h.area; have h2 := h.nsigma; have h3 := h.pix; have h4 := h.texp
  have hs := source_pos h (skyLim a); have hb := skyCounts_pos h
  refine eq_of_log (by positivity) (by positivity) ?_
  have e : a.pix ^ 2 * a.texp * nPix a = a.area * a.texp := by unfold nPix; field_simp
  rw [logb_mul (by positivity) hb.ne', logb_pow, logb_pow, log_source h, log_sky h]
  unfold skyLim
  rw [e, logb_div (by positivity) (by positivity), logb_mul h1.ne' h4.ne', logb_pow]
  push_cast; ring

theorem source_eq {a : Args} (h : Ok a) : source a (sourceLim a) = a.nsigma ^ 2 := by
  have h1 := h.area; have h2 := h.nsigma; have h3 := h.pix; have h4 := h.texp
  refine eq_of_log (source_pos h _) (by positivity) ?_
  have e : nPix a * a.pix ^ 2 * a.texp = a.area * a.texp := by unfold nPix; field_simp
  rw [logb_pow, log_source h]
  unfold sourceLim
  rw [e, logb_mul h1.ne' h4.ne']
  push_cast; ring

theorem rn_eq {a : Args} (h : Ok a) : source a (rnLim a) ^ 2 = a.nsigma ^ 2 * readVar a := by
  have h1 := h.area; have h2 := h.nsigma; have h3 := h.pix; have h4 := h.texp; have h5 := h.rn
  have hs := source_pos h (rnLim a); have hb := readVar_pos h
  refine eq_of_log (by positivity) (by positivity) ?_
  have hn : 0 < nPix a := by unfold nPix; positivity
  have e : logb 10 (nPix a) = logb 10 a.area - 2 * logb 10 a.pix := by
    unfold nPix; rw [logb_div h1.ne' (by positivity), logb_pow]; push_cast; ring
  rw [logb_mul (by positivity) hb.ne', logb_pow, logb_pow, log_source h, log_read h]
  unfold rnLim
  rw [logb_div (by positivity) (by positivity), logb_mul h2.ne' h5.ne', logb_mul (by positivity) (by positivity), logb_mul h4.ne' (by positivity), logb_rpow_eq_mul_logb_of_pos hn, e, logb_pow]
  push_cast; ring

/-- **C346.** Each of the three limits is the brightness that reaches the ratio asked for, if the noise were that of the sky alone, of the source alone, or of the
readout alone. -/
theorem limit_cases {a : Args} (h : Ok a) :
    source a (skyLim a) / √(skyCounts a) = a.nsigma ∧ source a (sourceLim a) / √(source a (sourceLim a)) = a.nsigma ∧
      source a (rnLim a) / √(readVar a) = a.nsigma := by
  have hn := h.nsigma
  have key : ∀ s b : ℝ, 0 < s → 0 < b → s ^ 2 = a.nsigma ^ 2 * b → s / √b = a.nsigma := by
    intro s b hs hb e
    rw [div_eq_iff (sqrt_pos.2 hb).ne']
    have : (a.nsigma * √b) ^ 2 = s ^ 2 := by rw [mul_pow, sq_sqrt hb.le, e]
    exact ((sq_eq_sq₀ (by positivity) hs.le).1 this).symm
  refine ⟨key _ _ (source_pos h _) (skyCounts_pos h) (sky_eq h), key _ _ (source_pos h _) (source_pos h _) ?_, key _ _ (source_pos h _) (readVar_pos h) (rn_eq h)⟩
  rw [source_eq h]; ring

theorem snr_sq {a : Args} (h : Ok a) (mu : ℝ) : snr a mu ^ 2 = source a mu ^ 2 / (source a mu + skyCounts a + readVar a) := by
  have h1 := source_pos h mu; have h2 := skyCounts_pos h; have h3 := readVar_pos h
  unfold snr; rw [div_pow, sq_sqrt (by positivity)]

theorem snr_pos {a : Args} (h : Ok a) (mu : ℝ) : 0 < snr a mu := by
  have h1 := source_pos h mu; have h2 := skyCounts_pos h; have h3 := readVar_pos h
  unfold snr; positivity

/-- What holds up to the limit: the counts of the source are above those of the three cases. -/
theorem at_most {a : Args} (h : Ok a) {mu : ℝ} (hm : mu ≤ limit a) :
    a.nsigma ^ 2 * skyCounts a ≤ source a mu ^ 2 ∧ a.nsigma ^ 2 ≤ source a mu ∧ a.nsigma ^ 2 * readVar a ≤ source a mu ^ 2 := by
  have h1 : mu ≤ skyLim a := hm.trans ((min_le_left _ _).trans (min_le_left _ _))
  have h2 : mu ≤ sourceLim a := hm.trans ((min_le_left _ _).trans (min_le_right _ _))
  have h3 : mu ≤ rnLim a := hm.trans (min_le_right _ _)
  refine ⟨?_, ?_, ?_⟩
  · rw [← sky_eq h]; exact pow_le_pow_left₀ (source_pos h _).le (source_anti h h1) 2
  · rw [← source_eq h]; exact source_anti h h2
  · rw [← rn_eq h]; exact pow_le_pow_left₀ (source_pos h _).le (source_anti h h3) 2

/-- **C346.** The documented limit "reaches SNR=nsigma": with all the noise it never does, it is always below. -/
theorem limit_false {a : Args} (h : Ok a) : snr a (limit a) < a.nsigma := by
  have h1 := source_pos h (limit a); have h2 := skyCounts_pos h; have h3 := readVar_pos h; have hn := h.nsigma
  rw [← sq_lt_sq₀ (snr_pos h _).le hn.le, snr_sq h, div_lt_iff₀ (by positivity)]
  have hcase : limit a = skyLim a ∨ limit a = sourceLim a ∨ limit a = rnLim a := by
    unfold limit
    rcases min_choice (min (skyLim a) (sourceLim a)) (rnLim a) with e | e
    · rcases min_choice (skyLim a) (sourceLim a) with e' | e'
      · left; rw [e, e']
      · right; left; rw [e, e']
    · right; right; exact e
  have hn2 : 0 < a.nsigma ^ 2 := by positivity
  have p1 := mul_pos hn2 h1; have p2 := mul_pos hn2 h2; have p3 := mul_pos hn2 h3
  rcases hcase with e | e | e
  · have := sky_eq h; rw [← e] at this; nlinarith
  · have := source_eq h; rw [← e] at this; nlinarith
  · have := rn_eq h; rw [← e] at this; nlinarith

/-- **C346.** What is true of it: the ratio at the limit is at least the one asked for divided by the root of three. -/
theorem limit_partial {a : Args} (h : Ok a) : a.nsigma / √3 ≤ snr a (limit a) := by
  have h1 := source_pos h (limit a); have h2 := skyCounts_pos h; have h3 := readVar_pos h; have hn := h.nsigma
  rw [← sq_le_sq₀ (by positivity) (snr_pos h _).le, snr_sq h, div_pow, sq_sqrt (by norm_num), div_le_div_iff₀ (by norm_num) (by positivity)]
  obtain ⟨b1, b2, b3⟩ := at_most h le_rfl
  nlinarith

theorem source_shift {a : Args} (mu x : ℝ) : source a (mu - x) = source a mu * (10 : ℝ) ^ (0.4 * x) := by
  unfold source
  rw [mul_assoc (a.area * a.texp), ← rpow_add (by norm_num)]
  congr 2; ring

/-- **C346.** A source brighter than the limit by `2.5 log 2`, three quarters of a magnitude, does reach the ratio asked for. -/
theorem limit_margin {a : Args} (h : Ok a) : a.nsigma ≤ snr a (limit a - 2.5 * logb 10 2) := by
  have hn := h.nsigma
  have e : source a (limit a - 2.5 * logb 10 2) = source a (limit a) * 2 := by
    rw [source_shift]; congr 1
    rw [show (0.4 : ℝ) * (2.5 * logb 10 2) = logb 10 2 by ring, rpow_logb (by norm_num) (by norm_num) (by norm_num)]
  have h1 := source_pos h (limit a); have h2 := skyCounts_pos h; have h3 := readVar_pos h
  rw [← sq_le_sq₀ hn.le (snr_pos h _).le, snr_sq h, e, le_div_iff₀ (by positivity)]
  obtain ⟨b1, b2, b3⟩ := at_most h le_rfl
  nlinarith

/-- **C346.** When the three cases coincide this margin is needed in full, for a ratio that is reached exactly. -/
theorem margin_sharp {a : Args} (h : Ok a) (e1 : skyLim a = sourceLim a) (e2 : rnLim a = sourceLim a) :
    snr a (limit a - 2.5 * logb 10 2) = a.nsigma ∧ ∀ x < 2.5 * logb 10 2, snr a (limit a - x) < a.nsigma := by
  have hn := h.nsigma
  have el : limit a = sourceLim a := by unfold limit; rw [e1, e2]; simp
  have hs := source_eq h
  have hk : skyCounts a = a.nsigma ^ 2 := by
    have := sky_eq h; rw [e1, hs] at this
    have hne : a.nsigma ^ 2 ≠ 0 := by positivity
    exact (mul_left_cancel₀ hne (by rw [← this]; ring)).symm
  have hr : readVar a = a.nsigma ^ 2 := by
    have := rn_eq h; rw [e2, hs] at this
    have hne : a.nsigma ^ 2 ≠ 0 := by positivity
    exact (mul_left_cancel₀ hne (by rw [← this]; ring)).symm
  constructor
  · have e : source a (limit a - 2.5 * logb 10 2) = a.nsigma ^ 2 * 2 := by
      rw [source_shift, el, hs]; congr 1
      rw [show (0.4 : ℝ) * (2.5 * logb 10 2) = logb 10 2 by ring, rpow_logb (by norm_num) (by norm_num) (by norm_num)]
    rw [← sq_eq_sq₀ (snr_pos h _).le hn.le, snr_sq h, e, hk, hr]
    field_simp; norm_num
  · intro x hx
    have e : source a (limit a - x) = a.nsigma ^ 2 * (10 : ℝ) ^ (0.4 * x) := by rw [source_shift, el, hs]
    have hf : (10 : ℝ) ^ (0.4 * x) < 2 := by
      calc (10 : ℝ) ^ (0.4 * x) < (10 : ℝ) ^ (logb 10 2) := rpow_lt_rpow_of_exponent_lt (by norm_num) (by linarith)
        _ = 2 := rpow_logb (by norm_num) (by norm_num) (by norm_num)
    have hf0 : (0:ℝ) < (10 : ℝ) ^ (0.4 * x) := by positivity
    rw [← sq_lt_sq₀ (snr_pos h _).le hn.le, snr_sq h, e, hk, hr, div_lt_iff₀ (by positivity)]
    have hn4 : 0 < a.nsigma ^ 2 * a.nsigma ^ 2 := by positivity
    have : ((10 : ℝ) ^ (0.4 * x)) ^ 2 < (10 : ℝ) ^ (0.4 * x) + 2 := by nlinarith
    calc (a.nsigma ^ 2 * (10 : ℝ) ^ (0.4 * x)) ^ 2 = a.nsigma ^ 2 * a.nsigma ^ 2 * ((10 : ℝ) ^ (0.4 * x)) ^ 2 := by ring
      _ < a.nsigma ^ 2 * a.nsigma ^ 2 * ((10 : ℝ) ^ (0.4 * x) + 2) := by gcongr
      _ = a.nsigma ^ 2 * (a.nsigma ^ 2 * (10 : ℝ) ^ (0.4 * x) + a.nsigma ^ 2 + a.nsigma ^ 2) := by ring

/-- A visit in which the three cases coincide. -/
def coincident : Args := { zp := 0, k := 0, airmass := 1, sky := 0, rn := 1, pix := 1, nsigma := 1, texp := 1, area := 1 }

theorem coincident_ok : Ok coincident := by constructor <;> norm_num [coincident]

/-- The numbers of the warning: the limit is too optimistic "by up 0.38 mags". -/
def WithinWarning : Prop := ∀ a, Ok a → a.nsigma ≤ snr a (limit a - 0.38)

/-- **C346.** The 0.38 magnitudes of the warning are not enough. -/
theorem warning_false : ¬ WithinWarning := by
  intro hw
  have e1 : skyLim coincident = 0 := by norm_num [skyLim, coincident, nPix]
  have e2 : sourceLim coincident = 0 := by norm_num [sourceLim, coincident, nPix]
  have e3 : rnLim coincident = 0 := by norm_num [rnLim, coincident, nPix]
  have hx : (0.38 : ℝ) < 2.5 * logb 10 2 := by
    have : (0.152 : ℝ) < logb 10 2 := by
      rw [lt_logb_iff_rpow_lt (by norm_num) (by norm_num)]
      have e : ((10:ℝ) ^ (0.152:ℝ)) ^ (125:ℕ) = (10:ℝ) ^ (19:ℕ) := by
        rw [← rpow_natCast, ← rpow_mul (by norm_num), ← rpow_natCast]; norm_num
      refine lt_of_pow_lt_pow_left₀ 125 (by norm_num) ?_
      rw [e]; norm_num
    linarith
  have := (margin_sharp coincident_ok (e1.trans e2.symm) (e3.trans e2.symm)).2 0.38 hx
  exact absurd (hw coincident coincident_ok) (not_le.2 this)

example : limit coincident = 0 := by norm_num [limit, skyLim, sourceLim, rnLim, coincident, nPix]

/-! ## The metric -/

/-- **C347.** In one filter, with its zero point and extinction known: the limits of the visits are added like depths, with the noise of one readout for each exposure. -/
theorem run_one (m : Metric) (f : Char) (z k : ℝ) (t : Table) (vs : List Visit) (hne : vs ≠ []) (hf : ∀ v ∈ vs, v.band = f)
    (hz : m.zpt f = some z) (ht : m.katm = some t) (hk : t f = some k) :
    run m vs = .ok (RealMetrics.coadd (vs.map (fun v => limit (argsOf m z k v)))) ∧
      (0 ≤ m.readnoise → ∀ v ∈ vs, readVar (argsOf m z k v) = v.nexp * (m.readnoise ^ 2 * (m.area / m.pix ^ 2))) := by
  constructor
  · have hm : (vs.map Visit.band).min? = some f := by
      cases vs with
      | nil => exact absurd rfl hne
      | cons v l =>
        rw [List.min?_eq_some_iff]
        refine ⟨List.mem_map.2 ⟨v, by simp, hf v (by simp)⟩, ?_⟩
        intro b hb
        obtain ⟨w, hw, rfl⟩ := List.mem_map.1 hb
        exact (hf w hw).ge
    simp only [run, hm, hz, ht, hk, RealMetrics.coadd, List.map_map]
    rfl
  · intro h0 v _
    simp only [readVar, argsOf, mul_pow, sq_sqrt (Nat.cast_nonneg _)]
    ring

/-- **C347.** More visits never lower the limit. -/
theorem run_more (m : Metric) (f : Char) (z k : ℝ) (t : Table) (vs ws : List Visit) (hne : vs ≠ []) (hf : ∀ v ∈ vs ++ ws, v.band = f)
    (hz : m.zpt f = some z) (ht : m.katm = some t) (hk : t f = some k) :
    ∃ x y, run m vs = .ok x ∧ run m (vs ++ ws) = .ok y ∧ x ≤ y := by
  refine ⟨_, _, (run_one m f z k t vs hne (fun v hv => hf v (by simp [hv])) hz ht hk).1, (run_one m f z k t (vs ++ ws) (by simp [hne]) hf hz ht hk).1, ?_⟩
  unfold RealMetrics.coadd
  have pos : ∀ l : List Visit, 0 ≤ ((l.map (fun v => limit (argsOf m z k v))).map (fun x => (10 : ℝ) ^ (0.8 * x))).sum := by
    intro l; apply List.sum_nonneg; intro x hx
    obtain ⟨y, _, rfl⟩ := List.mem_map.1 hx; positivity
  have hpos : 0 < ((vs.map (fun v => limit (argsOf m z k v))).map (fun x => (10 : ℝ) ^ (0.8 * x))).sum := by
    cases vs with
    | nil => exact absurd rfl hne
    | cons v l => rw [List.map_cons, List.map_cons, List.sum_cons]; exact add_pos_of_pos_of_nonneg (by positivity) (pos l)
  have : logb 10 ((vs.map (fun v => limit (argsOf m z k v))).map (fun x => (10 : ℝ) ^ (0.8 * x))).sum ≤
      logb 10 (((vs ++ ws).map (fun v => limit (argsOf m z k v))).map (fun x => (10 : ℝ) ^ (0.8 * x))).sum := by
    apply logb_le_logb_of_le (by norm_num) hpos
    rw [List.map_append, List.map_append, List.sum_append]
    linarith [pos ws]
  linarith

/-- "Can only coadd depth in single filter": what the exception would say. -/
def OneFilterOnly : Prop := ∀ (m : Metric) (vs : List Visit) (x : ℝ), run m vs = .ok x → ∀ v ∈ vs, ∀ w ∈ vs, v.band = w.band

/-- **C347.** The exception for several filters is not raised. -/
theorem one_filter_false : ¬ OneFilterOnly := by
  intro h
  have := h ⟨1, 1, 1, 1, fun _ => some 0, some (fun _ => some 0)⟩ [⟨'g', 1, 1, 0, 1⟩, ⟨'r', 1, 1, 0, 1⟩] _
    (by simp only [run, List.map_cons, List.map_nil]; rfl) ⟨'g', 1, 1, 0, 1⟩ (by simp) ⟨'r', 1, 1, 0, 1⟩ (by simp)
  exact absurd this (by decide)

/-- **C347.** With several filters all visits have the zero point and the extinction of the first filter in alphabetical order. -/
theorem run_mixed (m : Metric) (f : Char) (z k : ℝ) (t : Table) (vs : List Visit) (hf : ∃ v ∈ vs, v.band = f) (hmin : ∀ v ∈ vs, f ≤ v.band)
    (hz : m.zpt f = some z) (ht : m.katm = some t) (hk : t f = some k) :
    run m vs = .ok (RealMetrics.coadd (vs.map (fun v => limit (argsOf m z k v)))) := by
  have hm : (vs.map Visit.band).min? = some f := by
    rw [List.min?_eq_some_iff]
    refine ⟨List.mem_map.2 hf, ?_⟩
    intro b hb
    obtain ⟨w, hw, rfl⟩ := List.mem_map.1 hb
    exact hmin w hw
  simp only [run, hm, hz, ht, hk, RealMetrics.coadd, List.map_map]
  rfl

/-- **C347.** Of the zero points and extinctions given, the extinctions alone are ignored, and zero points alone leave the metric without extinctions, so that it raises. -/
theorem options (inst : Table × Table) (z k : Table) (m : Metric) (vs : List Visit) :
    init inst none (some k) = init inst none none ∧ init inst (some z) (some k) = (z, some k) ∧
      (vs ≠ [] → (∀ v ∈ vs, (z v.band).isSome) → (m.zpt, m.katm) = init inst (some z) none → run m vs = .error "TypeError") := by
  refine ⟨rfl, rfl, ?_⟩
  intro hne hz hm
  obtain ⟨h1, h2⟩ := Prod.mk.inj hm
  cases hmin : (vs.map Visit.band).min? with
  | none => simp at hmin; exact absurd hmin hne
  | some f =>
    obtain ⟨v, hv, rfl⟩ := List.mem_map.1 (List.min?_mem hmin)
    obtain ⟨x, hx⟩ := Option.isSome_iff_exists.1 (hz v hv)
    simp only [run, hmin]
    rw [h1, hx, h2]

example : ∃ m : Metric, ∃ x, run m [⟨'r', 1, 30, 21, 2⟩] = .ok x := ⟨⟨8.8, 0.2, 3, 100, fun _ => some 28, some (fun _ => some 0.1)⟩, _, rfl⟩

/-- **C347.** The visits with a saturated sky are those counted. -/
theorem skySat_spec (mags : List (Option ℝ)) : skySat mags = (mags.countP Option.isNone : ℕ) := by
  have key : ∀ l : List (Option ℝ), ((List.range l.length).filter (fun i => (l[i]?.join).isSome)).length = l.countP Option.isSome := by
    intro l
    induction l with
    | nil => rfl
    | cons a l ih =>
      rw [List.length_cons, List.range_succ_eq_map, List.filter_cons, List.countP_cons, List.filter_map, ← ih]
      cases a <;> simp [Function.comp_def]
  unfold skySat
  rw [key]
  have := List.length_eq_countP_add_countP (p := Option.isSome) (l := mags)
  have e : mags.countP (fun a => ¬ (a.isSome = true)) = mags.countP Option.isNone := by
    congr 1; funext a; cases a <;> rfl
  rw [this, ← e]; push_cast; simp

example : skySat [some 16, none, some 17, none] = 2 := by rw [skySat_spec]; rfl

end Verif.Surf
