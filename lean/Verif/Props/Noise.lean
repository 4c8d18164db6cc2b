import Verif.Props.Snr

/-!
# Signal to noise, limiting magnitudes and zeropoints
-/

namespace Verif.Snr

open Real Verif.Sed Verif.Spectres

attribute [local irreducible] Verif.Sed.flat

/-! ## Counts -/

theorem calcAdu_nexp (bp : Band ℝ) (p : Params ℝ) (s : Spec ℝ) (n : ℝ) :
    calcAdu bp { p with nexp := n * p.nexp } s = (calcAdu bp p s).map (n * ·) := by
  unfold calcAdu
  cases resample bp.wavelen s none with
  | none => rfl
  | some r =>
    dsimp only
    split_ifs
    · rfl
    · simp only [Option.map_some]; congr 1; ring

theorem calcAdu_exptime (bp : Band ℝ) (p : Params ℝ) (s : Spec ℝ) (n : ℝ) :
    calcAdu bp { p with exptime := n * p.exptime } s = (calcAdu bp p s).map (n * ·) := by
  unfold calcAdu
  cases resample bp.wavelen s none with
  | none => rfl
  | some r =>
    dsimp only
    split_ifs
    · rfl
    · simp only [Option.map_some]; congr 1; ring

theorem calcAdu_gain (bp : Band ℝ) (p : Params ℝ) (s : Spec ℝ) {g : ℝ} (h : p.gain ≠ 0) :
    calcAdu bp { p with gain := g } s = (calcAdu bp p s).map (p.gain / g * ·) := by
  unfold calcAdu
  cases resample bp.wavelen s none with
  | none => rfl
  | some r =>
    dsimp only
    split_ifs
    · rfl
    · simp only [Option.map_some]; congr 1; field_simp

theorem calcAdu_platescale (bp : Band ℝ) (p : Params ℝ) (s : Spec ℝ) (x : ℝ) :
    calcAdu bp { p with platescale := x } s = calcAdu bp p s := rfl

/-! ## Noise -/

/-- The conversions between the two widths of the PSF are inverse to each other. -/
theorem fwhm_inverse (f : ℝ) : effToGeom (geomToEff f) = f ∧ geomToEff (effToGeom f) = f := by
  unfold effToGeom geomToEff
  constructor
  · field_simp; ring
  · field_simp; ring

theorem nonSource_some {sky : Spec ℝ} {hardware : Band ℝ} {p : Params ℝ} {fwhm v : ℝ}
    (h : nonSourceNoiseSq sky hardware p fwhm = some v) :
    ∃ a, calcAdu hardware p sky = some a ∧
      v = neff fwhm p.platescale * (a * p.platescale * p.platescale / p.gain + instrNoiseSq p) := by
  unfold nonSourceNoiseSq at h
  cases ha : calcAdu hardware p sky with
  | none => rw [ha] at h; cases h
  | some a =>
    rw [ha] at h
    dsimp only at h
    exact ⟨a, rfl, by rw [← Option.some.inj h, add_zero]⟩

/-- Without instrumental noise, the noise does not depend on the size of the pixels. -/
theorem noise_platescale (sky : Spec ℝ) (hardware : Band ℝ) (p : Params ℝ) (fwhm : ℝ) {x : ℝ}
    (hx : x ≠ 0) (hp : p.platescale ≠ 0) (h0 : p.readnoise = 0) (h1 : p.darkcurrent = 0)
    (h2 : p.othernoise = 0) :
    nonSourceNoiseSq sky hardware { p with platescale := x } fwhm =
      nonSourceNoiseSq sky hardware p fwhm := by
  unfold nonSourceNoiseSq
  rw [calcAdu_platescale]
  cases calcAdu hardware p sky with
  | none => rfl
  | some a =>
    dsimp only
    congr 1
    unfold neff instrNoiseSq
    dsimp only
    rw [h0, h1, h2]
    have : (p.nexp * 0 ^ 2 + 0 * p.exptime * p.nexp + p.nexp * 0 ^ 2) / (p.gain * p.gain) = 0 := by
      ring
    rw [this]
    field_simp
    ring

/-- The signal to noise ratio of `n` times as many exposures is `√n` times that of one. -/
theorem snr_exposures (source : Spec ℝ) (total : Band ℝ) (sky : Spec ℝ) (hardware : Band ℝ)
    (p : Params ℝ) (fwhm : ℝ) {n : ℝ} (hn : 0 < n) :
    calcSnrSed source total sky hardware { p with nexp := n * p.nexp } fwhm =
      (calcSnrSed source total sky hardware p fwhm).map (√n * ·) := by
  unfold calcSnrSed nonSourceNoiseSq
  rw [calcAdu_nexp, calcAdu_nexp]
  cases calcAdu total p source with
  | none => rfl
  | some c =>
    cases calcAdu hardware p sky with
    | none => rfl
    | some a =>
      simp only [Option.map_some]
      congr 1
      have : n * c / p.gain + neff fwhm p.platescale *
          (n * a * p.platescale * p.platescale / p.gain +
            instrNoiseSq { p with nexp := n * p.nexp } + 0) =
          n * (c / p.gain + neff fwhm p.platescale *
            (a * p.platescale * p.platescale / p.gain + instrNoiseSq p + 0)) := by
        unfold instrNoiseSq
        ring
      rw [this, sqrt_mul hn.le]
      have h1 : √n ≠ 0 := (sqrt_pos.mpr hn).ne'
      nth_rewrite 1 [← mul_self_sqrt hn.le]
      rw [mul_assoc, mul_div_mul_left _ _ h1, mul_div_assoc]

/-- The signal to noise ratio does not depend on the gain: what is counted are electrons. -/
theorem snr_gain (source : Spec ℝ) (total : Band ℝ) (sky : Spec ℝ) (hardware : Band ℝ)
    (p : Params ℝ) (fwhm : ℝ) {g : ℝ} (hg : 0 < g) (hp : 0 < p.gain) :
    calcSnrSed source total sky hardware { p with gain := g } fwhm =
      calcSnrSed source total sky hardware p fwhm := by
  unfold calcSnrSed nonSourceNoiseSq
  rw [calcAdu_gain total p source (g := g) hp.ne', calcAdu_gain hardware p sky (g := g) hp.ne']
  cases calcAdu total p source with
  | none => rfl
  | some c =>
    cases calcAdu hardware p sky with
    | none => rfl
    | some a =>
      simp only [Option.map_some]
      congr 1
      have h2 : 0 < p.gain / g := div_pos hp hg
      have : p.gain / g * c / g + neff fwhm p.platescale *
          (p.gain / g * a * p.platescale * p.platescale / g +
            instrNoiseSq { p with gain := g } + 0) =
          (p.gain / g) ^ 2 * (c / p.gain + neff fwhm p.platescale *
            (a * p.platescale * p.platescale / p.gain + instrNoiseSq p + 0)) := by
        unfold instrNoiseSq
        have := hp.ne'
        have := hg.ne'
        field_simp
        ring
      rw [this, sqrt_mul (sq_nonneg _), sqrt_sq h2.le, mul_div_mul_left _ _ h2.ne']

/-! ## The limiting magnitude -/

/-- Counts at which the ratio is `k`, for gain `g` and other noise `v`. -/
theorem snr_eq_iff {g v k : ℝ} (hg : 0 < g) (hv : 0 ≤ v) (hk : 0 < k) {s : ℝ} (hs : 0 < s) :
    s / √(s / g + v) = k ↔ s ^ 2 = k ^ 2 * (s / g + v) := by
  have hn : 0 < s / g + v := by positivity
  rw [div_eq_iff (sqrt_pos.mpr hn).ne']
  constructor
  · intro h
    rw [h, mul_pow, sq_sqrt hn.le, ← h]
  · intro h
    have h2 := sqrt_sq hs.le
    rw [h, sqrt_mul (sq_nonneg k), sqrt_sq hk.le] at h2
    exact h2.symm

theorem counts5_pos {g v : ℝ} (hg : 0 < g) (hv : 0 ≤ v) : 0 < counts5sigma g v := by
  unfold counts5sigma
  positivity

theorem counts5_sq {g v : ℝ} (hg : 0 < g) (hv : 0 ≤ v) :
    counts5sigma g v ^ 2 =
      25 * (counts5sigma g v / g + v) + 625 / 4 * (1 / g - 1 / g ^ 2) := by
  have h : 0 ≤ 5 ^ 4 / 4 / g + 5 ^ 2 * v := by positivity
  have := sq_sqrt h
  unfold counts5sigma
  generalize √(5 ^ 4 / 4 / g + 5 ^ 2 * v) = r at this
  have e : (5 ^ 2 / 2 / g + r) ^ 2 = (25 / 2 / g) ^ 2 + 25 / g * r + r ^ 2 := by ring
  rw [e, this]
  field_simp
  ring

/-- How the ratio at the count computed by `calc_m5` compares to five. -/
theorem counts5_snr {g v : ℝ} (hg : 0 < g) (hv : 0 ≤ v) :
    (g = 1 → counts5sigma g v / √(counts5sigma g v / g + v) = 5) ∧
    (1 < g → 5 < counts5sigma g v / √(counts5sigma g v / g + v)) ∧
    (g < 1 → counts5sigma g v / √(counts5sigma g v / g + v) < 5) := by
  have h0 := counts5_pos hg hv
  have h1 := counts5_sq hg hv
  have hn : 0 < counts5sigma g v / g + v := by positivity
  have hr := sqrt_pos.mpr hn
  have h5 : √(25 * (counts5sigma g v / g + v)) = 5 * √(counts5sigma g v / g + v) := by
    rw [sqrt_mul (by norm_num), show (25 : ℝ) = 5 ^ 2 by norm_num, sqrt_sq (by norm_num)]
  have hfac : 1 / g - 1 / g ^ 2 = (g - 1) / g ^ 2 := by field_simp
  refine ⟨fun h => ?_, fun h => ?_, fun h => ?_⟩
  · rw [snr_eq_iff hg hv (by norm_num) h0, h1, h]; ring
  · rw [lt_div_iff₀ hr, ← h5]
    have : 0 < (g - 1) / g ^ 2 := div_pos (by linarith) (by positivity)
    refine sqrt_lt' h0 |>.mpr ?_
    rw [h1, hfac]; linarith
  · rw [div_lt_iff₀ hr, ← h5]
    have : (g - 1) / g ^ 2 < 0 := div_neg_of_neg_of_pos (by linarith) (by positivity)
    refine lt_sqrt h0.le |>.mpr ?_
    rw [h1, hfac]; linarith

/-- A flat source of a given magnitude: the flux is that of the magnitude at all wavelengths. -/
noncomputable def flatAt (mag : ℝ) : Spec ℝ := flat.scale (10 ^ (-0.4 * mag))

theorem fluxFromMag_newZp (mag : ℝ) : fluxFromMag newZp mag = 3631 * 10 ^ (-0.4 * mag) := by
  unfold fluxFromMag newZp
  rw [show -0.4 * (mag + -2.5 * logb 10 3631) = logb 10 3631 + -0.4 * mag by ring,
    rpow_add (by norm_num), ten_rpow_logb (by norm_num)]

theorem scaledTo_flat {bp : Band ℝ} (h : Usable bp) (mag : ℝ) :
    scaledTo newZp mag bp flat = some (flatAt mag) := by
  unfold scaledTo calcFluxNorm
  rw [flat_mag h]
  dsimp only
  rw [Option.map_some, sub_zero, flatAt]

theorem flatAt_adu {bp : Band ℝ} (hb : bp.WF) (p : Params ℝ) {a : ℝ}
    (h : calcAdu bp p flat = some a) (mag : ℝ) :
    calcAdu bp p (flatAt mag) = some (a * 10 ^ (-0.4 * mag)) := by
  unfold flatAt
  rw [calcAdu_scale hb p flat_wf, h, Option.map_some]

theorem flatAt_mag {bp : Band ℝ} (h : Usable bp) {mag : ℝ} (hm : 1 / 10 ^ 300 ≤ fluxFromMag newZp mag) :
    calcMag newZp bp (flatAt mag) = some mag := by
  obtain ⟨s', h1, h2, -⟩ := scaledTo_mag (zp := newZp) h.wf flat_wf (flat_mag h) hm
  rw [scaledTo_flat h] at h1
  cases h1
  exact h2

/-- Magnitude of a flat spectrum times `c`. -/
theorem flat_scale_mag {bp : Band ℝ} (h : Usable bp) {c m : ℝ}
    (hm : calcMag newZp bp (flat.scale c) = some m) : 0 < c ∧ c = 10 ^ (-0.4 * m) := by
  obtain ⟨f, h1, h2, h3⟩ := calcMag_some hm
  rw [calcFlux_scale h.wf flat_wf, flat_flux h, Option.map_some] at h1
  have h1 := Option.some.inj h1
  have hf : 0 < f := lt_of_lt_of_le (by positivity) h2
  have hc : 0 < c := by
    rw [← h1] at hf
    exact pos_of_mul_pos_right hf (by norm_num)
  refine ⟨hc, ?_⟩
  have h4 : fluxFromMag newZp m = f := by rw [h3, (mag_flux newZp).1 f hf]
  rw [fluxFromMag_newZp, ← h1] at h4
  linarith

/-- What `calc_m5` returns: the magnitude of the flat source whose counts are
`counts_5sigma`. -/
theorem calcM5_counts {sky : Spec ℝ} {total hardware : Band ℝ} (ht : Usable total)
    {p : Params ℝ} {fwhm a v m : ℝ} (ha : calcAdu total p flat = some a) (ha0 : 0 < a)
    (hv : nonSourceNoiseSq sky hardware p fwhm = some v)
    (hm : calcM5 sky total hardware p fwhm = some m) :
    calcAdu total p (flatAt m) = some (counts5sigma p.gain v) := by
  unfold calcM5 at hm
  rw [hv, ha] at hm
  dsimp only at hm
  obtain ⟨h1, h2⟩ := flat_scale_mag ht hm
  rw [flatAt_adu ht.wf p ha, ← h2]
  congr 1
  field_simp

/-- A camera, sky and bandpasses for which the limit can be calculated. -/
structure Setting (sky : Spec ℝ) (total hardware : Band ℝ) (p : Params ℝ) (fwhm a v : ℝ) :
    Prop where
  usable : Usable total
  gain : 0 < p.gain
  adu : calcAdu total p flat = some a
  pos : 0 < a
  noise : nonSourceNoiseSq sky hardware p fwhm = some v
  nonneg : 0 ≤ v

/-- The claim that a source at the magnitude returned by `calc_m5` has a signal to noise
ratio of five holds for gain one. -/
theorem m5_partial {sky : Spec ℝ} {total hardware : Band ℝ} {p : Params ℝ} {fwhm a v m : ℝ}
    (h : Setting sky total hardware p fwhm a v) (hg : p.gain = 1)
    (hm : calcM5 sky total hardware p fwhm = some m) :
    calcSnrSed (flatAt m) total sky hardware p fwhm = some 5 := by
  unfold calcSnrSed
  rw [calcM5_counts h.usable h.adu h.pos h.noise hm, h.noise]
  dsimp only
  rw [(counts5_snr h.gain h.nonneg).1 hg]

/-- It fails for every other gain: the ratio is above five for a gain above one, and below
five for a gain below one. -/
theorem m5_false {sky : Spec ℝ} {total hardware : Band ℝ} {p : Params ℝ} {fwhm a v m : ℝ}
    (h : Setting sky total hardware p fwhm a v)
    (hm : calcM5 sky total hardware p fwhm = some m) :
    ∃ snr, calcSnrSed (flatAt m) total sky hardware p fwhm = some snr ∧
      (1 < p.gain → 5 < snr) ∧ (p.gain < 1 → snr < 5) := by
  unfold calcSnrSed
  rw [calcM5_counts h.usable h.adu h.pos h.noise hm, h.noise]
  exact ⟨_, rfl, (counts5_snr h.gain h.nonneg).2⟩

/-- The counts of a flat source. -/
theorem flat_adu {bp : Band ℝ} (h : Usable bp) (p : Params ℝ) :
    calcAdu bp p flat = some (3631 * (List.zipWith (· / ·) bp.sb bp.wavelen).sum *
      (p.exptime * p.nexp * p.effarea / p.gain) * (1 / 10 ^ 23) * (1 / (6626068 / 10 ^ 33)) *
        (bp.wavelen.getD 1 0 - bp.wavelen.getD 0 0)) := by
  obtain ⟨r, h1, h2⟩ := resample_covers h.wf flat_wf h.covers none 3631 3631
    (fun x hx => (List.eq_of_mem_replicate (by rw [flat_flux_eq] at hx; exact hx)).ge)
    (fun x hx => (List.eq_of_mem_replicate (by rw [flat_flux_eq] at hx; exact hx)).le)
  obtain ⟨g1, g2, g3, g4⟩ := resample_wf h.wf.grid flat_wf h1
  have g4 := g4 h.apart
  have hlen := h.wf.grid.1
  have hsb := h.wf.len
  unfold calcAdu
  rw [h1]
  dsimp only
  rw [if_neg (by omega)]
  have hq : List.zipWith (· * ·) (List.zipWith (· / ·) r.flux r.wavelen) bp.sb =
      (List.zipWith (· / ·) bp.sb bp.wavelen).map (· * 3631) := by
    refine List.ext_getElem (by simp only [List.length_zipWith, List.length_map]; omega) ?_
    intro k k1 k2
    rw [List.length_zipWith, List.length_zipWith] at k1
    have := h2 (r.flux[k]'(by omega)) (List.getElem_mem _)
    simp only [List.getElem_zipWith, List.getElem_map, g4]
    rw [le_antisymm this.2 this.1]
    ring
  rw [hq, sum_map_mul, g4]
  unfold ergsetc2jansky planck
  congr 1
  ring

/-- They do not vanish. -/
theorem flat_adu_pos {bp : Band ℝ} (h : Usable bp) {p : Params ℝ}
    (hp : 0 < p.exptime * p.nexp * p.effarea / p.gain) :
    ∃ a, calcAdu bp p flat = some a ∧ 0 < a := by
  refine ⟨_, flat_adu h p, ?_⟩
  have hlen := h.wf.grid.1
  have hnn := zipWith_nonneg h.sb h.wf.pos
  have hsum : 0 < (List.zipWith (· / ·) bp.sb bp.wavelen).sum := by
    refine lt_of_le_of_ne (List.sum_nonneg hnn) fun h0 => ?_
    have hz := fun {x : ℝ} => List.all_zero_of_le_zero_le_of_sum_eq_zero (x := x) hnn h0.symm
    apply h.norm
    unfold sbToPhi
    dsimp only
    rw [if_pos]
    have : List.zipWith (· / ·) bp.sb bp.wavelen =
        (List.zipWith (· / ·) bp.sb bp.wavelen).map (· * 0) := by
      conv_lhs => rw [← List.map_id (List.zipWith (· / ·) bp.sb bp.wavelen)]
      refine List.map_congr_left fun x hx => ?_
      rw [mul_zero, id, hz hx]
    rw [this, trapz_smul, mul_zero]
  have hd : 0 < bp.wavelen.getD 1 0 - bp.wavelen.getD 0 0 := by
    have := grid_lt h.wf.grid (i := 0) (j := 1) (by omega) (by omega)
    linarith
  positivity

/-- The limit exists unless the source at the limit has a flux that is too small to have a
magnitude. -/
theorem calcM5_exists {sky : Spec ℝ} {total hardware : Band ℝ} {p : Params ℝ} {fwhm a v : ℝ}
    (h : Setting sky total hardware p fwhm a v)
    (hf : 1 / 10 ^ 300 ≤ 3631 * (counts5sigma p.gain v / a)) :
    ∃ m, calcM5 sky total hardware p fwhm = some m := by
  unfold calcM5
  rw [h.noise, h.adu]
  dsimp only
  refine ⟨_, calcMag_eq ?_ hf⟩
  rw [calcFlux_scale h.usable.wf flat_wf, flat_flux h.usable, Option.map_some]

/-- The camera of the survey, with gain `g`. -/
noncomputable def camera (g : ℝ) : Params ℝ :=
  ⟨15, 2, 324237, g, 8.8, 0.2, 0, 0.2, 0.005⟩

/-- An example of a setting, with a limiting magnitude. -/
theorem camera_setting {g : ℝ} (hg : 0 < g) :
    ∃ a v m, Setting flat tent tent (camera g) 0.8 a v ∧
      calcM5 flat tent tent (camera g) 0.8 = some m := by
  have ha := flat_adu tent_usable (camera g)
  obtain ⟨a, h1, h2⟩ := flat_adu_pos tent_usable (p := camera g) (by
    unfold camera; positivity)
  have hn : nonSourceNoiseSq flat tent (camera g) 0.8 =
      some (neff 0.8 (camera g).platescale *
        (a * (camera g).platescale * (camera g).platescale / (camera g).gain +
          instrNoiseSq (camera g) + 0)) := by
    unfold nonSourceNoiseSq
    rw [h1]
  have hv : 0 ≤ neff 0.8 (camera g).platescale *
        (a * (camera g).platescale * (camera g).platescale / (camera g).gain +
          instrNoiseSq (camera g) + 0) := by
    unfold neff instrNoiseSq camera
    dsimp only
    positivity
  have hs : Setting flat tent tent (camera g) 0.8 a _ := ⟨tent_usable, hg, h1, h2, hn, hv⟩
  obtain ⟨m, hm⟩ := calcM5_exists hs (by
    rw [h1, Option.some.injEq] at ha
    have e : a ≤ 10 ^ 20 / g := by
      rw [ha]
      unfold tent camera
      simp only [List.zipWith_cons_cons, List.zipWith_nil_right, List.sum_cons, List.sum_nil,
        List.getD_cons_zero, List.getD_cons_succ]
      rw [le_div_iff₀ hg]
      field_simp
      norm_num
    have hc : 25 / 2 / g ≤ counts5sigma (camera g).gain (neff 0.8 (camera g).platescale *
        (a * (camera g).platescale * (camera g).platescale / (camera g).gain +
          instrNoiseSq (camera g) + 0)) := by
      unfold counts5sigma
      have := sqrt_nonneg (5 ^ 4 / 4 / (camera g).gain + 5 ^ 2 * (neff 0.8 (camera g).platescale *
        (a * (camera g).platescale * (camera g).platescale / (camera g).gain +
          instrNoiseSq (camera g) + 0)))
      have e2 : (5 : ℝ) ^ 2 / 2 / (camera g).gain = 25 / 2 / g := by unfold camera; norm_num
      rw [e2]
      linarith
    have h3 : (1 / 10 ^ 300 : ℝ) ≤ 1 / 10 ^ 20 :=
      one_div_le_one_div_of_le (by positivity) (pow_le_pow_right₀ (by norm_num) (by norm_num))
    have h4 : 1 / 10 ^ 20 ≤ counts5sigma (camera g).gain (neff 0.8 (camera g).platescale *
        (a * (camera g).platescale * (camera g).platescale / (camera g).gain +
          instrNoiseSq (camera g) + 0)) / a := by
      rw [le_div_iff₀ h2]
      refine le_trans ?_ hc
      have : a * g ≤ 10 ^ 20 := by rwa [le_div_iff₀ hg] at e
      rw [le_div_iff₀ hg]
      have : 1 / 10 ^ 20 * a * g = (a * g) / 10 ^ 20 := by ring
      rw [this]
      have := div_le_one_of_le₀ ‹a * g ≤ 10 ^ 20› (by positivity)
      linarith
    linarith)
  exact ⟨a, _, m, hs, hm⟩

/-- At the gain of 2.3 the limit is not that of five sigma. -/
example : ∃ m snr, calcM5 flat tent tent (camera 2.3) 0.8 = some m ∧
    calcSnrSed (flatAt m) tent flat tent (camera 2.3) 0.8 = some snr ∧ 5 < snr := by
  obtain ⟨a, v, m, h, hm⟩ := camera_setting (g := 2.3) (by norm_num)
  obtain ⟨snr, h1, h2, -⟩ := m5_false h hm
  exact ⟨m, snr, hm, h1, h2 (by unfold camera; norm_num)⟩

/-- The claim that the limiting magnitude does not depend on the gain, as the signal to noise
ratio does not, fails: with gain one it is right, with any other gain it is not the same. -/
theorem m5_gain_false {sky : Spec ℝ} {total hardware : Band ℝ} {p : Params ℝ}
    {fwhm a v m : ℝ} (h : Setting sky total hardware p fwhm a v) (hg : p.gain = 1)
    (hm : calcM5 sky total hardware p fwhm = some m) {g : ℝ} (hg0 : 0 < g) (hg1 : g ≠ 1) :
    calcM5 sky total hardware { p with gain := g } fwhm ≠ some m := by
  intro hm'
  have h5 := m5_partial h hg hm
  obtain ⟨b, hb, hv⟩ := nonSource_some h.noise
  have hset : Setting sky total hardware { p with gain := g } fwhm (p.gain / g * a)
      ((p.gain / g) ^ 2 * v) := by
    refine ⟨h.usable, hg0, ?_, mul_pos (div_pos h.gain hg0) h.pos, ?_,
      mul_nonneg (sq_nonneg _) h.nonneg⟩
    · rw [calcAdu_gain _ _ _ h.gain.ne', h.adu, Option.map_some]
    · unfold nonSourceNoiseSq
      rw [calcAdu_gain _ p _ h.gain.ne', hb]
      simp only [Option.map_some]
      congr 1
      rw [hv]
      unfold instrNoiseSq
      have := h.gain.ne'
      field_simp
      ring
  obtain ⟨snr, h1, h2, h3⟩ := m5_false hset hm'
  rw [snr_gain _ _ _ _ _ _ hg0 h.gain, h5] at h1
  have h1 := Option.some.inj h1
  rcases lt_or_gt_of_ne hg1 with hlt | hlt
  · have := h3 hlt; linarith
  · have := h2 hlt; linarith

/-! ## Scaling the sky -/

/-- With the sky scaled by `scale_sky_m5` to a target, a flat source of that magnitude has a
signal to noise ratio of five, whatever the gain. -/
theorem scaleSky_snr {sky : Spec ℝ} {total hardware : Band ℝ} (ht : Usable total)
    (hh : hardware.WF) (hs : sky.WF) {p : Params ℝ} {fwhm a b : ℝ}
    (ha : calcAdu total p flat = some a) (ha0 : 0 < a) (hb : calcAdu hardware p sky = some b)
    (hb0 : b ≠ 0) (hg : p.gain ≠ 0) (hx : p.platescale ≠ 0) (hf : fwhm ≠ 0) (m5 : ℝ) :
    ∃ sky', scaleSkyM5 m5 sky total hardware p fwhm = some sky' ∧
      calcSnrSed (flatAt m5) total sky' hardware p fwhm = some 5 := by
  unfold scaleSkyM5 skyCountsForM5
  rw [scaledTo_flat ht]
  dsimp only
  rw [flatAt_adu ht.wf p ha]
  dsimp only
  rw [hb]
  refine ⟨_, rfl, ?_⟩
  unfold calcSnrSed nonSourceNoiseSq
  rw [flatAt_adu ht.wf p ha, calcAdu_scale hh p hs, hb]
  simp only [Option.map_some]
  congr 1
  have hS : 0 < a * 10 ^ (-0.4 * m5) := by positivity
  generalize a * 10 ^ (-0.4 * m5) = S at hS
  have hn : neff fwhm p.platescale ≠ 0 := by unfold neff; positivity
  generalize neff fwhm p.platescale = n at hn
  generalize instrNoiseSq p = i
  have : S / p.gain + n * (b * (((S * S / 25 - S / p.gain) / n - i) * p.gain /
      (b * p.platescale * p.platescale)) * p.platescale * p.platescale / p.gain + i + 0) =
      (S / 5) ^ 2 := by
    field_simp
    ring
  rw [this, sqrt_sq (by positivity)]
  field_simp

theorem scaleSky_noise {sky sky' : Spec ℝ} {total hardware : Band ℝ} (ht : Usable total)
    (hh : hardware.WF) (hs : sky.WF) {p : Params ℝ} {fwhm a b : ℝ}
    (ha : calcAdu total p flat = some a) (hb : calcAdu hardware p sky = some b)
    (hb0 : b ≠ 0) (hg : p.gain ≠ 0) (hx : p.platescale ≠ 0) (hf : fwhm ≠ 0) {m5 : ℝ}
    (h : scaleSkyM5 m5 sky total hardware p fwhm = some sky') :
    nonSourceNoiseSq sky' hardware p fwhm =
      some ((a * 10 ^ (-0.4 * m5)) ^ 2 / 25 - a * 10 ^ (-0.4 * m5) / p.gain) := by
  unfold scaleSkyM5 skyCountsForM5 at h
  rw [scaledTo_flat ht] at h
  dsimp only at h
  rw [flatAt_adu ht.wf p ha] at h
  dsimp only at h
  rw [hb] at h
  rw [← Option.some.inj h]
  unfold nonSourceNoiseSq
  rw [calcAdu_scale hh p hs, hb]
  simp only [Option.map_some]
  congr 1
  have hn : neff fwhm p.platescale ≠ 0 := by unfold neff; positivity
  generalize neff fwhm p.platescale = n at hn
  generalize a * 10 ^ (-0.4 * m5) = S
  generalize instrNoiseSq p = i
  field_simp
  ring

/-- The documented claim that `calc_m5` with the scaled sky returns the target holds for
gain one and targets bright enough to give 12.5 counts. -/
theorem scaleSky_partial {sky sky' : Spec ℝ} {total hardware : Band ℝ} (ht : Usable total)
    (hh : hardware.WF) (hs : sky.WF) {p : Params ℝ} {fwhm a b : ℝ}
    (ha : calcAdu total p flat = some a) (ha0 : 0 < a) (hb : calcAdu hardware p sky = some b)
    (hb0 : b ≠ 0) (hg : p.gain = 1) (hx : p.platescale ≠ 0) (hf : fwhm ≠ 0) {m5 : ℝ}
    (h : scaleSkyM5 m5 sky total hardware p fwhm = some sky')
    (hS : 12.5 ≤ a * 10 ^ (-0.4 * m5)) (hm : 1 / 10 ^ 300 ≤ fluxFromMag newZp m5) :
    calcM5 sky' total hardware p fwhm = some m5 := by
  have hv := scaleSky_noise ht hh hs ha hb hb0 (by rw [hg]; norm_num) hx hf h
  unfold calcM5
  rw [hv, ha]
  dsimp only
  have e : counts5sigma p.gain ((a * 10 ^ (-0.4 * m5)) ^ 2 / 25 - a * 10 ^ (-0.4 * m5) / p.gain) =
      a * 10 ^ (-0.4 * m5) := by
    rw [hg]
    generalize a * 10 ^ (-0.4 * m5) = S at hS
    unfold counts5sigma
    have : (5 ^ 4 / 4 / 1 + 5 ^ 2 * (S ^ 2 / 25 - S / 1) : ℝ) = (S - 12.5) ^ 2 := by ring
    rw [this, sqrt_sq (by linarith)]
    ring
  rw [e, mul_comm a, mul_div_assoc, div_self ha0.ne', mul_one]
  exact flatAt_mag ht hm

/-- It fails for every other gain, as long as the noise is not negative. -/
theorem scaleSky_false {sky sky' : Spec ℝ} {total hardware : Band ℝ} (ht : Usable total)
    (hh : hardware.WF) (hs : sky.WF) {p : Params ℝ} {fwhm a b : ℝ}
    (ha : calcAdu total p flat = some a) (ha0 : 0 < a) (hb : calcAdu hardware p sky = some b)
    (hb0 : b ≠ 0) (hg : 0 < p.gain) (hg1 : p.gain ≠ 1) (hx : p.platescale ≠ 0) (hf : fwhm ≠ 0)
    {m5 : ℝ} (h : scaleSkyM5 m5 sky total hardware p fwhm = some sky')
    (hS : 25 / p.gain ≤ a * 10 ^ (-0.4 * m5)) :
    calcM5 sky' total hardware p fwhm ≠ some m5 := by
  intro hm
  have hv := scaleSky_noise ht hh hs ha hb hb0 hg.ne' hx hf h
  have hnn : 0 ≤ (a * 10 ^ (-0.4 * m5)) ^ 2 / 25 - a * 10 ^ (-0.4 * m5) / p.gain := by
    have hS0 : 0 < a * 10 ^ (-0.4 * m5) := by positivity
    generalize a * 10 ^ (-0.4 * m5) = S at hS hS0
    have : S ^ 2 / 25 - S / p.gain = S / 25 * (S - 25 / p.gain) := by field_simp
    rw [this]
    exact mul_nonneg (by positivity) (by linarith)
  obtain ⟨snr, h1, h2, h3⟩ := m5_false ⟨ht, hg, ha, ha0, hv, hnn⟩ hm
  obtain ⟨sky'', h4, h5⟩ := scaleSky_snr ht hh hs ha ha0 hb hb0 hg.ne' hx hf m5
  rw [h] at h4
  cases h4
  rw [h5] at h1
  have h1 := Option.some.inj h1
  rcases lt_or_gt_of_ne hg1 with hlt | hlt
  · have := h3 hlt; linarith
  · have := h2 hlt; linarith

/-- The sky needed for a target is negative if the counts of a source at the target are too
few, as for every target that is faint enough. -/
theorem skyCounts_negative {total : Band ℝ} (ht : Usable total) {p : Params ℝ} {fwhm a : ℝ}
    (ha : calcAdu total p flat = some a) (ha0 : 0 < a) (hg : 0 < p.gain) (hx : p.platescale ≠ 0)
    (hf : fwhm ≠ 0) (hi : 0 ≤ instrNoiseSq p) {m5 : ℝ} (hm : 2.5 * logb 10 (a * p.gain / 25) < m5) :
    ∃ c, skyCountsForM5 m5 total p fwhm = some c ∧ c < 0 := by
  unfold skyCountsForM5
  rw [scaledTo_flat ht]
  dsimp only
  rw [flatAt_adu ht.wf p ha]
  refine ⟨_, rfl, ?_⟩
  have hS0 : 0 < a * 10 ^ (-0.4 * m5) := by positivity
  have hS : a * 10 ^ (-0.4 * m5) < 25 / p.gain := by
    have h1 : (10 : ℝ) ^ (-0.4 * m5) < 10 ^ (-logb 10 (a * p.gain / 25)) :=
      rpow_lt_rpow_of_exponent_lt (by norm_num) (by linarith)
    rw [rpow_neg (by norm_num), ten_rpow_logb (by positivity)] at h1
    calc a * 10 ^ (-0.4 * m5) < a * (a * p.gain / 25)⁻¹ := mul_lt_mul_of_pos_left h1 ha0
      _ = 25 / p.gain := by field_simp
  generalize a * 10 ^ (-0.4 * m5) = S at hS hS0
  have hn : 0 < neff fwhm p.platescale := by unfold neff; positivity
  have h1 : S * S / 25 - S / p.gain < 0 := by
    have : S * S / 25 - S / p.gain = S / 25 * (S - 25 / p.gain) := by field_simp
    rw [this]
    exact mul_neg_of_pos_of_neg (by positivity) (by linarith)
  have h2 := div_neg_of_neg_of_pos h1 hn
  exact mul_neg_of_neg_of_pos (by linarith) hg

/-! ## Signal to noise from the limiting magnitude -/

/-- The magnitude as ratio of fluxes, `10 ^ (0.4 (mag - m5))`. -/
theorem fluxRatio (m5 mag : ℝ) :
    fluxFromMag newZp m5 / fluxFromMag newZp mag = 10 ^ (0.4 * (mag - m5)) := by
  rw [fluxFromMag_newZp, fluxFromMag_newZp, mul_div_mul_left _ _ (by norm_num),
    ← rpow_sub (by norm_num)]
  congr 1; ring

/-- `gamma` is below 0.04, and not negative exactly if a source at the limit gives at least
25 electrons. -/
theorem gamma_range {bp : Band ℝ} (h : Usable bp) {p : Params ℝ} {a : ℝ}
    (ha : calcAdu bp p flat = some a) (ha0 : 0 < a) (hg : 0 < p.gain) (m5 : ℝ) :
    ∃ g s, calcGamma bp m5 p = some g ∧ calcAdu bp p (flatAt m5) = some s ∧ g < 0.04 ∧
      (0 ≤ g ↔ 25 ≤ s * p.gain) := by
  have hS : 0 < a * 10 ^ (-0.4 * m5) := by positivity
  refine ⟨0.04 - 1 / (a * 10 ^ (-0.4 * m5) * p.gain), _, ?_, flatAt_adu h.wf p ha m5, ?_⟩
  · unfold calcGamma
    rw [scaledTo_flat h]
    dsimp only
    rw [flatAt_adu h.wf p ha, Option.map_some]
  · have hp : 0 < a * 10 ^ (-0.4 * m5) * p.gain := mul_pos hS hg
    have : 0 < 1 / (a * 10 ^ (-0.4 * m5) * p.gain) := by positivity
    refine ⟨by linarith, ?_⟩
    rw [sub_nonneg, div_le_iff₀ hp]
    constructor <;> intro h <;> linarith

/-- At the limiting magnitude the ratio is five, for every `gamma`. -/
theorem snrM5_limit (gamma m5 : ℝ) : snrM5 gamma m5 m5 = some 5 := by
  have hx : fluxFromMag newZp m5 / fluxFromMag newZp m5 = 1 := by rw [fluxRatio]; simp
  unfold snrM5 noiseOverSignalSq
  rw [hx]
  dsimp only
  have : (0.04 - gamma) * 1 + gamma * 1 * 1 = (1 / 5) ^ 2 := by ring
  rw [this, if_neg (by norm_num), sqrt_sq (by norm_num)]
  norm_num

theorem noise_pos {gamma x : ℝ} (h0 : 0 ≤ gamma) (h1 : gamma ≤ 0.04) (hx : 0 < x) :
    0 < noiseOverSignalSq gamma x := by
  unfold noiseOverSignalSq
  rcases eq_or_lt_of_le h0 with h | h
  · rw [← h]; nlinarith
  · have : 0 ≤ (0.04 - gamma) * x := mul_nonneg (by linarith) hx.le
    have : 0 < gamma * x * x := by positivity
    linarith

theorem noise_lt {gamma x y : ℝ} (h0 : 0 ≤ gamma) (h1 : gamma ≤ 0.04) (hx : 0 < x) (hxy : x < y) :
    noiseOverSignalSq gamma x < noiseOverSignalSq gamma y := by
  unfold noiseOverSignalSq
  have e : (0.04 - gamma) * y + gamma * y * y - ((0.04 - gamma) * x + gamma * x * x) =
      (y - x) * ((0.04 - gamma) + gamma * (x + y)) := by ring
  have : 0 < (y - x) * ((0.04 - gamma) + gamma * (x + y)) := by
    refine mul_pos (by linarith) ?_
    rcases eq_or_lt_of_le h0 with h | h
    · rw [← h]; norm_num
    · have : 0 < gamma * (x + y) := mul_pos h (by linarith)
      linarith
  linarith

/-- For `gamma` from 0 to 0.04 every magnitude has a ratio, and fainter sources have smaller
ones. -/
theorem snrM5_decreasing {gamma : ℝ} (h0 : 0 ≤ gamma) (h1 : gamma ≤ 0.04) (m5 : ℝ) {m m' : ℝ}
    (hm : m < m') :
    ∃ r r', snrM5 gamma m5 m = some r ∧ snrM5 gamma m5 m' = some r' ∧ 0 < r' ∧ r' < r := by
  unfold snrM5
  rw [fluxRatio, fluxRatio]
  have hx : (0 : ℝ) < 10 ^ (0.4 * (m - m5)) := by positivity
  have hxy : (10 : ℝ) ^ (0.4 * (m - m5)) < 10 ^ (0.4 * (m' - m5)) :=
    rpow_lt_rpow_of_exponent_lt (by norm_num) (by linarith)
  have n1 := noise_pos h0 h1 hx
  have n2 := noise_pos h0 h1 (hx.trans hxy)
  dsimp only
  rw [if_neg (not_lt.mpr n1.le), if_neg (not_lt.mpr n2.le)]
  refine ⟨_, _, rfl, rfl, by positivity, ?_⟩
  exact one_div_lt_one_div_of_lt (sqrt_pos.mpr n1) (sqrt_lt_sqrt n1.le (noise_lt h0 h1 hx hxy))

/-- For negative `gamma`, sources that are faint enough have none: the root of a negative
number is taken. -/
theorem snrM5_negative {gamma : ℝ} (h : gamma < 0) (m5 m : ℝ)
    (hm : m5 + 2.5 * logb 10 ((0.04 - gamma) / -gamma) < m) : snrM5 gamma m5 m = none := by
  unfold snrM5
  rw [fluxRatio]
  have hpos : 0 < (0.04 - gamma) / -gamma := div_pos (by linarith) (by linarith)
  have hx : (0.04 - gamma) / -gamma < 10 ^ (0.4 * (m - m5)) := by
    rw [← ten_rpow_logb hpos]
    refine rpow_lt_rpow_of_exponent_lt (by norm_num) ?_
    linarith
  dsimp only
  rw [if_pos]
  generalize (10 : ℝ) ^ (0.4 * (m - m5)) = x at hx
  rw [div_lt_iff₀ (by linarith)] at hx
  have hx0 : 0 < x := by
    by_contra hc
    push Not at hc
    nlinarith
  unfold noiseOverSignalSq
  have : (0.04 - gamma) * x + gamma * x * x = x * ((0.04 - gamma) + gamma * x) := by ring
  rw [this]
  exact mul_neg_of_pos_of_neg hx0 (by linarith)

/-- The two ways to get the signal to noise ratio agree: if a source at `m5` has a ratio of five
from the counts, then `calc_snr_m5` without `gamma` gives for every magnitude what
`calc_snr_sed` gives for a flat source. -/
theorem snr_agree {sky : Spec ℝ} {total hardware : Band ℝ} {p : Params ℝ} {fwhm a v : ℝ}
    (h : Setting sky total hardware p fwhm a v) {m5 : ℝ}
    (h5 : calcSnrSed (flatAt m5) total sky hardware p fwhm = some 5) (mag : ℝ) :
    calcSnrM5 mag total m5 p none = calcSnrSed (flatAt mag) total sky hardware p fwhm := by
  unfold calcSnrSed at h5 ⊢
  rw [flatAt_adu h.usable.wf p h.adu, h.noise] at h5 ⊢
  dsimp only at h5 ⊢
  unfold calcSnrM5 calcGamma
  rw [scaledTo_flat h.usable]
  dsimp only
  rw [flatAt_adu h.usable.wf p h.adu, Option.map_some]
  dsimp only
  have hg := h.gain
  have hv := h.nonneg
  have hS5 : 0 < a * 10 ^ (-0.4 * m5) := mul_pos h.pos (by positivity)
  have hS : 0 < a * 10 ^ (-0.4 * mag) := mul_pos h.pos (by positivity)
  rw [Option.some.injEq, snr_eq_iff hg hv (by norm_num) hS5] at h5
  unfold snrM5
  rw [fluxRatio]
  have hx : (10 : ℝ) ^ (0.4 * (mag - m5)) = a * 10 ^ (-0.4 * m5) / (a * 10 ^ (-0.4 * mag)) := by
    rw [mul_div_mul_left _ _ h.pos.ne', ← rpow_sub (by norm_num)]
    congr 1; ring
  rw [hx]
  generalize a * 10 ^ (-0.4 * m5) = S5 at h5 hS5
  generalize a * 10 ^ (-0.4 * mag) = S at hS
  have hn : noiseOverSignalSq (0.04 - 1 / (S5 * p.gain)) (S5 / S) =
      (S / p.gain + v) / S ^ 2 := by
    have hv' : v = S5 ^ 2 / 25 - S5 / p.gain := by linarith
    unfold noiseOverSignalSq
    rw [hv']
    field_simp
    ring
  have hpos : 0 < (S / p.gain + v) / S ^ 2 := by positivity
  dsimp only
  rw [hn, if_neg (not_lt.mpr hpos.le), sqrt_div (by positivity), sqrt_sq hS.le, one_div_div]

/-! ## Errors -/

/-- The error in magnitudes is positive, falls with the ratio and is at most
`2.5 / ln 10 / snr`. -/
theorem magErrorFromSnr_spec {snr : ℝ} (h : 0 < snr) :
    0 < magErrorFromSnr snr ∧ magErrorFromSnr snr ≤ 2.5 / log 10 / snr ∧
      ∀ snr' > snr, magErrorFromSnr snr' < magErrorFromSnr snr := by
  have hl : 0 < log 10 := log_pos (by norm_num)
  have hi : 0 < 1 / snr := by positivity
  unfold magErrorFromSnr
  refine ⟨?_, ?_, fun s hs => ?_⟩
  · have := logb_pos (b := 10) (x := 1 + 1 / snr) (by norm_num) (by linarith)
    linarith
  · unfold logb
    have := log_le_sub_one_of_pos (x := 1 + 1 / snr) (by linarith)
    have h2 : log (1 + 1 / snr) / log 10 ≤ 1 / snr / log 10 :=
      div_le_div_of_nonneg_right (by linarith) hl.le
    calc 2.5 * (log (1 + 1 / snr) / log 10) ≤ 2.5 * (1 / snr / log 10) := by linarith
      _ = 2.5 / log 10 / snr := by field_simp
  · have h1 : 1 / s < 1 / snr := one_div_lt_one_div_of_lt h hs
    have h0 : 0 < 1 / s := by have : 0 < s := h.trans hs; positivity
    have := logb_lt_logb (b := 10) (x := 1 + 1 / s) (y := 1 + 1 / snr) (by norm_num)
      (by linarith) (by linarith)
    linarith

/-- It is the shift in magnitude of a source by one sigma of its flux. -/
theorem magErrorFromSnr_shift {snr : ℝ} (h : 0 < snr) (zp : ℝ) {flux : ℝ} (hf : 0 < flux) :
    magFromFlux zp flux - magFromFlux zp (flux + flux / snr) = magErrorFromSnr snr := by
  have : flux + flux / snr = flux * (1 + 1 / snr) := by ring
  rw [this, magFromFlux_mul zp hf (by positivity)]
  unfold magErrorFromSnr
  ring

/-- The total error is at least each of its two parts, and falls with the ratio. -/
theorem magError_spec {sys snr : ℝ} (hs : 0 ≤ sys) (h : 0 < snr) :
    sys ≤ magError sys snr ∧ magErrorFromSnr snr ≤ magError sys snr ∧
      magError sys snr ≤ magErrorFromSnr snr + sys ∧
      ∀ snr' > snr, magError sys snr' < magError sys snr := by
  obtain ⟨h1, -, h3⟩ := magErrorFromSnr_spec h
  unfold magError
  refine ⟨le_sqrt_of_sq_le (by nlinarith), le_sqrt_of_sq_le (by nlinarith), ?_, fun s hs' => ?_⟩
  · rw [sqrt_le_left (by linarith)]
    nlinarith
  · have h4 := h3 s hs'
    have h5 := (magErrorFromSnr_spec (h.trans hs')).1
    refine sqrt_lt_sqrt (by positivity) ?_
    nlinarith

/-- Both methods for the error in magnitudes give at least the systematic error. -/
theorem magError_floor {p : Params ℝ} {e : ℝ} :
    (∀ mag bp m5 gamma, calcMagErrorM5 mag bp m5 p gamma = some e → p.sigmaSys ≤ e) ∧
    (∀ source total sky hardware fwhm,
      calcMagErrorSed source total sky hardware p fwhm = some e → p.sigmaSys ≤ e) := by
  have key : ∀ snr, p.sigmaSys ≤ magError p.sigmaSys snr := fun snr =>
    le_sqrt_of_sq_le (by nlinarith [sq_nonneg (magErrorFromSnr snr)])
  constructor
  · intro mag bp m5 gamma h
    unfold calcMagErrorM5 at h
    obtain ⟨snr, -, rfl⟩ := Option.map_eq_some_iff.mp h
    exact key snr
  · intro source total sky hardware fwhm h
    unfold calcMagErrorSed at h
    obtain ⟨snr, -, rfl⟩ := Option.map_eq_some_iff.mp h
    exact key snr

/-- The astrometric error at the limiting magnitude is a fifth of the seeing and the floor in
quadrature. -/
theorem astrometric_limit (m5 fwhm floor : ℝ) :
    astrometricError m5 m5 fwhm 1 floor = √(floor ^ 2 + (200 * fwhm) ^ 2) := by
  unfold astrometricError noiseOverSignalSq
  dsimp only
  have : √((0.04 - 0.039) * (10 : ℝ) ^ (0.4 * (m5 - m5)) +
      0.039 * (10 : ℝ) ^ (0.4 * (m5 - m5)) * (10 : ℝ) ^ (0.4 * (m5 - m5))) = 1 / 5 := by
    rw [sub_self, mul_zero, rpow_zero, show (0.04 - 0.039) * (1 : ℝ) + 0.039 * 1 * 1 = (1 / 5) ^ 2 by
      norm_num, sqrt_sq (by norm_num)]
  rw [this, sqrt_one]
  congr 1; ring

/-- It is not below the floor, grows with the magnitude, and the part above the floor goes
down with the square root of the number of visits. -/
theorem astrometric_spec {mag m5 fwhm n floor : ℝ} (hf : 0 < fwhm) (hn : 0 < n) (h0 : 0 ≤ floor) :
    floor < astrometricError mag m5 fwhm n floor ∧
    (∀ mag' > mag, astrometricError mag m5 fwhm n floor < astrometricError mag' m5 fwhm n floor) ∧
    astrometricError mag m5 fwhm n floor ^ 2 - floor ^ 2 =
      (astrometricError mag m5 fwhm 1 floor ^ 2 - floor ^ 2) / n := by
  have hr : ∀ m, 0 < noiseOverSignalSq 0.039 ((10 : ℝ) ^ (0.4 * (m - m5))) := fun m =>
    noise_pos (by norm_num) (by norm_num) (by positivity)
  have hsn := sqrt_pos.mpr hn
  have hsr := fun m => sqrt_pos.mpr (hr m)
  unfold astrometricError
  dsimp only
  refine ⟨?_, fun mag' hm => ?_, ?_⟩
  · have : 0 < fwhm * 1000 * √(noiseOverSignalSq 0.039 (10 ^ (0.4 * (mag - m5)))) / √n := by
      have := hsr mag
      positivity
    refine lt_sqrt h0 |>.mpr ?_
    nlinarith
  · have h1 : √(noiseOverSignalSq 0.039 (10 ^ (0.4 * (mag - m5)))) <
        √(noiseOverSignalSq 0.039 (10 ^ (0.4 * (mag' - m5)))) :=
      sqrt_lt_sqrt (hr mag).le (noise_lt (by norm_num) (by norm_num) (by positivity)
        (rpow_lt_rpow_of_exponent_lt (by norm_num) (by linarith)))
    have h2 : fwhm * 1000 * √(noiseOverSignalSq 0.039 (10 ^ (0.4 * (mag - m5)))) / √n <
        fwhm * 1000 * √(noiseOverSignalSq 0.039 (10 ^ (0.4 * (mag' - m5)))) / √n :=
      div_lt_div_of_pos_right (mul_lt_mul_of_pos_left h1 (by positivity)) hsn
    have h3 : 0 < fwhm * 1000 * √(noiseOverSignalSq 0.039 (10 ^ (0.4 * (mag - m5)))) / √n := by
      have := hsr mag
      positivity
    refine sqrt_lt_sqrt (by positivity) ?_
    nlinarith
  · rw [sq_sqrt (by positivity), sq_sqrt (by positivity), sqrt_one, div_mul_div_comm,
      mul_self_sqrt hn.le]
    ring

/-! ## Zeropoints -/

/-- A flat source of magnitude `m` gives `10 ^ (-0.4 (m - zp))` counts in the visit. -/
theorem zp_counts {bp : Band ℝ} (h : Usable bp) {p : Params ℝ} {a : ℝ}
    (ha : calcAdu bp p flat = some a) {zp : ℝ} (hz : calcZpT bp p = some zp)
    (mag : ℝ) : calcAdu bp p (flatAt mag) = some (10 ^ (-0.4 * (mag - zp))) := by
  unfold calcZpT at hz
  rw [ha] at hz
  obtain ⟨-, h2⟩ := flat_scale_mag h hz
  rw [flatAt_adu h.wf p ha]
  congr 1
  have h3 : a = 10 ^ (0.4 * zp) := by
    have : (10 : ℝ) ^ (0.4 * zp) = ((10 : ℝ) ^ (-0.4 * zp))⁻¹ := by
      rw [← rpow_neg (by norm_num)]
      congr 1; ring
    rw [this, ← h2, one_div, inv_inv]
  rw [h3, ← rpow_add (by norm_num)]
  congr 1; ring

/-- The claim that the zeropoint is the magnitude of a source of one count per second fails
unless the visit takes a second: it gives one count in the whole visit. -/
theorem zp_false {bp : Band ℝ} (h : Usable bp) {p : Params ℝ} {a : ℝ}
    (ha : calcAdu bp p flat = some a) {zp : ℝ} (hz : calcZpT bp p = some zp)
    (ht : p.exptime * p.nexp ≠ 1) :
    calcAdu bp p (flatAt zp) ≠ some (1 * (p.exptime * p.nexp)) := by
  rw [zp_counts h ha hz, sub_self, mul_zero, rpow_zero, one_mul]
  intro hc
  exact ht (Option.some.inj hc).symm

/-- It holds if the visit takes a second. -/
theorem zp_partial {bp : Band ℝ} (h : Usable bp) {p : Params ℝ} {a : ℝ}
    (ha : calcAdu bp p flat = some a) {zp : ℝ} (hz : calcZpT bp p = some zp)
    (ht : p.exptime * p.nexp = 1) :
    calcAdu bp p (flatAt zp) = some (1 * (p.exptime * p.nexp)) := by
  rw [zp_counts h ha hz, sub_self, mul_zero, rpow_zero, one_mul, ht]

/-- A longer exposure raises the zeropoint by `2.5 log10` of the factor. -/
theorem zp_exptime {bp : Band ℝ} (h : Usable bp) {p : Params ℝ} {a : ℝ}
    (ha : calcAdu bp p flat = some a) {zp zp' k : ℝ} (hk : 0 < k)
    (hz : calcZpT bp p = some zp) (hz' : calcZpT bp { p with exptime := k * p.exptime } = some zp') :
    zp' = zp + 2.5 * logb 10 k := by
  have ha' : calcAdu bp { p with exptime := k * p.exptime } flat = some (k * a) := by
    rw [calcAdu_exptime, ha, Option.map_some]
  have h1 := zp_counts h ha hz 0
  have h2 := zp_counts h ha' hz' 0
  rw [calcAdu_exptime, h1, Option.map_some] at h2
  have h2 := congrArg (logb 10) (Option.some.inj h2)
  rw [logb_mul hk.ne' (by positivity), logb_rpow (by norm_num) (by norm_num),
    logb_rpow (by norm_num) (by norm_num)] at h2
  linarith

/-- Predicted zeropoints fall with airmass for a negative coefficient, as those in use, and
counts are proportional to the exposure time. -/
theorem predictedZp_spec (zp k x t : ℝ) (ht : 0 < t) :
    (k < 0 → ∀ x' > x, predictedZp zp k x' t < predictedZp zp k x t) ∧
    (∀ mag c, 0 < c → (10 : ℝ) ^ ((predictedZp zp k x (c * t) - mag) / 2.5) =
      c * 10 ^ ((predictedZp zp k x t - mag) / 2.5)) ∧
    predictedZp zp k 1 1 = zp := by
  unfold predictedZp
  refine ⟨fun hk x' hx => by nlinarith, fun mag c hc => ?_, by simp⟩
  rw [logb_mul hc.ne' ht.ne']
  have : (zp + k * (x - 1) + 2.5 * (logb 10 c + logb 10 t) - mag) / 2.5 =
      logb 10 c + (zp + k * (x - 1) + 2.5 * logb 10 t - mag) / 2.5 := by ring
  rw [this, rpow_add (by norm_num), ten_rpow_logb hc]

theorem extinctionCoeff_neg : ∀ k ∈ extinctionCoeff, k < 0 := by
  unfold extinctionCoeff
  simp only [List.mem_cons, List.not_mem_nil, or_false, forall_eq_or_imp, forall_eq]
  norm_num

end Verif.Snr
