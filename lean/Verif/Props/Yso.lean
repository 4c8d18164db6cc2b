import Mathlib.Analysis.SpecialFunctions.Gamma.Basic
import Mathlib.Tactic.Linarith
import Mathlib.Tactic.Ring
import Mathlib.Tactic.FieldSimp
import Mathlib.Tactic.Positivity
import Mathlib.Tactic.NormNum
import Mathlib.MeasureTheory.Integral.IntervalIntegral.Basic
import Mathlib.Analysis.Real.Pi.Bounds
import Verif.Props.RealMetrics
import Verif.Props.Maps
import Verif.Model.Yso

/-!
# Properties of the counts of young stars (C337–C339)
-/

namespace Verif.Yso

open Real

theorem A_pos : 0 < A := by
  unfold A
  positivity

/-! ## The density -/

/-- **C337.** There is no negative density, and none only at the Sun. -/
theorem density_pos (l b r : ℝ) : 0 ≤ density l b r ∧ (density l b r = 0 ↔ r = 0) := by
  have := A_pos
  unfold density
  refine ⟨by positivity, ?_⟩
  constructor
  · intro h
    simpa [this.ne', (exp_pos _).ne'] using h
  · rintro rfl
    simp

example : 0 < density 1 1 2 := lt_of_le_of_ne (density_pos 1 1 2).1 (fun h => by
  have := (density_pos 1 1 2).2.mp h.symm
  norm_num at this)

/-- **C337.** It is symmetric about the plane and about the line to the centre of the galaxy. -/
theorem density_sym (l b r : ℝ) : density (-l) b r = density l b r ∧ density l (-b) r = density l b r := by
  unfold density rGalac
  simp

/-- **C337.** At a distance and a longitude it falls with the height above the plane. -/
theorem density_latitude (l b b' r : ℝ) (hr : 0 < r) (h : |sin b| < |sin b'|) : density l b' r < density l b r := by
  have := A_pos
  unfold density
  refine mul_lt_mul_of_pos_left (exp_lt_exp.mpr ?_) (by positivity)
  have : r * |sin b| < r * |sin b'| := mul_lt_mul_of_pos_left h hr
  have h3 : -1 * r * |sin b'| / 0.3 < -1 * r * |sin b| / 0.3 := by
    apply div_lt_div_of_pos_right _ (by norm_num)
    linarith
  linarith

/-- **C337.** Of two directions of a latitude, at the same distance the one nearer to the centre of the galaxy has more. -/
theorem density_longitude (l l' b r : ℝ) (hr : 0 < r) (h : cos l' < cos l) : density l' b r < density l b r := by
  have := A_pos
  unfold density
  refine mul_lt_mul_of_pos_left (exp_lt_exp.mpr ?_) (by positivity)
  have e : ∀ x : ℝ, (8.178 - r * cos x) ^ 2 + (r * sin x) ^ 2 = 8.178 ^ 2 + r ^ 2 - 2 * 8.178 * r * cos x := by
    intro x
    have := sin_sq_add_cos_sq x
    linear_combination r ^ 2 * this
  have h2 : rGalac l r < rGalac l' r := by
    unfold rGalac
    refine sqrt_lt_sqrt (by positivity) ?_
    rw [e, e]
    have : r * cos l' < r * cos l := mul_lt_mul_of_pos_left h hr
    linarith
  have h3 : rGalac l r / 2.6 < rGalac l' r / 2.6 := div_lt_div_of_pos_right h2 (by norm_num)
  linarith

/-- That the density is one of a direction: where all longitudes are the same direction, at the pole, they have the same density. -/
def PoleSame : Prop := ∀ l l' r, 0 < r → density l (π / 2) r = density l' (π / 2) r

/-- **C337.** It is not: the distance from the axis of the galaxy is computed as if the star were in the plane. -/
theorem pole_false : ¬ PoleSame := by
  intro h
  have := density_longitude 0 π (π / 2) 1 one_pos (by simp)
  exact absurd (h 0 π 1 one_pos) this.ne'

/-- **C337.** The distance from the axis: it is that of the star if the latitude is zero. -/
theorem rGalac_partial (l b r : ℝ) (hb : cos b = 1) :
    rGalac l r = √((8.178 - r * cos b * cos l) ^ 2 + (r * cos b * sin l) ^ 2) := by
  unfold rGalac
  rw [hb, mul_one]

/-! ## The count -/

theorem density_cont (l b : ℝ) : Continuous (density l b) := by
  unfold density rGalac
  fun_prop

theorem density_int (l b a c : ℝ) : IntervalIntegrable (density l b) MeasureTheory.volume a c :=
  (density_cont l b).intervalIntegrable a c

/-- **C338.** A larger distance has more stars, and no distance none. -/
theorem count_mono (l b area d d' : ℝ) (ha : 0 < area) (hd : 0 ≤ d) (h : d < d') :
    count l b area 0 = 0 ∧ count l b area d < count l b area d' := by
  refine ⟨by simp [count], ?_⟩
  unfold count
  refine mul_lt_mul_of_pos_right ?_ ha
  rw [← intervalIntegral.integral_add_adjacent_intervals (density_int l b 0 d) (density_int l b d d')]
  have : 0 < ∫ r in d..d', density l b r := by
    refine intervalIntegral.intervalIntegral_pos_of_pos_on (density_int l b d d') ?_ h
    intro x hx
    refine lt_of_le_of_ne (density_pos l b x).1 (fun e => ?_)
    have := (density_pos l b x).2.mp e.symm
    have := hx.1
    linarith
  linarith

/-- **C338.** The count is in proportion to the area, and no more than if the density were everywhere the largest of the disc. -/
theorem count_bound (l b area d : ℝ) (ha : 0 ≤ area) (hd : 0 ≤ d) :
    count l b area d = area * count l b 1 d ∧ count l b area d ≤ area * (A * d ^ 3 / 3) := by
  have h0 := A_pos
  have e : count l b area d = area * count l b 1 d := by
    unfold count
    ring
  refine ⟨e, ?_⟩
  rw [e]
  refine mul_le_mul_of_nonneg_left ?_ ha
  unfold count
  rw [mul_one]
  have : ∫ r in (0:ℝ)..d, density l b r ≤ ∫ r in (0:ℝ)..d, A * r ^ 2 := by
    refine intervalIntegral.integral_mono_on hd (density_int l b 0 d) (by apply Continuous.intervalIntegrable; fun_prop) ?_
    intro r hr
    unfold density
    refine mul_le_of_le_one_right (by positivity) ?_
    refine exp_le_one_iff.mpr ?_
    have h1 : 0 ≤ rGalac l r := sqrt_nonneg _
    have h2 : 0 ≤ r * |sin b| := mul_nonneg hr.1 (abs_nonneg _)
    have h3 : 0 ≤ rGalac l r / 2.6 := by positivity
    have h4 : 0 ≤ r * |sin b| / 0.3 := by positivity
    have : -1 * r * |sin b| / 0.3 = - (r * |sin b| / 0.3) := by ring
    linarith
  refine this.trans (le_of_eq ?_)
  rw [intervalIntegral.integral_const_mul, integral_pow]
  norm_num
  ring

/-- **C338.** Two parts of the sky with the same density make the count of both. -/
theorem count_add (l b area area' d : ℝ) : count l b (area + area') d = count l b area d + count l b area' d := by
  unfold count
  ring

/-- **C338.** Beyond the limit of latitude the value is `badval`; at it and below, never refused for it. -/
theorem run_outside (pix : ℕ → ℝ) (limit badval : ℝ) (rd : Bool) (p : Point) (dists : List ℝ) (h : limit * π / 180 < |p.galb|) :
    run pix limit badval rd p dists = some badval := by
  unfold run
  rw [if_pos h]

/-- **C338.** Within, it is the count out to the least distance. -/
theorem run_inside (pix : ℕ → ℝ) (limit badval : ℝ) (p : Point) (dists : List ℝ) (d : ℝ) (h : |p.galb| ≤ limit * π / 180)
    (hd : d ∈ dists) (hmin : ∀ e ∈ dists, d ≤ e) :
    run pix limit badval true p dists = some (d / 1000) ∧
    run pix limit badval false p dists = some (count p.gall p.galb (skyArea pix p.nside) (d / 1000)) := by
  have e : dists.min? = some d := List.min?_eq_some_iff.mpr ⟨hd, hmin⟩
  unfold run final
  rw [if_neg (not_lt.mpr h), if_neg (not_lt.mpr h), e]
  norm_num

/-- The documentation: zero beyond the limit, whatever stands for a value that cannot be computed. -/
def OutsideZero : Prop := ∀ (pix : ℕ → ℝ) (limit badval : ℝ) (p : Point) (dists : List ℝ),
  limit * π / 180 < |p.galb| → run pix limit badval false p dists = some 0

/-- **C338.** Not if `badval` is another. -/
theorem outside_false : ¬ OutsideZero := by
  intro h
  have h1 := h (fun _ => 1) 0 (-666) ⟨0, 1, none⟩ [1] (by norm_num)
  rw [run_outside _ _ _ _ _ _ (by norm_num)] at h1
  norm_num at h1

example : run (fun _ => 1) 90 0 true ⟨0, 1, none⟩ [3000, 2000, 5000] = some 2 := by
  have := (run_inside (fun _ => 1) 90 0 ⟨0, 1, none⟩ [3000, 2000, 5000] 2000 (by
    have := Real.pi_gt_three
    simp only [abs_one]
    linarith) (by simp) (by simp; norm_num)).1
  rw [this]
  norm_num

/-! ## The distance -/

/-- The signal to noise of a source of a magnitude in images of a five-sigma depth, by the definition of the depth. -/
noncomputable def snrOf (m m5 : ℝ) : ℝ := 5 * 10 ^ (-0.4 * (m - m5))

/-- The magnitude of a star of absolute magnitude `M` at `d` pc behind an extinction. -/
noncomputable def magAt (M ext d : ℝ) : ℝ := M + (5 * logb 10 d - 5) + ext

theorem dist2_eq (b : Band) (ebv m : ℝ) : dist2 b ebv (m : ℝ) = 10 ^ (0.2 * (m - b.rx * ebv - b.mag) + 1) := by
  show 10 * ((100 : ℝ) ^ ((m - b.rx * ebv - b.mag) / 5)) ^ (0.5 : ℝ) = _
  rw [← rpow_mul (by norm_num), show (100 : ℝ) = 10 ^ (2 : ℝ) by norm_num, ← rpow_mul (by norm_num), rpow_add (by norm_num), rpow_one, mul_comm]
  congr 2
  ring

/-- **C339.** With the extinction of the whole line of sight, the distance in a filter is that up to which a star is as bright as asked for: exactly the stars up to
it have the signal to noise. -/
theorem dist2_spec (b : Band) (ebv m5 d : ℝ) (hs : 0 < b.snr) (hd : 0 < d) :
    d ≤ dist2 b ebv (appMag b (m5 : ℝ)) ↔ b.snr ≤ snrOf (magAt b.mag (b.rx * ebv) d) m5 := by
  have e : appMag b (m5 : ℝ) = ((-2.5 * logb 10 (b.snr / 5) + m5 : ℝ) : WithBot ℝ) := rfl
  rw [e, dist2_eq]
  have h1 : d ≤ (10:ℝ) ^ (0.2 * (-2.5 * logb 10 (b.snr / 5) + m5 - b.rx * ebv - b.mag) + 1) ↔
      logb 10 d ≤ 0.2 * (-2.5 * logb 10 (b.snr / 5) + m5 - b.rx * ebv - b.mag) + 1 := (logb_le_iff_le_rpow (by norm_num) hd).symm
  have h2 : b.snr ≤ snrOf (magAt b.mag (b.rx * ebv) d) m5 ↔ logb 10 (b.snr / 5) ≤ -0.4 * (magAt b.mag (b.rx * ebv) d - m5) := by
    unfold snrOf
    rw [logb_le_iff_le_rpow (by norm_num) (by positivity), div_le_iff₀' (by norm_num)]
  rw [h1, h2]
  unfold magAt
  constructor <;> intro h <;> linarith

/-- **C339.** Of a filter without visits, it is zero. -/
theorem dist2_empty (b : Band) (ebv ce crowd : ℝ) : dist2 b ebv (appMag b (depth ce crowd [])) = 0 := by
  have : depth ce crowd [] = ⊥ := by
    unfold depth coadded
    simp
  rw [this]
  show 10 * (0 : ℝ) ^ (0.5 : ℝ) = 0
  rw [zero_rpow (by norm_num)]
  norm_num

/-- The depth that counts in a filter with visits. -/
noncomputable def effective (ce crowd : ℝ) (m5s : List ℝ) : ℝ :=
  if 0 < ce then min (1.25 * logb 10 ((m5s.map (fun m => (10 : ℝ) ^ (0.8 * m))).sum)) crowd
  else 1.25 * logb 10 ((m5s.map (fun m => (10 : ℝ) ^ (0.8 * m))).sum)

theorem depth_eq (ce crowd : ℝ) (m5s : List ℝ) (h : m5s ≠ []) : depth ce crowd m5s = (effective ce crowd m5s : ℝ) := by
  unfold depth coadded effective
  rw [if_neg h]
  unfold RealMetrics.coadd
  split_ifs
  · rw [WithBot.coe_min]
  · rfl

/-- **C339.** The distance returned: if every filter has visits, exactly the stars up to it have the signal to noise asked for in all filters. -/
theorem distance_spec (pix : ℕ → ℝ) (limit badval ce ebv d : ℝ) (p : Point) (bs : List (Band × ℝ × List ℝ)) (hb : |p.galb| ≤ limit * π / 180)
    (hne : bs ≠ []) (hs : ∀ x ∈ bs, 0 < x.1.snr ∧ x.2.2 ≠ []) (hd : 0 < d) :
    ∃ f, run pix limit badval true p (dists2 ce ebv bs) = some f ∧
      (d / 1000 ≤ f ↔ ∀ x ∈ bs, x.1.snr ≤ snrOf (magAt x.1.mag (x.1.rx * ebv) d) (effective ce x.2.1 x.2.2)) := by
  have hne' : dists2 ce ebv bs ≠ [] := by simpa [dists2] using hne
  obtain ⟨m, hm⟩ : ∃ m, (dists2 ce ebv bs).min? = some m := by
    cases h : (dists2 ce ebv bs).min? with
    | none => exact absurd (List.min?_eq_none_iff.mp h) hne'
    | some m => exact ⟨m, rfl⟩
  obtain ⟨hmem, hmin⟩ := List.min?_eq_some_iff.mp hm
  refine ⟨m / 1000, (run_inside pix limit badval p _ m hb hmem hmin).1, ?_⟩
  rw [div_le_div_iff_of_pos_right (by norm_num)]
  have key : ∀ x ∈ bs, (d ≤ dist2 x.1 ebv (appMag x.1 (depth ce x.2.1 x.2.2)) ↔
      x.1.snr ≤ snrOf (magAt x.1.mag (x.1.rx * ebv) d) (effective ce x.2.1 x.2.2)) := by
    intro x hx
    rw [depth_eq _ _ _ (hs x hx).2]
    exact dist2_spec _ _ _ _ (hs x hx).1 hd
  constructor
  · intro h x hx
    exact (key x hx).mp (h.trans (hmin _ (List.mem_map.mpr ⟨x, hx, rfl⟩)))
  · intro h
    obtain ⟨x, hx, e⟩ := List.mem_map.mp hmem
    rw [← e]
    exact (key x hx).mpr (h x hx)

/-- **C339.** If a filter has no visits, the distance and the count are zero. -/
theorem unobserved_zero (pix : ℕ → ℝ) (limit badval ce ebv : ℝ) (p : Point) (bs : List (Band × ℝ × List ℝ)) (hb : |p.galb| ≤ limit * π / 180)
    (x : Band × ℝ × List ℝ) (hx : x ∈ bs) (he : x.2.2 = []) :
    run pix limit badval true p (dists2 ce ebv bs) = some 0 ∧ run pix limit badval false p (dists2 ce ebv bs) = some 0 := by
  have h0 : (0 : ℝ) ∈ dists2 ce ebv bs := by
    refine List.mem_map.mpr ⟨x, hx, ?_⟩
    rw [he]
    exact dist2_empty _ _ _ _
  have hmin : ∀ e ∈ dists2 ce ebv bs, (0 : ℝ) ≤ e := by
    intro e h
    obtain ⟨y, _, rfl⟩ := List.mem_map.mp h
    cases appMag y.1 (depth ce y.2.1 y.2.2) with
    | bot =>
      show 0 ≤ 10 * (0 : ℝ) ^ (0.5 : ℝ)
      positivity
    | coe m =>
      rw [dist2_eq]
      positivity
  have := run_inside pix limit badval p _ 0 hb h0 hmin
  rw [this.1, this.2]
  simp [count]

/-- That the extinction in three dimensions does so too. -/
def UnobservedZero3 : Prop := ∀ (b : Band) (ce crowd : ℝ) (l : List (ℝ × ℝ)), (∀ p ∈ l, 0 < p.1) → l ≠ [] → dist3 b l (appMag b (depth ce crowd [])) = some 0

/-- **C339.** It gives the first distance of the map instead, so stars are counted that are not seen in the filter. -/
theorem unobserved_first (b : Band) (ce crowd : ℝ) (q : ℝ × ℝ) (l : List (ℝ × ℝ)) (hq : 0 < q.1) : dist3 b (q :: l) (appMag b (depth ce crowd [])) = some q.1 := by
  have : depth ce crowd [] = ⊥ := by
    unfold depth coadded
    simp
  rw [this]
  show some (if 0 > q.1 then 0 else q.1) = some q.1
  rw [if_neg (not_lt.mpr hq.le)]

theorem unobserved_false : ¬ UnobservedZero3 := by
  intro h
  have h1 := h ⟨0, 5, 0⟩ 0 0 [(63, 0)] (by simp) (by simp)
  rw [unobserved_first _ _ _ _ _ (by norm_num)] at h1
  norm_num at h1

/-- **C339.** More or deeper visits in a filter do not lessen the distance: the depth that counts does not fall. -/
theorem effective_mono (ce crowd m : ℝ) (m5s : List ℝ) (h : m5s ≠ []) : effective ce crowd m5s ≤ effective ce crowd (m :: m5s) := by
  have hpos : ∀ l : List ℝ, l ≠ [] → 0 < (l.map (fun m => (10 : ℝ) ^ (0.8 * m))).sum := by
    intro l hl
    refine List.sum_pos _ ?_ (by simpa using hl)
    intro x hx
    obtain ⟨y, _, rfl⟩ := List.mem_map.mp hx
    positivity
  have key : 1.25 * logb 10 ((m5s.map (fun m => (10 : ℝ) ^ (0.8 * m))).sum) ≤ 1.25 * logb 10 (((m :: m5s).map (fun m => (10 : ℝ) ^ (0.8 * m))).sum) := by
    refine mul_le_mul_of_nonneg_left ?_ (by norm_num)
    refine (logb_le_logb (by norm_num) (hpos _ h) (hpos _ (by simp))).mpr ?_
    have : (0 : ℝ) < 10 ^ (0.8 * m) := by positivity
    simp only [List.map_cons, List.sum_cons]
    linarith
  unfold effective
  split_ifs
  · exact min_le_min_right _ key
  · exact key

/-- The normalisation: a disc of the density `A exp(-|z| / 0.3 - R / 2.6)` at the height `z` and the distance `R` from the axis has
eighty million stars, the halves above and below the plane and the rings around the axis taken together. -/
theorem disc_total : A * (2 * ∫ z in Set.Ioi (0 : ℝ), exp (-(1 / 0.3 * z))) * (2 * π * ∫ R in Set.Ioi (0 : ℝ), R ^ ((2 : ℝ) - 1) * exp (-(1 / 2.6 * R))) = 80000000 := by
  have h1 : (∫ z in Set.Ioi (0 : ℝ), exp (-(1 / 0.3 * z))) = 0.3 := by
    have := Real.integral_rpow_mul_exp_neg_mul_Ioi (a := 1) (r := 1 / 0.3) one_pos (by norm_num)
    simp only [sub_self, rpow_zero, one_mul, Real.Gamma_one, mul_one, rpow_one] at this
    rw [this]
    norm_num
  have h2 : (∫ R in Set.Ioi (0 : ℝ), R ^ ((2 : ℝ) - 1) * exp (-(1 / 2.6 * R))) = 2.6 ^ 2 := by
    have := Real.integral_rpow_mul_exp_neg_mul_Ioi (a := 2) (r := 1 / 2.6) two_pos (by norm_num)
    have hg : Real.Gamma 2 = 1 := by norm_num
    rw [this, hg]
    norm_num
  rw [h1, h2]
  unfold A
  have := Real.pi_pos.ne'
  field_simp
  norm_num

/-- The area of a slice point without a resolution is that of a field with a diameter of 3.5 degrees. -/
theorem skyArea_field (pix : ℕ → ℝ) : 4 * skyArea pix none = π * (3.5 * (π / 180)) ^ 2 := by
  unfold skyArea
  ring

end Verif.Yso
