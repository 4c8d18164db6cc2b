import Mathlib.Tactic.Linarith
import Mathlib.Tactic.Ring
import Mathlib.Tactic.FieldSimp
import Mathlib.Tactic.Positivity
import Mathlib.Tactic.NormNum
import Mathlib.Analysis.Complex.ExponentialBounds
import Verif.Model.Xrb

/-!
# Properties of the outbursts of X-ray binaries (C332–C336)
-/

namespace Verif.Xrb

open Real

/-! ## The light curve -/

theorem fred_eq (t amp rise decay : ℝ) (hr : 0 < rise) (hd : 0 < decay) (ht : 0 < t) :
    fred t amp rise decay = amp * exp (-((sqrt (rise * decay) - t) ^ 2 / (t * decay))) := by
  unfold fred
  rw [mul_assoc, ← exp_add]
  congr 2
  have e1 : sqrt (rise / decay) = sqrt (rise * decay) / decay := by
    rw [show rise / decay = rise * decay / decay ^ 2 by field_simp, sqrt_div (by positivity), sqrt_sq hd.le]
  have e2 : sqrt (rise * decay) ^ 2 = rise * decay := sq_sqrt (by positivity)
  rw [e1]
  field_simp
  linear_combination e2

/-- **C332.** The outburst is brightest at the root of the product of the rise and decay times, where it has its amplitude, and only there. -/
theorem fred_peak (amp rise decay : ℝ) (ha : 0 < amp) (hr : 0 < rise) (hd : 0 < decay) :
    fred (sqrt (rise * decay)) amp rise decay = amp ∧
    ∀ t, 0 < t → t ≠ sqrt (rise * decay) → 0 < fred t amp rise decay ∧ fred t amp rise decay < amp := by
  constructor
  · rw [fred_eq _ _ _ _ hr hd (sqrt_pos.mpr (by positivity))]
    simp
  · intro t ht hne
    rw [fred_eq _ _ _ _ hr hd ht]
    have h0 : 0 < (sqrt (rise * decay) - t) ^ 2 := by
      have : sqrt (rise * decay) - t ≠ 0 := sub_ne_zero.mpr hne.symm
      positivity
    have h : 0 < (sqrt (rise * decay) - t) ^ 2 / (t * decay) := by positivity
    constructor
    · positivity
    · have : exp (-((sqrt (rise * decay) - t) ^ 2 / (t * decay))) < 1 := by
        rw [← exp_zero]
        exact exp_lt_exp.mpr (by linarith)
      nlinarith

/-- **C332.** It rises until then and decays after. -/
theorem fred_shape (amp rise decay s t : ℝ) (ha : 0 < amp) (hr : 0 < rise) (hd : 0 < decay) (hs : 0 < s) (hst : s ≤ t) :
    (t ≤ sqrt (rise * decay) → fred s amp rise decay ≤ fred t amp rise decay) ∧
    (sqrt (rise * decay) ≤ s → fred t amp rise decay ≤ fred s amp rise decay) := by
  have ht : 0 < t := hs.trans_le hst
  have hp : sqrt (rise * decay) ^ 2 = rise * decay := sq_sqrt (by positivity)
  have e : (-rise / t - t / decay) - (-rise / s - s / decay) = (t - s) * (rise * decay - s * t) / (s * t * decay) := by
    field_simp
    ring
  have hD : 0 < s * t * decay := by positivity
  have hE : 0 ≤ amp * exp (2 * sqrt (rise / decay)) := by positivity
  unfold fred
  constructor
  · intro h
    apply mul_le_mul_of_nonneg_left _ hE
    apply exp_le_exp.mpr
    have h1 : s * t ≤ rise * decay := by
      rw [← hp]
      nlinarith
    have : 0 ≤ (t - s) * (rise * decay - s * t) / (s * t * decay) := div_nonneg (mul_nonneg (by linarith) (by linarith)) hD.le
    linarith
  · intro h
    apply mul_le_mul_of_nonneg_left _ hE
    apply exp_le_exp.mpr
    have h0 := sqrt_nonneg (rise * decay)
    have h1 : rise * decay ≤ s * t := by
      rw [← hp]
      nlinarith
    have : (t - s) * (rise * decay - s * t) / (s * t * decay) ≤ 0 :=
      div_nonpos_of_nonpos_of_nonneg (mul_nonpos_of_nonneg_of_nonpos (by linarith) (by linarith)) hD.le
    linarith

theorem amplitude_eq : amplitude = 10 ^ (2.4 : ℝ) := by
  unfold amplitude
  norm_num

/-- **C332.** So every outburst peaks within its duration, six magnitudes above the absolute magnitude of its filter, and is nowhere brighter. -/
theorem lightcurve_peak (absMag rise decay : ℝ) (hr : 0 < rise) (hd : 0 < decay) (t m : ℝ)
    (hm : lightcurve absMag ⟨rise, decay, amplitude, duration rise decay amplitude⟩ t = some m) (h99 : absMag - 6 ≤ 99) :
    lightcurve absMag ⟨rise, decay, amplitude, duration rise decay amplitude⟩ (sqrt (rise * decay)) = some (absMag - 6) ∧ absMag - 6 ≤ m := by
  have ha : 0 < amplitude := by
    rw [amplitude_eq]
    positivity
  have hl : logb 10 amplitude = 2.4 := by
    rw [amplitude_eq, logb_rpow (by norm_num) (by norm_num)]
  have h1 : 1 ≤ amplitude := by
    rw [amplitude_eq]
    exact one_le_rpow (by norm_num) (by norm_num)
  obtain ⟨p1, p2⟩ := fred_peak amplitude rise decay ha hr hd
  have hp : 0 < sqrt (rise * decay) := sqrt_pos.mpr (by positivity)
  have hle : sqrt (rise * decay) ≤ duration rise decay amplitude := by
    have : sqrt (rise * decay) ≤ rise + decay := by
      rw [sqrt_le_left (by positivity)]
      nlinarith
    have := log_nonneg h1
    unfold duration
    linarith
  constructor
  · unfold lightcurve
    rw [if_pos ⟨hp.le, hle⟩, if_neg hp.ne']
    congr 1
    dsimp only
    rw [p1, hl]
    ring
  · unfold lightcurve at hm
    split_ifs at hm with c1 c2
    · have ht : 0 < t := lt_of_le_of_ne c1.1 (Ne.symm c2)
      rw [← Option.some.inj hm]
      dsimp only
      have : logb 10 (fred t amplitude rise decay) ≤ 2.4 := by
        rw [← hl]
        by_cases e : t = sqrt (rise * decay)
        · rw [e, p1]
        · obtain ⟨q1, q2⟩ := p2 t ht e
          exact logb_le_logb_of_le (by norm_num) q1 q2.le
      linarith
    · rw [← Option.some.inj hm]
      exact h99

/-- **C332.** Before the start and after the end the magnitude is 99, and at the start the outburst is infinitely faint. -/
theorem lightcurve_outside (absMag : ℝ) (p : Params) (t : ℝ) :
    (t < 0 ∨ p.duration < t → lightcurve absMag p t = some 99) ∧ (0 ≤ p.duration → lightcurve absMag p 0 = none) := by
  unfold lightcurve
  constructor
  · rintro (h | h)
    · rw [if_neg (fun hc => absurd hc.1 (not_le.mpr h))]
    · rw [if_neg (fun hc => absurd hc.2 (not_le.mpr h))]
  · intro h
    rw [if_pos ⟨le_rfl, h⟩, if_pos rfl]

/-! ## The duration -/

/-- **C333.** At the end of its duration an outburst whose rise is no longer than its decay, of two days or more, is brighter than the star by a factor of
more than the root of its amplitude over `e^(3/2)`. -/
theorem end_bright (rise decay amp : ℝ) (ha : 1 ≤ amp) (hr : 0 < rise) (hrd : rise ≤ decay) (h2 : 2 ≤ decay) :
    sqrt amp * exp (-(3 / 2)) ≤ fred (duration rise decay amp) amp rise decay := by
  have hd : 0 < decay := by linarith
  have hL := log_nonneg ha
  have ha0 : 0 < amp := by linarith
  have hD : rise + decay ≤ duration rise decay amp := by
    unfold duration
    linarith
  have hD0 : 0 < duration rise decay amp := by linarith
  have e1 : sqrt amp = exp (log amp / 2) := by
    rw [sqrt_eq_rpow, rpow_def_of_pos ha0]
    congr 1
    ring
  have e2 : amp = exp (log amp) := (exp_log ha0).symm
  unfold fred
  rw [e1, ← exp_add]
  conv_rhs => rw [e2]
  rw [← exp_add, ← exp_add]
  apply exp_le_exp.mpr
  rw [exp_log ha0]
  have hx : rise / decay ≤ 1 := (div_le_one hd).mpr hrd
  have hx0 : 0 ≤ rise / decay := by positivity
  have hs : rise / decay ≤ sqrt (rise / decay) := by
    apply le_sqrt_of_sq_le
    nlinarith
  have h3 : rise / duration rise decay amp ≤ 1 / 2 := by
    rw [div_le_div_iff₀ hD0 (by norm_num)]
    linarith
  have h4 : duration rise decay amp / decay = rise / decay + 1 + log amp / decay := by
    unfold duration
    field_simp
  have h5 : log amp / decay ≤ log amp / 2 := div_le_div_of_nonneg_left hL (by norm_num) h2
  rw [h4, neg_div]
  linarith

/-- **C333.** So outbursts do not fade to the star before they end. -/
theorem faded_false : ¬ ∀ rise decay : ℝ, 0 < rise → 0 < decay → fred (duration rise decay amplitude) amplitude rise decay ≤ 1 := by
  intro h
  have a := h 1 20 (by norm_num) (by norm_num)
  have ha : (100 : ℝ) ≤ amplitude := by
    rw [amplitude_eq]
    calc (100 : ℝ) = 10 ^ (2 : ℝ) := by
          rw [show (2 : ℝ) = ((2 : ℕ) : ℝ) by norm_num, rpow_natCast]
          norm_num
      _ ≤ 10 ^ (2.4 : ℝ) := rpow_le_rpow_of_exponent_le (by norm_num) (by norm_num)
  have b := end_bright 1 20 amplitude (by linarith) (by norm_num) (by norm_num) (by norm_num)
  have c : (10 : ℝ) ≤ sqrt amplitude := by
    apply le_sqrt_of_sq_le
    linarith
  have d : exp (3 / 2) < 10 := by
    have : exp (3 / 2 : ℝ) ^ 2 = exp 1 ^ 3 := by
      rw [← exp_nat_mul, ← exp_nat_mul]
      norm_num
    have e1 := exp_one_lt_d9
    have e0 := exp_pos (1 : ℝ)
    have : exp 1 ^ 3 < (3 : ℝ) ^ 3 := pow_lt_pow_left₀ (by linarith) e0.le (by norm_num)
    have := exp_pos (3 / 2 : ℝ)
    nlinarith
  have f : 1 < sqrt amplitude * exp (-(3 / 2)) := by
    rw [exp_neg, ← div_eq_mul_inv, lt_div_iff₀ (exp_pos _)]
    linarith
  linarith

/-! ## The time an outburst is visible -/

section
variable {K : Type} [LinearOrder K]

/-- The invariant of the loop over filters. -/
def Inv (ts : List K) (done : List (K → Bool)) (acc : Option K × Option K) : Prop :=
  (acc = (none, none) ∧ ∀ t ∈ ts, ∀ v ∈ done, v t = false) ∨
  ∃ s e, acc = (some s, some e) ∧ (s ∈ ts ∧ ∃ v ∈ done, v s = true) ∧ (e ∈ ts ∧ ∃ v ∈ done, v e = true) ∧
    ∀ t ∈ ts, (∃ v ∈ done, v t = true) → s ≤ t ∧ t ≤ e

theorem head_last (ts : List K) (hs : ts.Pairwise (· < ·)) (vis : K → Bool) :
    ((ts.filter vis).head? = none ∧ (ts.filter vis).getLast? = none ∧ ∀ t ∈ ts, vis t = false) ∨
    ∃ a b, (ts.filter vis).head? = some a ∧ (ts.filter vis).getLast? = some b ∧ (a ∈ ts ∧ vis a = true) ∧ (b ∈ ts ∧ vis b = true) ∧
      ∀ t ∈ ts, vis t = true → a ≤ t ∧ t ≤ b := by
  have hf := hs.filter vis
  have hm : ∀ t, t ∈ ts.filter vis ↔ t ∈ ts ∧ vis t = true := fun t => List.mem_filter
  generalize ts.filter vis = l at hf hm
  cases l with
  | nil =>
    left
    refine ⟨rfl, rfl, fun t ht => ?_⟩
    by_contra hc
    have := (hm t).mpr ⟨ht, by simpa using hc⟩
    cases this
  | cons a l =>
    right
    obtain ⟨b, hb⟩ : ∃ b, (a :: l).getLast? = some b := ⟨_, List.getLast?_eq_some_getLast (by simp)⟩
    refine ⟨a, b, rfl, hb, (hm a).mp (by simp), (hm b).mp (List.mem_of_getLast? hb), ?_⟩
    intro t ht hv
    have hmem := (hm t).mpr ⟨ht, hv⟩
    constructor
    · rcases List.mem_cons.mp hmem with rfl | h
      · exact le_rfl
      · exact ((List.pairwise_cons.mp hf).1 t h).le
    · obtain ⟨r, hr⟩ := List.getLast?_eq_some_iff.mp hb
      rw [hr] at hmem hf
      rcases List.mem_append.mp hmem with h | h
      · exact ((List.pairwise_append.mp hf).2.2 t h b (by simp)).le
      · rw [List.mem_singleton.mp h]

theorem inv_step (ts : List K) (hs : ts.Pairwise (· < ·)) (done : List (K → Bool)) (acc : Option K × Option K) (vis : K → Bool) (h : Inv ts done acc) :
    Inv ts (done ++ [vis]) (step ts acc vis) := by
  have ex : ∀ t, (∃ v ∈ done ++ [vis], v t = true) ↔ (∃ v ∈ done, v t = true) ∨ vis t = true := by
    intro t
    simp only [List.mem_append, List.mem_singleton]
    constructor
    · rintro ⟨v, hv | rfl, h⟩
      · exact Or.inl ⟨v, hv, h⟩
      · exact Or.inr h
    · rintro (⟨v, hv, h⟩ | h)
      · exact ⟨v, Or.inl hv, h⟩
      · exact ⟨vis, Or.inr rfl, h⟩
  unfold step
  rcases head_last ts hs vis with ⟨h1, h2, h3⟩ | ⟨a, b, h1, h2, ⟨ha, va⟩, ⟨hb, vb⟩, h3⟩
  · rw [h1, h2]
    dsimp only
    rcases h with ⟨rfl, h⟩ | ⟨s, e, rfl, ⟨m1, x1⟩, ⟨m2, x2⟩, h⟩
    · left
      refine ⟨rfl, fun t ht v hv => ?_⟩
      rcases List.mem_append.mp hv with hv | hv
      · exact h t ht v hv
      · rw [List.mem_singleton.mp hv]
        exact h3 t ht
    · right
      refine ⟨s, e, rfl, ⟨m1, (ex s).mpr (Or.inl x1)⟩, ⟨m2, (ex e).mpr (Or.inl x2)⟩, fun t ht hv => ?_⟩
      rcases (ex t).mp hv with hv | hv
      · exact h t ht hv
      · rw [h3 t ht] at hv
        cases hv
  · rw [h1, h2]
    dsimp only
    right
    rcases h with ⟨rfl, h⟩ | ⟨s, e, rfl, ⟨m1, x1⟩, ⟨m2, x2⟩, h⟩
    · refine ⟨a, b, rfl, ⟨ha, (ex a).mpr (Or.inr va)⟩, ⟨hb, (ex b).mpr (Or.inr vb)⟩, fun t ht hv => ?_⟩
      rcases (ex t).mp hv with ⟨v, hv, hv2⟩ | hv
      · rw [h t ht v hv] at hv2
        cases hv2
      · exact h3 t ht hv
    · dsimp only
      refine ⟨if a < s then a else s, if e ≤ b then b else e, ?_, ?_, ?_, ?_⟩
      · split_ifs <;> rfl
      · split_ifs
        · exact ⟨ha, (ex a).mpr (Or.inr va)⟩
        · exact ⟨m1, (ex s).mpr (Or.inl x1)⟩
      · split_ifs
        · exact ⟨hb, (ex b).mpr (Or.inr vb)⟩
        · exact ⟨m2, (ex e).mpr (Or.inl x2)⟩
      · intro t ht hv
        have k1 : (if a < s then a else s) ≤ a ∧ (if a < s then a else s) ≤ s := by
          split_ifs with hc
          · exact ⟨le_rfl, hc.le⟩
          · exact ⟨not_lt.mp hc, le_rfl⟩
        have k2 : b ≤ (if e ≤ b then b else e) ∧ e ≤ (if e ≤ b then b else e) := by
          split_ifs with hc
          · exact ⟨le_rfl, hc⟩
          · exact ⟨(not_le.mp hc).le, le_rfl⟩
        rcases (ex t).mp hv with hv | hv
        · obtain ⟨g1, g2⟩ := h t ht hv
          exact ⟨k1.2.trans g1, g2.trans k2.2⟩
        · obtain ⟨g1, g2⟩ := h3 t ht hv
          exact ⟨k1.1.trans g1, g2.trans k2.1⟩

theorem inv_fold (ts : List K) (hs : ts.Pairwise (· < ·)) (filters done : List (K → Bool)) (acc : Option K × Option K) (h : Inv ts done acc) :
    Inv ts (done ++ filters) (filters.foldl (step ts) acc) := by
  induction filters generalizing done acc with
  | nil => simpa using h
  | cons v filters ih =>
    rw [List.foldl_cons]
    have := ih (done ++ [v]) (step ts acc v) (inv_step ts hs done acc v h)
    simpa using this

/-- **C334.** The times given are the first and the last at which the outburst is bright enough in some filter, and there are none if it never is. -/
theorem detectable_spec (ts : List K) (hs : ts.Pairwise (· < ·)) (filters : List (K → Bool)) :
    (detectable ts filters = none ↔ ∀ t ∈ ts, ∀ v ∈ filters, v t = false) ∧
    ∀ s e, detectable ts filters = some (s, e) → (s ∈ ts ∧ ∃ v ∈ filters, v s = true) ∧ (e ∈ ts ∧ ∃ v ∈ filters, v e = true) ∧
      ∀ t ∈ ts, (∃ v ∈ filters, v t = true) → s ≤ t ∧ t ≤ e := by
  have h := inv_fold ts hs filters [] (none, none) (Or.inl ⟨rfl, fun t _ v hv => by cases hv⟩)
  rw [List.nil_append] at h
  unfold detectable
  rcases h with ⟨e0, h⟩ | ⟨s, e, e0, ⟨m1, x1⟩, ⟨m2, x2⟩, h⟩
  · rw [e0]
    exact ⟨⟨fun _ => h, fun _ => rfl⟩, fun s e hc => by cases hc⟩
  · rw [e0]
    dsimp only
    constructor
    · simp only [reduceCtorEq, false_iff]
      intro hc
      obtain ⟨v, hv, hv2⟩ := x1
      rw [hc s m1 v hv] at hv2
      cases hv2
    · intro s' e' hc
      obtain ⟨rfl, rfl⟩ := Prod.mk.inj (Option.some.inj hc)
      exact ⟨⟨m1, x1⟩, ⟨m2, x2⟩, h⟩

end

theorem grid_sorted (D : ℝ) (hD : 0 < D) : (grid D).Pairwise (· < ·) := by
  unfold grid
  rw [List.pairwise_map]
  refine List.pairwise_lt_range.imp ?_
  intro a b h
  have : (a : ℝ) < b := by exact_mod_cast h
  apply mul_lt_mul_of_pos_right this
  positivity

theorem grid_range (D : ℝ) (hD : 0 < D) (t : ℝ) (h : t ∈ grid D) : 0 ≤ t ∧ t ≤ D := by
  unfold grid at h
  obtain ⟨i, hi, rfl⟩ := List.mem_map.mp h
  have h1 : i ≤ 9999 := by
    have := List.mem_range.mp hi
    omega
  have h2 : (i : ℝ) ≤ 9999 := by exact_mod_cast h1
  constructor
  · positivity
  · have : (i : ℝ) * (D / 9999) ≤ 9999 * (D / 9999) := mul_le_mul_of_nonneg_right h2 (by positivity)
    linarith

theorem visible_iff (absMag : ℝ) (p : Params) (ax ebv distance depth t : ℝ) (h0 : 0 ≤ t) (hD : t ≤ p.duration) :
    visible depth (observed absMag p ax ebv distance t) = true ↔
      t ≠ 0 ∧ absMag + -2.5 * logb 10 (fred t p.amp p.rise p.decay) + ax * ebv + (5 * logb 10 (distance * 1000) - 5) ≤ depth := by
  unfold observed lightcurve
  rw [if_pos ⟨h0, hD⟩]
  by_cases e : t = 0
  · simp [e, visible]
  · simp [e, visible]

/-- **C334.** Between the two times the outburst is bright enough all the while, in some filter: the visible duration has no gaps. -/
theorem visible_interval (p : Params) (ha : 0 < p.amp) (hr : 0 < p.rise) (hd : 0 < p.decay) (ebv distance : ℝ) (bands : List (ℝ × ℝ × ℝ)) (s e t : ℝ)
    (hD : 0 < p.duration)
    (h : detectable (grid p.duration) (bands.map fun b => fun t => visible b.2.2 (observed b.1 p b.2.1 ebv distance t)) = some (s, e))
    (h1 : s ≤ t) (h2 : t ≤ e) : 0 < t ∧ t ≤ p.duration ∧ ∃ b ∈ bands, visible b.2.2 (observed b.1 p b.2.1 ebv distance t) = true := by
  obtain ⟨⟨ms, v, hv, vs⟩, ⟨me, w, hw, we⟩, _⟩ := (detectable_spec _ (grid_sorted _ hD) _).2 s e h
  obtain ⟨b, hb, rfl⟩ := List.mem_map.mp hv
  obtain ⟨c, hc, rfl⟩ := List.mem_map.mp hw
  obtain ⟨s0, sD⟩ := grid_range _ hD s ms
  obtain ⟨e0, eD⟩ := grid_range _ hD e me
  obtain ⟨sne, sm⟩ := (visible_iff _ _ _ _ _ _ _ s0 sD).mp vs
  obtain ⟨ene, em⟩ := (visible_iff _ _ _ _ _ _ _ e0 eD).mp we
  have spos : 0 < s := lt_of_le_of_ne s0 (Ne.symm sne)
  have tpos : 0 < t := spos.trans_le h1
  refine ⟨tpos, h2.trans eD, ?_⟩
  have fpos : ∀ x, 0 < x → 0 < fred x p.amp p.rise p.decay := by
    intro x _
    unfold fred
    positivity
  by_cases hp : t ≤ sqrt (p.rise * p.decay)
  · refine ⟨b, hb, (visible_iff _ _ _ _ _ _ _ tpos.le (h2.trans eD)).mpr ⟨tpos.ne', ?_⟩⟩
    have := logb_le_logb_of_le (b := 10) (by norm_num) (fpos s spos) ((fred_shape p.amp p.rise p.decay s t ha hr hd spos h1).1 hp)
    linarith
  · refine ⟨c, hc, (visible_iff _ _ _ _ _ _ _ tpos.le (h2.trans eD)).mpr ⟨tpos.ne', ?_⟩⟩
    have epos : 0 < e := tpos.trans_le h2
    have := logb_le_logb_of_le (b := 10) (by norm_num) (fpos e epos) ((fred_shape p.amp p.rise p.decay t e ha hr hd tpos h2).2 (not_le.mp hp).le)
    linarith

/-- **C334.** `possible_to_detect` is true if and only if the outburst is bright enough in some filter at one of the times. -/
theorem possible_spec (D : ℝ) (hD : 0 < D) (filters : List (ℝ → Bool)) :
    possible (detectable (grid D) filters) = true ↔ ∃ t ∈ grid D, ∃ v ∈ filters, v t = true := by
  have h := (detectable_spec (grid D) (grid_sorted D hD) filters).1
  unfold possible
  rw [← not_iff_not]
  simp only [Bool.not_eq_true, Option.isNone_iff_eq_none, h, Option.isSome_eq_false_iff, not_exists, not_and]

example : detectable ([0, 1, 2, 3] : List ℕ) [fun t => decide (t = 2), fun t => decide (t = 1 ∨ t = 2)] = some (1, 2) := by decide

/-! ## Detections -/

theorem mem_detected (l : List Visit) (v : Visit) : v ∈ detected l ↔ v ∈ l ∧ ∃ m, v.mag = some m ∧ m < v.m5 := by
  unfold detected
  rw [List.mem_filter]
  refine and_congr Iff.rfl ?_
  cases v.mag with
  | none => simp
  | some m => simp

/-- **C335.** With magnitudes of the light curve no visit before the start or after the end of the outburst counts. -/
theorem detected_during (absMag : ℝ) (p : Params) (ax ebv distance : ℝ) (l : List Visit) (v : Visit)
    (hm : v.mag = observed absMag p ax ebv distance v.t) (hax : 0 ≤ ax * ebv) (hd : 1 / 100 ≤ distance) (h5 : v.m5 ≤ 99) (h : v ∈ detected l) :
    0 < v.t ∧ v.t ≤ p.duration := by
  obtain ⟨_, m, e, hlt⟩ := (mem_detected l v).mp h
  rw [hm] at e
  have hdm : 0 ≤ 5 * logb 10 (distance * 1000) - 5 := by
    have : logb 10 10 ≤ logb 10 (distance * 1000) := logb_le_logb_of_le (by norm_num) (by norm_num) (by linarith)
    rw [logb_self_eq_one (by norm_num)] at this
    linarith
  unfold observed lightcurve at e
  split_ifs at e with c1 c2
  · cases e
  · exact ⟨lt_of_le_of_ne c1.1 (Ne.symm c2), c1.2⟩
  · exfalso
    rw [Option.map_some] at e
    have := Option.some.inj e
    linarith

/-- **C335.** `ever_detect` needs `pts_needed` visits in which the outburst is seen, and `early_detect` `pts_early` of them up to `t_early` days after the
start; more visits lose no outburst. -/
theorem detect_spec (needed : ℕ) (window : ℝ) (l : List Visit) :
    (everDetect needed l = true ↔ ∃ s : List Visit, s.Sublist l ∧ needed ≤ s.length ∧ ∀ v ∈ s, ∃ m, v.mag = some m ∧ m < v.m5) ∧
    (earlyDetect window needed l = true ↔
      ∃ s : List Visit, s.Sublist l ∧ needed ≤ s.length ∧ ∀ v ∈ s, v.t ≤ window ∧ ∃ m, v.mag = some m ∧ m < v.m5) := by
  have sub : (detected l).Sublist l := List.filter_sublist
  have self : ∀ s : List Visit, (∀ v ∈ s, ∃ m, v.mag = some m ∧ m < v.m5) → detected s = s := by
    intro s hs
    unfold detected
    rw [List.filter_eq_self]
    intro v hv
    obtain ⟨m, e, h⟩ := hs v hv
    simp [e, h]
  unfold everDetect earlyDetect
  rw [decide_eq_true_eq, decide_eq_true_eq]
  constructor
  · constructor
    · exact fun h => ⟨_, sub, h, fun v hv => ((mem_detected l v).mp hv).2⟩
    · rintro ⟨s, hs, hn, hv⟩
      have : (detected s).Sublist (detected l) := hs.filter _
      rw [self s hv] at this
      exact hn.trans this.length_le
  · constructor
    · intro h
      refine ⟨_, List.filter_sublist.trans sub, h, fun v hv => ?_⟩
      obtain ⟨h1, h2⟩ := List.mem_filter.mp hv
      exact ⟨of_decide_eq_true h2, ((mem_detected l v).mp h1).2⟩
    · rintro ⟨s, hs, hn, hv⟩
      have h1 : (detected s).Sublist (detected l) := hs.filter _
      rw [self s fun v h => (hv v h).2] at h1
      have h2 := h1.filter fun v => decide (v.t ≤ window)
      rw [List.filter_eq_self.mpr fun v h => decide_eq_true (hv v h).1] at h2
      exact hn.trans h2.length_le

/-- **C335.** The mean time between detections is the visible duration over one more than the number of detections, wherever these are. -/
theorem meanTime_spec (start stop : ℝ) (l : List Visit) (h : 1 < (detected l).length) :
    meanTime start stop l = (stop - start) / ((detected l).length + 1) := by
  unfold meanTime
  rw [if_pos h]
  unfold meanDiff
  rw [List.cons_append, Np.diff_sum, Np.diff_length]
  have e : (start :: ((detected l).map Visit.t ++ [stop])).getLast (by simp) = stop := by
    simp
  rw [e]
  congr 1
  simp

/-- **C335.** So two outbursts with as many detections have the same mean time, though those of one are all in one night. -/
theorem meanTime_false : ¬ ∀ (start stop : ℝ) (l : List Visit), 1 < (detected l).length →
    meanTime start stop l = meanDiff ((detected l).map Visit.t) := by
  intro h
  have hd : detected [⟨1, some 20, 24⟩, ⟨2, some 20, 24⟩] = [⟨1, some 20, 24⟩, ⟨2, some 20, 24⟩] := by
    unfold detected
    rw [List.filter_eq_self]
    intro v hv
    rcases List.mem_cons.mp hv with rfl | hv
    · norm_num
    · rw [List.mem_singleton.mp hv]
      norm_num
  have e := h 0 30 [⟨1, some 20, 24⟩, ⟨2, some 20, 24⟩] (by rw [hd]; simp)
  rw [meanTime_spec _ _ _ (by rw [hd]; simp), hd] at e
  norm_num [meanDiff, Np.diff] at e

/-- **C335.** With fewer than two detections `reduce_mean_time_between_detections` gives the bad value, else the mean time. -/
theorem reduceMean_spec (badval start stop : ℝ) (l : List Visit) (h : start ≤ stop) :
    ((detected l).length ≤ 1 → reduceMeanTime badval (meanTime start stop l) = badval) ∧
    (1 < (detected l).length → reduceMeanTime badval (meanTime start stop l) = (stop - start) / ((detected l).length + 1)) := by
  constructor
  · intro h1
    have e : meanTime start stop l = -999 := by
      unfold meanTime
      rw [if_neg (by omega)]
    rw [e]
    unfold reduceMeanTime
    rw [if_pos (by norm_num)]
  · intro h1
    rw [meanTime_spec start stop l h1]
    unfold reduceMeanTime
    rw [if_neg]
    have : 0 ≤ (stop - start) / ((detected l).length + 1 : ℝ) := div_nonneg (by linarith) (by positivity)
    linarith

/-! ## Random parameters -/

theorem fill_spec {K : Type} (w : List Bool) (as bs : List K) (ha : as.length = w.countP id) (hb : bs.length = w.countP fun b => !b) :
    (fill w as bs).length = w.length ∧
    ∀ x ∈ List.zip w (fill w as bs), ∃ y, x.2 = some y ∧ (x.1 = true → y ∈ as) ∧ (x.1 = false → y ∈ bs) := by
  induction w generalizing as bs with
  | nil => simp [fill]
  | cons b w ih =>
    cases b with
    | true =>
      cases as with
      | nil => simp at ha
      | cons a as =>
        obtain ⟨h1, h2⟩ := ih as bs (by simpa using ha) (by simpa using hb)
        simp only [fill, List.length_cons, h1, List.zip_cons_cons, List.forall_mem_cons, true_and]
        refine ⟨⟨a, rfl, by simp, by simp⟩, fun x hx => ?_⟩
        obtain ⟨y, e, p, q⟩ := h2 x hx
        exact ⟨y, e, fun h => List.mem_cons_of_mem _ (p h), q⟩
    | false =>
      cases bs with
      | nil => simp at hb
      | cons c bs =>
        obtain ⟨h1, h2⟩ := ih as bs (by simpa using ha) (by simpa using hb)
        simp only [fill, List.length_cons, h1, List.zip_cons_cons, List.forall_mem_cons, true_and]
        refine ⟨⟨c, rfl, by simp, by simp⟩, fun x hx => ?_⟩
        obtain ⟨y, e, p, q⟩ := h2 x hx
        exact ⟨y, e, p, fun h => List.mem_cons_of_mem _ (q h)⟩

/-- **C336.** Every outburst has a rise time, and it is longer than 0.3 days. -/
theorem tauRise_spec (flip : List ℝ) (global own : ℕ → List ℝ) (hg : ∀ n, (global n).length = n ∧ ∀ x ∈ global n, 0.5 ≤ x ∧ x ≤ 50)
    (ho : ∀ n, (own n).length = n ∧ ∀ x ∈ own n, 0 < x) :
    (tauRise flip global own).length = flip.length ∧ ∀ x ∈ tauRise flip global own, ∃ y, x = some y ∧ 0.3 < y := by
  unfold tauRise
  dsimp only
  set w := flip.map fun x => decide (0.5 < x) with hw
  obtain ⟨h1, h2⟩ := fill_spec w (global (w.countP id)) ((own (w.countP fun b => !b)).map fun x => x + 0.3) (hg _).1 (by rw [List.length_map]; exact (ho _).1)
  refine ⟨by rw [h1, hw, List.length_map], fun x hx => ?_⟩
  obtain ⟨i, hi⟩ := List.mem_iff_getElem?.mp hx
  have hlt : i < w.length := by
    rw [← h1]
    exact (List.getElem?_eq_some_iff.mp hi).1
  have hz : (w[i], x) ∈ List.zip w (fill w (global (w.countP id)) ((own (w.countP fun b => !b)).map fun x => x + 0.3)) := by
    apply List.mem_iff_getElem?.mpr
    refine ⟨i, ?_⟩
    rw [List.getElem?_zip_eq_some]
    exact ⟨List.getElem?_eq_getElem hlt, hi⟩
  obtain ⟨y, e, p, q⟩ := h2 _ hz
  refine ⟨y, e, ?_⟩
  cases hb : w[i] with
  | true =>
    have := ((hg _).2 y (p hb)).1
    norm_num at this ⊢
    linarith
  | false =>
    obtain ⟨z, hz, rfl⟩ := List.mem_map.mp (q hb)
    have := (ho _).2 z hz
    linarith

/-- **C336.** The seed has no effect on the parameters of the outbursts. -/
theorem pop_seed {G S P Q : Type} (gen : ℕ → G) (places : G → P) (params : G → S → Q) (seed seed' : ℕ) (s : S) :
    (pop gen places params seed s).2 = (pop gen places params seed' s).2 := rfl

/-- **C336.** Nor does it determine them: half of the rise times are from the state of `np.random`. -/
theorem tauRise_false : ¬ ∀ (flip : List ℝ) (own global global' : ℕ → List ℝ), (∀ n, (own n).length = n) → (∀ n, (global n).length = n) →
    (∀ n, (global' n).length = n) → tauRise flip global own = tauRise flip global' own := by
  intro h
  have e := h [1] (fun n => List.replicate n 1) (fun n => List.replicate n 1) (fun n => List.replicate n 2) (by simp) (by simp) (by simp)
  unfold tauRise at e
  norm_num [fill] at e

example : fill [true, false, true] [1, 2] [3] = [some 1, some 3, some 2] := rfl

example : fred 1 5 1 1 = 5 := by
  have := (fred_peak 5 1 1 (by norm_num) (by norm_num) (by norm_num)).1
  simpa using this

end Verif.Xrb
