import Verif.Lemmas.Dust
import Verif.Props.Snr
import Verif.Props.SedObj

/-!
# Dust

The extinction laws, the choice of parameters of `add_dust`, and the extinction in a bandpass.
-/

namespace Verif.Dust

open Real Verif.Sed Verif.Snr Verif.Spectres

/-! ## Extinction laws -/

/-- The laws in use. -/
def Optical (o : ℝ → ℝ × ℝ) : Prop := o = ccmOptical ∨ o = odOptical

/-- The range of wavelengths in nm for which the laws are meant, 0.3 to 11 inverse microns. -/
def InRange (w : ℝ) : Prop := 1000 / 11 ≤ w ∧ w ≤ 1000 / 0.3

theorem law_pos {o : ℝ → ℝ × ℝ} (ho : Optical o) {x u : ℝ} (h1 : 0.3 ≤ x) (h2 : x ≤ 11)
    (hne : x ≠ 5.9) (hu : 1 / 8 ≤ u) (hu1 : u ≤ 1) : 0 < (law o x).1 + (law o x).2 * u := by
  unfold law assign
  split_ifs with c1 c2 c3 c4 c5
  · exact farUv_pos (by linarith) (by linarith) hu
  · exact ultraviolet2_pos c2.1.le c2.2.le hu
  · exact lt_trans (by norm_num) (ultraviolet_pos c3.1 (c3.2.le.trans (by norm_num)) hu).1
  · have a1 : -0.72 ≤ x - 1.82 := by have := c4.1; norm_num at this ⊢; linarith
    have a2 : x - 1.82 ≤ 1.48 := by have := c4.2; norm_num at this ⊢; linarith
    rcases ho with rfl | rfl
    · exact between (ccm_one a1 a2) (ccm_eight a1 a2) hu hu1
    · exact between (od_one a1 a2) (od_eight a1 a2) hu hu1
  · exact infrared_pos (lt_of_lt_of_le (by norm_num) h1) (by linarith) hu1
  · exfalso
    simp only [not_and_or, not_le, not_lt] at c1 c2 c3 c4 c5
    norm_num at *
    rcases lt_or_gt_of_ne hne with g | g
    · rcases c3 with c3 | c3
      · rcases c4 with c4 | c4
        · rcases c5 with c5 | c5 <;> linarith
        · linarith
      · linarith
    · rcases c2 with c2 | c2
      · linarith
      · rcases c1 with c1 | c1 <;> linarith

theorem law_outside {o : ℝ → ℝ × ℝ} {x : ℝ} (h : x < 0.3 ∨ 11 < x ∨ x = 5.9) : law o x = (0, 0) := by
  unfold law assign
  have key : ¬(8 ≤ x ∧ x ≤ 11) ∧ ¬(5.9 < x ∧ x < 8) ∧ ¬(3.3 ≤ x ∧ x < 5.9) ∧
      ¬(1.1 ≤ x ∧ x ≤ 3.3) ∧ ¬(0.3 ≤ x ∧ x ≤ 1.1) := by
    norm_num at h ⊢
    rcases h with h | h | h
    · refine ⟨fun _ => ?_, fun _ => ?_, fun _ => ?_, fun _ => ?_, fun _ => ?_⟩ <;> linarith
    · refine ⟨fun _ => ?_, fun _ => ?_, fun _ => ?_, fun _ => ?_, fun _ => ?_⟩ <;> linarith
    · subst h
      norm_num
  rw [if_neg key.1, if_neg key.2.1, if_neg key.2.2.1, if_neg key.2.2.2.1, if_neg key.2.2.2.2]

theorem inverse_eq {w : ℝ} : 1 / (w * (1 / 1000)) = 1000 / w := by
  rw [mul_one_div, one_div_div]

/-- In the range of the laws, away from a single wavelength, both give extinction for all `r_v`
from 1 to 8. -/
theorem extinction_pos {w : ℝ} (h : InRange w) (hw : w ≠ 1000 / 5.9) {a_v r_v : ℝ} (ha : 0 < a_v)
    (h1 : 1 ≤ r_v) (h8 : r_v ≤ 8) :
    0 < aLambda (ccm w) a_v r_v ∧ 0 < aLambda (oDonnell w) a_v r_v := by
  have hw0 : 0 < w := lt_of_lt_of_le (by norm_num) h.1
  have b1 : 0.3 ≤ 1000 / w := by
    rw [le_div_iff₀ hw0]
    have := h.2
    rw [le_div_iff₀ (by norm_num)] at this
    linarith
  have b2 : 1000 / w ≤ 11 := by
    rw [div_le_iff₀ hw0]
    have := h.1
    rw [div_le_iff₀ (by norm_num)] at this
    linarith
  have b3 : 1000 / w ≠ 5.9 := by
    intro hc
    apply hw
    rw [← hc]
    field_simp
  have r0 : 0 < r_v := by linarith
  have u1 : 1 / 8 ≤ 1 / r_v := one_div_le_one_div_of_le r0 h8
  have u2 : 1 / r_v ≤ 1 := by rw [div_le_one r0]; exact h1
  unfold aLambda ccm oDonnell
  rw [inverse_eq]
  constructor
  · have := law_pos (Or.inl rfl) b1 b2 b3 u1 u2
    rw [mul_one_div] at this
    exact mul_pos this ha
  · have := law_pos (Or.inr rfl) b1 b2 b3 u1 u2
    rw [mul_one_div] at this
    exact mul_pos this ha

/-- Out of the range there is none. -/
theorem extinction_outside {w : ℝ} (hw : 0 < w) (h : ¬ InRange w) (a_v r_v : ℝ) :
    aLambda (ccm w) a_v r_v = 0 ∧ aLambda (oDonnell w) a_v r_v = 0 := by
  have key : 1000 / w < 0.3 ∨ 11 < 1000 / w ∨ 1000 / w = 5.9 := by
    unfold InRange at h
    rw [not_and_or, not_le, not_le] at h
    rcases h with h | h
    · right; left
      rw [lt_div_iff₀ hw]
      rw [lt_div_iff₀ (by norm_num)] at h
      linarith
    · left
      rw [div_lt_iff₀ hw]
      rw [div_lt_iff₀ (by norm_num)] at h
      linarith
  unfold aLambda ccm oDonnell
  rw [inverse_eq, law_outside key, law_outside key]
  simp

/-- The flux after dust, relative to that before, is `10 ^ (-0.4 A)` for an extinction of `A`
magnitudes. -/
theorem factor_mag (ab : ℝ × ℝ) (a_v r_v : ℝ) :
    factor ab a_v r_v = 10 ^ (-0.4 * aLambda ab a_v r_v) := by
  unfold factor
  rw [rpow_def_of_pos (by norm_num)]
  congr 1; ring

theorem factor_pos (ab : ℝ × ℝ) (a_v r_v : ℝ) : 0 < factor ab a_v r_v := exp_pos _

theorem factor_lt_one {ab : ℝ × ℝ} {a_v r_v : ℝ} : factor ab a_v r_v < 1 ↔ 0 < aLambda ab a_v r_v := by
  unfold factor
  rw [exp_lt_one_iff]
  have : 0 < 0.4 * log 10 := mul_pos (by norm_num) (log_pos (by norm_num))
  constructor
  · intro h
    by_contra hc
    push Not at hc
    nlinarith
  · intro h
    nlinarith

/-- Dust dims exactly the wavelengths in the range of the law, apart from a single wavelength,
where there is a hole in the law. -/
theorem dims_partial {w : ℝ} (hw : 0 < w) {a_v r_v : ℝ} (ha : 0 < a_v) (h1 : 1 ≤ r_v) (h8 : r_v ≤ 8) :
    (factor (ccm w) a_v r_v < 1 ↔ InRange w ∧ w ≠ 1000 / 5.9) ∧
    (factor (oDonnell w) a_v r_v < 1 ↔ InRange w ∧ w ≠ 1000 / 5.9) := by
  rw [factor_lt_one, factor_lt_one]
  have hole : w = 1000 / 5.9 → aLambda (ccm w) a_v r_v = 0 ∧ aLambda (oDonnell w) a_v r_v = 0 := by
    rintro rfl
    unfold aLambda ccm oDonnell
    have : (1000 : ℝ) / (1000 / 5.9) = 5.9 := by norm_num
    rw [inverse_eq, this, law_outside (Or.inr (Or.inr rfl)), law_outside (Or.inr (Or.inr rfl))]
    simp
  by_cases hr : InRange w
  · by_cases hh : w = 1000 / 5.9
    · rw [(hole hh).1, (hole hh).2]
      simp [hh]
    · have := extinction_pos hr hh ha h1 h8
      simp [this.1, this.2, hr, hh]
  · rw [(extinction_outside hw hr a_v r_v).1, (extinction_outside hw hr a_v r_v).2]
    simp [hr]

/-- The claim that dust dims every wavelength in the range of the law fails at the wavelength
1000 / 5.9 nm, where the flux is unchanged by any amount of dust. -/
theorem dims_false : ∃ w, InRange w ∧ ∀ a_v r_v, factor (ccm w) a_v r_v = 1 ∧
    factor (oDonnell w) a_v r_v = 1 := by
  refine ⟨1000 / 5.9, ⟨by norm_num, by norm_num⟩, fun a_v r_v => ?_⟩
  unfold factor aLambda ccm oDonnell
  have : (1000 : ℝ) / (1000 / 5.9) = 5.9 := by norm_num
  rw [inverse_eq, this, law_outside (Or.inr (Or.inr rfl)), law_outside (Or.inr (Or.inr rfl))]
  simp

/-- For `r_v` of 10 the far ultraviolet is brightened. -/
theorem brightens_false {a_v : ℝ} (ha : 0 < a_v) :
    InRange (1000 / 11) ∧ 1 < factor (ccm (1000 / 11)) a_v 10 := by
  refine ⟨⟨le_rfl, by norm_num⟩, ?_⟩
  have : (1000 : ℝ) / (1000 / 11) = 11 := by norm_num
  unfold factor aLambda ccm
  rw [inverse_eq, this, one_lt_exp_iff]
  have e : (law ccmOptical 11).1 + (law ccmOptical 11).2 / 10 = -0.3381 := by
    unfold law assign farUv
    rw [if_pos (by norm_num)]
    norm_num
  rw [e]
  have hl : 0 < 0.4 * log 10 := mul_pos (by norm_num) (log_pos (by norm_num))
  nlinarith [mul_pos ha hl]

/-- At 1.82 inverse microns the extinction is `a_v`, for each `r_v` and both laws. -/
theorem v_band (a_v r_v : ℝ) :
    aLambda (ccm (1000 / 1.82)) a_v r_v = a_v ∧ aLambda (oDonnell (1000 / 1.82)) a_v r_v = a_v := by
  have : (1000 : ℝ) / (1000 / 1.82) = 1.82 := by norm_num
  unfold aLambda ccm oDonnell
  rw [inverse_eq, this]
  have h : ∀ o, law o 1.82 = o 0 := by
    intro o
    unfold law assign
    rw [if_neg (by norm_num), if_neg (by norm_num), if_neg (by norm_num), if_pos (by norm_num),
      sub_self]
  rw [h, h]
  unfold ccmOptical odOptical
  norm_num

/-! ## `add_dust` -/

/-- Dust in two steps is dust of the sum. -/
theorem addDust_add (abs : List (ℝ × ℝ)) (a a' r_v : ℝ) (f : List ℝ) :
    addDust abs a r_v (addDust abs a' r_v f) = addDust abs (a + a') r_v f := by
  unfold addDust
  induction f generalizing abs with
  | nil => rfl
  | cons x f ih =>
    cases abs with
    | nil => rfl
    | cons ab abs =>
      simp only [List.zipWith_cons_cons, ih]
      congr 1
      unfold factor aLambda
      rw [mul_assoc, ← exp_add]
      congr 2; ring

/-- No dust changes nothing, and dust of the opposite sign takes away what was added. -/
theorem addDust_zero {abs : List (ℝ × ℝ)} (r_v : ℝ) {f : List ℝ} (h : f.length = abs.length) :
    addDust abs 0 r_v f = f ∧ ∀ a, addDust abs (-a) r_v (addDust abs a r_v f) = f := by
  have h0 : addDust abs 0 r_v f = f := by
    unfold addDust
    induction f generalizing abs with
    | nil => rfl
    | cons x f ih =>
      cases abs with
      | nil => cases h
      | cons ab abs =>
        simp only [List.zipWith_cons_cons, ih (Nat.succ.inj h)]
        congr 1
        unfold factor aLambda
        simp
  refine ⟨h0, fun a => ?_⟩
  rw [addDust_add, neg_add_cancel, h0]

/-- The three ways to give the parameters agree: `a_v` with `r_v`, `ebv` with `r_v`, and `a_v`
with `ebv`. -/
theorem choose_agree {ebv r_v : ℝ} (h : ebv ≠ 0) :
    choose (some (r_v * ebv)) none r_v = .ok (r_v * ebv) r_v ∧
    choose none (some ebv) r_v = .ok (r_v * ebv) r_v ∧
    choose (some (r_v * ebv)) (some ebv) 3.1 = .ok (r_v * ebv) r_v ∧
    choose (some (r_v * ebv)) (some ebv) r_v = .ok (r_v * ebv) r_v := by
  have e : r_v * ebv / ebv = r_v := by field_simp
  unfold choose
  dsimp only
  refine ⟨?_, ?_, ?_, ?_⟩
  · split_ifs <;> rfl
  · split_ifs <;> rfl
  · rw [if_pos rfl, if_neg h, e]
  · rw [if_neg h, if_neg h, e, if_pos rfl]
    split_ifs <;> rfl

/-- Parameters that contradict each other are rejected, if `r_v` is not 3.1. -/
theorem choose_partial {a ebv r_v : ℝ} (h : ebv ≠ 0) (hr : r_v ≠ 3.1) :
    choose (some a) (some ebv) r_v = .valueError ↔ a ≠ r_v * ebv := by
  unfold choose
  dsimp only
  rw [if_neg hr, if_neg h]
  constructor
  · intro hc hcc
    rw [hcc, if_pos (by field_simp)] at hc
    cases hc
  · intro hc
    rw [if_neg]
    intro hcc
    exact hc (by rw [← hcc]; field_simp)

/-- The claim that contradictions are rejected fails for `r_v` of 3.1, the default: another
value of `r_v` is used. -/
theorem choose_false {a ebv : ℝ} (h : ebv ≠ 0) (hne : a ≠ 3.1 * ebv) :
    ∃ r_v, choose (some a) (some ebv) 3.1 = .ok a r_v ∧ r_v ≠ 3.1 := by
  refine ⟨a / ebv, ?_, ?_⟩
  · unfold choose
    dsimp only
    rw [if_pos rfl, if_neg h]
  · intro hc
    exact hne (by rw [← hc]; field_simp)

/-- Without `a_v` and `ebv` it raises. -/
theorem choose_none (r_v : ℝ) : choose none none r_v = .typeError := by
  unfold choose; split_ifs <;> rfl

/-! ## Extinction in a bandpass -/

theorem dusted_flux (r_v a_v : ℝ) {abs : List (ℝ × ℝ)} {s : Spec ℝ} (h : s.flux.length = s.wavelen.length)
    (ha : abs.length = s.wavelen.length) (h0 : ∀ w ∈ s.wavelen, w ≠ 0) :
    (dusted abs a_v r_v s).flux = List.zipWith (fun f ab => f * factor ab a_v r_v) s.flux abs := by
  unfold dusted
  obtain ⟨ws, fs⟩ := s
  dsimp only at *
  unfold toFnu addDust toFlambda
  induction ws generalizing fs abs with
  | nil =>
    have := List.length_eq_zero_iff.mp h
    subst this; rfl
  | cons w ws ih =>
    cases fs with
    | nil => cases h
    | cons f fs =>
      cases abs with
      | nil => cases ha
      | cons ab abs =>
        simp only [List.zipWith_cons_cons]
        rw [ih fs (Nat.succ.inj h) (Nat.succ.inj ha) fun v hv => h0 v (List.mem_cons_of_mem _ hv)]
        congr 1
        have := h0 w List.mem_cons_self
        unfold lightspeed nm2m ergsetc2jansky
        field_simp

/-- A bandpass from `lo` to `hi` whose cells are covered by the spectrum used for it. -/
structure Sampled (bp : Band ℝ) (lo hi : ℝ) : Prop where
  wf : bp.WF
  ends : 0 < lo ∧ lo < hi
  covers : Covers (flatFrom lo hi) bp
  apart : Apart bp.wavelen (flatFrom lo hi).wavelen
  sb : ∀ x ∈ bp.sb, 0 ≤ x
  norm : sbToPhi bp ≠ none

theorem flatFrom_len {lo hi : ℝ} (h : lo < hi) :
    2 ≤ ⌈hi + 1 - lo⌉₊ ∧ hi - lo ≤ ((⌈hi + 1 - lo⌉₊ - 1 : ℕ) : ℝ) := by
  have h2 : 2 ≤ ⌈hi + 1 - lo⌉₊ := by
    have : 1 < ⌈hi + 1 - lo⌉₊ := by
      rw [Nat.lt_ceil]; push_cast; linarith
    omega
  refine ⟨h2, ?_⟩
  have := Nat.le_ceil (hi + 1 - lo)
  have e : ((⌈hi + 1 - lo⌉₊ - 1 : ℕ) : ℝ) = (⌈hi + 1 - lo⌉₊ : ℝ) - 1 := by
    rw [Nat.cast_sub (by omega)]; simp
  rw [e]; linarith

theorem flatFrom_wf {lo hi : ℝ} (h : lo < hi) : (flatFrom lo hi).WF := by
  unfold Spec.WF flatFrom
  dsimp only
  refine ⟨grid_grid one_pos (flatFrom_len h).1, ?_⟩
  rw [List.length_replicate, grid_length]

theorem flatFrom_pos {lo hi : ℝ} (h : 0 < lo) : ∀ w ∈ (flatFrom lo hi).wavelen, 0 < w := by
  unfold flatFrom grid
  intro w hw
  obtain ⟨i, -, rfl⟩ := List.mem_map.mp hw
  have : (0 : ℝ) ≤ i := Nat.cast_nonneg i
  linarith

/-- Bandpasses with steps up to 1 nm at their ends are covered. -/
theorem flatFrom_covers {bp : Band ℝ} (hg : Grid bp.wavelen) {lo hi : ℝ} (h : lo < hi)
    (h0 : bp.wavelen.getD 0 0 = lo) (h1 : bp.wavelen.getD (bp.wavelen.length - 1) 0 = hi)
    (s0 : bp.wavelen.getD 1 0 - lo ≤ 1)
    (s1 : hi - bp.wavelen.getD (bp.wavelen.length - 2) 0 ≤ 1) : Covers (flatFrom lo hi) bp := by
  intro j hj
  have hl := hg.1
  have hlen : (flatFrom lo hi).wavelen.length = ⌈hi + 1 - lo⌉₊ := by
    unfold flatFrom; exact grid_length _ _ _
  obtain ⟨n2, nle⟩ := flatFrom_len h
  have ge : ∀ i < ⌈hi + 1 - lo⌉₊, (flatFrom lo hi).wavelen.getD i 0 = lo + 1 * i := by
    intro i hi'
    unfold flatFrom
    exact grid_getD hi'
  have e0 : cellLeft (flatFrom lo hi).wavelen 0 = lo - 1 / 2 := by
    unfold cellLeft
    rw [if_pos rfl, ge 0 (by omega), ge 1 (by omega)]
    norm_num
  have e1 : hi + 1 / 2 ≤ cellRight (flatFrom lo hi).wavelen ((flatFrom lo hi).wavelen.length - 1) := by
    unfold cellRight
    rw [hlen, if_pos (by omega), ge _ (by omega), ge _ (by omega)]
    have : ((⌈hi + 1 - lo⌉₊ - 1 - 1 : ℕ) : ℝ) = ((⌈hi + 1 - lo⌉₊ - 1 : ℕ) : ℝ) - 1 := by
      rw [Nat.cast_sub (by omega)]; simp
    rw [this]
    linarith
  unfold Outside
  push Not
  rw [e0]
  constructor
  · rw [← edge_left _ j hj]
    refine le_trans ?_ (edge_mono hg (Nat.zero_le j) hj.le)
    rw [edge_left _ 0 (by omega)]
    unfold cellLeft
    rw [if_pos rfl, h0]
    linarith
  · refine le_trans ?_ e1
    rw [← edge_right _ j hj]
    refine le_trans (edge_mono hg (j := bp.wavelen.length - 1 + 1) (by omega) (by omega)) ?_
    rw [edge_right _ _ (by omega)]
    unfold cellRight
    rw [if_pos (by omega), h1, Nat.sub_sub]
    linarith

theorem fluxFromMag_eq (mag : ℝ) : fluxFromMag newZp mag = 3631 * 10 ^ (-0.4 * mag) := by
  unfold fluxFromMag newZp
  have : -0.4 * (mag + -2.5 * logb 10 3631) = logb 10 3631 + -0.4 * mag := by ring
  rw [this, rpow_add (by norm_num), ten_rpow_logb (by norm_num)]

theorem dusted_bounds {bp : Band ℝ} {lo hi : ℝ} (h : Sampled bp lo hi) {r_v ebv A B : ℝ}
    (hA : ∀ w ∈ (flatFrom lo hi).wavelen, A ≤ aLambda (ccm w) (r_v * ebv) r_v)
    (hB : ∀ w ∈ (flatFrom lo hi).wavelen, aLambda (ccm w) (r_v * ebv) r_v ≤ B) :
    ∃ f, calcFlux bp (dusted ((flatFrom lo hi).wavelen.map ccm) (r_v * ebv) r_v (flatFrom lo hi))
      none = some f ∧ 3631 * 10 ^ (-0.4 * B) ≤ f ∧ f ≤ 3631 * 10 ^ (-0.4 * A) := by
  have hwf := flatFrom_wf h.ends.2
  have hcov := h.covers
  have hap := h.apart
  have hpos := flatFrom_pos (hi := hi) h.ends.1
  have hrep : ∀ x ∈ (flatFrom lo hi).flux, x = 3631 := fun x hx => List.eq_of_mem_replicate hx
  generalize hs : flatFrom lo hi = s at *
  have hfl := dusted_flux r_v (r_v * ebv) (abs := s.wavelen.map ccm) hwf.2 (by simp)
    (fun w hw => (hpos w hw).ne')
  generalize hd : dusted (s.wavelen.map ccm) (r_v * ebv) r_v s = d at *
  have hdw : d.wavelen = s.wavelen := by rw [← hd]; rfl
  have hdl : d.flux.length = d.wavelen.length := by
    rw [hfl, hdw, List.length_zipWith, List.length_map, hwf.2, Nat.min_self]
  have mem : ∀ x ∈ d.flux, ∃ w ∈ s.wavelen, x = 3631 * factor (ccm w) (r_v * ebv) r_v := by
    rw [hfl]
    intro x hx
    obtain ⟨i, hi', rfl⟩ := List.mem_iff_getElem.mp hx
    rw [List.length_zipWith, List.length_map] at hi'
    rw [List.getElem_zipWith, List.getElem_map]
    refine ⟨s.wavelen[i], List.getElem_mem _, ?_⟩
    congr 1
    exact hrep _ (List.getElem_mem _)
  refine calcFlux_bounds (s := d) h.wf ⟨by rw [hdw]; exact hwf.1, hdl⟩
    (by unfold Covers at hcov ⊢; rw [hdw]; exact hcov)
    (by rw [hdw]; exact hap) h.sb h.norm none ?_ ?_
  · intro x hx
    obtain ⟨w, hw, rfl⟩ := mem x hx
    rw [factor_mag]
    have := hB w hw
    exact mul_le_mul_of_nonneg_left
      (rpow_le_rpow_of_exponent_le (by norm_num) (by linarith)) (by norm_num)
  · intro x hx
    obtain ⟨w, hw, rfl⟩ := mem x hx
    rw [factor_mag]
    have := hA w hw
    exact mul_le_mul_of_nonneg_left
      (rpow_le_rpow_of_exponent_le (by norm_num) (by linarith)) (by norm_num)

theorem choose_ebv (ebv r_v : ℝ) : choose none (some ebv) r_v = .ok (r_v * ebv) r_v := by
  unfold choose; split_ifs <;> rfl

theorem flatFrom_mag {bp : Band ℝ} {lo hi : ℝ} (h : Sampled bp lo hi) :
    calcMag newZp bp (flatFrom lo hi) = some 0 := by
  have hflat : calcFlux bp (flatFrom lo hi) none = some 3631 :=
    calcFlux_const h.wf (flatFrom_wf h.ends.2) h.covers h.apart h.sb h.norm none 3631
      (fun x hx => List.eq_of_mem_replicate hx)
  rw [calcMag_eq hflat tiny_le]
  unfold magFromFlux newZp
  ring_nf

/-- The extinction in a bandpass lies between bounds of the extinction at its wavelengths. -/
theorem ax1_bounds {bp : Band ℝ} {lo hi : ℝ} (h : Sampled bp lo hi) {r_v ebv A B v : ℝ}
    (hA : ∀ w ∈ (flatFrom lo hi).wavelen, A ≤ aLambda (ccm w) (r_v * ebv) r_v)
    (hB : ∀ w ∈ (flatFrom lo hi).wavelen, aLambda (ccm w) (r_v * ebv) r_v ≤ B)
    (hv : ax1 bp lo hi r_v ebv = some v) : A ≤ v ∧ v ≤ B := by
  obtain ⟨f', hf', g1, g2⟩ := dusted_bounds h hA hB
  unfold ax1 at hv
  rw [choose_ebv] at hv
  dsimp only at hv
  rw [flatFrom_mag h] at hv
  generalize dusted _ _ _ _ = d at *
  cases hdm : calcMag newZp bp d with
  | none => rw [hdm] at hv; cases hv
  | some m =>
    rw [hdm] at hv
    obtain ⟨f, hf, hf0, rfl⟩ := calcMag_some hdm
    have hv := Option.some.inj hv
    rw [hf] at hf'
    cases hf'
    have hfp : 0 < f' := lt_of_lt_of_le (by positivity) hf0
    have key : ∀ C, magFromFlux newZp (3631 * 10 ^ (-0.4 * C)) = C := by
      intro C
      rw [← fluxFromMag_eq, (mag_flux newZp).2]
    rw [← hv, sub_zero]
    constructor
    · rw [← key A]
      rcases eq_or_lt_of_le g2 with e | e
      · rw [e]
      · exact (mag_lt newZp hfp e).le
    · rw [← key B]
      rcases eq_or_lt_of_le g1 with e | e
      · rw [e]
      · exact (mag_lt newZp (by positivity) e).le

set_option exponentiation.threshold 400 in
/-- It exists if the extinction is at most 750 magnitudes. -/
theorem ax1_exists {bp : Band ℝ} {lo hi : ℝ} (h : Sampled bp lo hi) {r_v ebv : ℝ}
    (hB : ∀ w ∈ (flatFrom lo hi).wavelen, aLambda (ccm w) (r_v * ebv) r_v ≤ 750) :
    ∃ v, ax1 bp lo hi r_v ebv = some v := by
  obtain ⟨A, hA⟩ : ∃ A, ∀ w ∈ (flatFrom lo hi).wavelen, A ≤ aLambda (ccm w) (r_v * ebv) r_v := by
    generalize (flatFrom lo hi).wavelen = l
    clear hB
    induction l with
    | nil => exact ⟨0, by simp⟩
    | cons w l ih =>
      obtain ⟨A, hA⟩ := ih
      refine ⟨min A (aLambda (ccm w) (r_v * ebv) r_v), ?_⟩
      intro v hv
      rcases List.mem_cons.mp hv with rfl | hv
      · exact min_le_right _ _
      · exact (min_le_left _ _).trans (hA v hv)
  obtain ⟨f, hf, g1, -⟩ := dusted_bounds h hA hB
  unfold ax1
  rw [choose_ebv]
  dsimp only
  rw [flatFrom_mag h, calcMag_eq hf]
  · exact ⟨_, rfl⟩
  · refine le_trans ?_ g1
    have e : (10 : ℝ) ^ (-0.4 * 750 : ℝ) = 1 / 10 ^ 300 := by
      rw [show (-0.4 * 750 : ℝ) = -((300 : ℕ) : ℝ) by norm_num, rpow_neg (by norm_num), rpow_natCast,
        one_div]
    rw [e]
    have : (0 : ℝ) ≤ 1 / 10 ^ 300 := by positivity
    linarith

theorem exists_lower {l : List ℝ} {g : ℝ → ℝ} (h : ∀ w ∈ l, 0 < g w) :
    ∃ A > 0, ∀ w ∈ l, A ≤ g w := by
  induction l with
  | nil => exact ⟨1, one_pos, by simp⟩
  | cons w l ih =>
    obtain ⟨A, h0, hA⟩ := ih fun v hv => h v (List.mem_cons_of_mem _ hv)
    refine ⟨min A (g w), lt_min h0 (h w List.mem_cons_self), ?_⟩
    intro v hv
    rcases List.mem_cons.mp hv with rfl | hv
    · exact min_le_right _ _
    · exact (min_le_left _ _).trans (hA v hv)

theorem exists_upper (l : List ℝ) (g : ℝ → ℝ) : ∃ B, ∀ w ∈ l, g w ≤ B := by
  induction l with
  | nil => exact ⟨1, by simp⟩
  | cons w l ih =>
    obtain ⟨B, hB⟩ := ih
    refine ⟨max B (g w), ?_⟩
    intro v hv
    rcases List.mem_cons.mp hv with rfl | hv
    · exact le_max_right _ _
    · exact (hB v hv).trans (le_max_left _ _)

/-- It is positive for bandpasses from 170 to 3330 nm. -/
theorem ax1_pos {bp : Band ℝ} {lo hi : ℝ} (h : Sampled bp lo hi) (h1 : 170 ≤ lo) (h2 : hi ≤ 3330)
    {r_v ebv v : ℝ} (he : 0 < ebv) (hr1 : 1 ≤ r_v) (hr8 : r_v ≤ 8)
    (hv : ax1 bp lo hi r_v ebv = some v) : 0 < v := by
  have hin : ∀ w ∈ (flatFrom lo hi).wavelen, 170 ≤ w ∧ w ≤ 3332 := by
    unfold flatFrom grid
    intro w hw
    obtain ⟨i, hi', rfl⟩ := List.mem_map.mp hw
    have h0 : (0 : ℝ) ≤ i := Nat.cast_nonneg i
    have : (i : ℝ) < hi + 1 - lo := by
      rw [List.mem_range, Nat.lt_ceil] at hi'
      exact hi'
    constructor <;> linarith
  have hp : ∀ w ∈ (flatFrom lo hi).wavelen, 0 < aLambda (ccm w) (r_v * ebv) r_v := by
    intro w hw
    obtain ⟨a, b⟩ := hin w hw
    refine (extinction_pos ⟨?_, ?_⟩ ?_ (mul_pos (by linarith) he) hr1 hr8).1
    · rw [div_le_iff₀ (by norm_num)]; linarith
    · rw [le_div_iff₀ (by norm_num)]; linarith
    · intro hc
      rw [hc, le_div_iff₀ (by norm_num)] at a
      norm_num at a
  obtain ⟨A, hA0, hA⟩ := exists_lower hp
  obtain ⟨B, hB⟩ := exists_upper (flatFrom lo hi).wavelen fun w => aLambda (ccm w) (r_v * ebv) r_v
  exact lt_of_lt_of_le hA0 (ax1_bounds h hA hB hv).1

theorem aLambda_ebv (ab : ℝ × ℝ) (r_v ebv : ℝ) :
    aLambda ab (r_v * ebv) r_v = ebv * aLambda ab (r_v * 1) r_v := by
  unfold aLambda; ring

/-- The claim that the stored value times `ebv` is the extinction for `ebv` fails for other
reference values than 1: for a reference large enough the stored value is not the extinction
for `ebv` of 1. -/
theorem ax1_false {bp : Band ℝ} {lo hi : ℝ} (h : Sampled bp lo hi) {r_v m M ref : ℝ} (hm : 0 < m)
    (hA : ∀ w ∈ (flatFrom lo hi).wavelen, m ≤ aLambda (ccm w) (r_v * 1) r_v)
    (hB : ∀ w ∈ (flatFrom lo hi).wavelen, aLambda (ccm w) (r_v * 1) r_v ≤ M)
    (href : M / m < ref) {stored v : ℝ} (hs : ax1 bp lo hi r_v ref = some stored)
    (hv : ax1 bp lo hi r_v 1 = some v) : v < stored * 1 := by
  obtain ⟨B, hB'⟩ := exists_upper (flatFrom lo hi).wavelen fun w => aLambda (ccm w) (r_v * ref) r_v
  have h1 := (ax1_bounds h hA hB hv).2
  have hw : ∃ w, w ∈ (flatFrom lo hi).wavelen := by
    have := (flatFrom_wf h.ends.2).1.1
    exact List.exists_mem_of_length_pos (by omega)
  have hM : 0 < M := by
    obtain ⟨w, hw⟩ := hw
    linarith [hA w hw, hB w hw]
  have hr : 0 < ref := (div_pos hM hm).trans href
  have h2 := (ax1_bounds h (A := ref * m) (fun w hw => by
    rw [aLambda_ebv]
    exact mul_le_mul_of_nonneg_left (hA w hw) hr.le) hB' hs).1
  rw [div_lt_iff₀ hm] at href
  linarith

/-- A narrow bandpass, with the spectrum at its two ends. -/
noncomputable def narrow : Band ℝ := ⟨[500, 500.5, 501], [0, 1, 0], none⟩

theorem narrow_sampled : Sampled narrow 500 501 := by
  have hg : Grid narrow.wavelen := by unfold Grid narrow; simp; norm_num
  refine ⟨⟨hg, by unfold narrow; simp; norm_num, rfl, Or.inl rfl⟩, by norm_num,
    flatFrom_covers hg (by norm_num) rfl rfl ?_ ?_, ?_, by unfold narrow; simp, ?_⟩
  · unfold narrow; simp; norm_num
  · unfold narrow; simp; norm_num
  · right
    unfold needResample
    have : (flatFrom 500 501).wavelen.length = 2 := by
      unfold flatFrom
      rw [grid_length]
      norm_num
    rw [this, decide_eq_true (by unfold narrow; simp), Bool.true_or]
  · have : trapz [(0 : ℝ) / 500, 1 / 500.5, 0 / 501] [500, 500.5, 501] ≠ 0 := by
      simp only [trapz]; norm_num
    unfold sbToPhi narrow
    dsimp only [List.zipWith]
    rw [if_neg this]
    simp

example : choose (some 3) (some 1) 4 = .valueError :=
  (choose_partial one_ne_zero (by norm_num)).mpr (by norm_num)

example : ∃ v, ax1 narrow 500 501 3.1 0 = some v ∧ v = 0 := by
  have e : ∀ w ∈ (flatFrom 500 501).wavelen, aLambda (ccm w) (3.1 * 0) 3.1 = 0 := by
    intro w _; unfold aLambda; simp
  obtain ⟨v, hv⟩ := ax1_exists narrow_sampled (r_v := 3.1) (ebv := 0)
    (fun w hw => by rw [e w hw]; norm_num)
  obtain ⟨a, b⟩ := ax1_bounds narrow_sampled (fun w hw => (e w hw).ge) (fun w hw => (e w hw).le) hv
  exact ⟨v, hv, le_antisymm b a⟩

end Verif.Dust
