import Mathlib.Analysis.Real.Pi.Bounds
import Mathlib.Tactic.Ring
import Mathlib.Tactic.FieldSimp
import Mathlib.Tactic.Linarith
import Mathlib.Tactic.Positivity
import Verif.Model.Astrometry
import Verif.Props.RealMetrics

/-!
# Astrometry: properties C221-C229
-/

namespace Verif.Astro

open Real

/-! ## Sums -/

section Sums
variable {α : Type*}

@[simp] theorem total_nil (f : α → ℝ) : total f [] = 0 := rfl
@[simp] theorem total_cons (f : α → ℝ) (a : α) (l : List α) : total f (a :: l) = f a + total f l := by simp [total]
theorem total_append (f : α → ℝ) (l l' : List α) : total f (l ++ l') = total f l + total f l' := by simp [total]
theorem total_map {β : Type*} (f : α → ℝ) (g : β → α) (l : List β) : total f (l.map g) = total (fun b => f (g b)) l := by
  simp [total, Function.comp_def]

theorem total_congr {f g : α → ℝ} {l : List α} (h : ∀ a ∈ l, f a = g a) : total f l = total g l := by
  unfold total
  rw [List.map_congr_left h]

theorem total_add (f g : α → ℝ) (l : List α) : total (fun a => f a + g a) l = total f l + total g l := by
  induction l with
  | nil => simp
  | cons a l ih => simp only [total_cons, ih]; ring

theorem total_mul (c : ℝ) (f : α → ℝ) (l : List α) : total (fun a => c * f a) l = c * total f l := by
  induction l with
  | nil => simp
  | cons a l ih => simp only [total_cons, ih]; ring

theorem total_sub (f g : α → ℝ) (l : List α) : total (fun a => f a - g a) l = total f l - total g l := by
  induction l with
  | nil => simp
  | cons a l ih => simp only [total_cons, ih]; ring

theorem total_const (c : ℝ) (l : List α) : total (fun _ => c) l = c * l.length := by
  induction l with
  | nil => simp
  | cons a l ih => simp only [total_cons, ih, List.length_cons]; push_cast; ring

theorem total_nonneg {f : α → ℝ} {l : List α} (h : ∀ a ∈ l, 0 ≤ f a) : 0 ≤ total f l := by
  induction l with
  | nil => simp
  | cons a l ih =>
    rw [total_cons]
    have h1 := h a (by simp)
    have h2 := ih (fun b hb => h b (List.mem_cons_of_mem _ hb))
    linarith

theorem total_le {f g : α → ℝ} {l : List α} (h : ∀ a ∈ l, f a ≤ g a) : total f l ≤ total g l := by
  have := total_nonneg (f := fun a => g a - f a) (l := l) (fun a ha => by linarith [h a ha])
  rw [total_sub] at this
  linarith

theorem total_pos {f : α → ℝ} {l : List α} (h : ∀ a ∈ l, 0 < f a) (hne : l ≠ []) : 0 < total f l := by
  cases l with
  | nil => exact absurd rfl hne
  | cons a l =>
    rw [total_cons]
    have h1 := h a (by simp)
    have h2 := total_nonneg (f := f) (l := l) (fun b hb => (h b (List.mem_cons_of_mem _ hb)).le)
    linarith

theorem total_eq_zero {f : α → ℝ} {l : List α} (h : ∀ a ∈ l, 0 ≤ f a) : total f l = 0 ↔ ∀ a ∈ l, f a = 0 := by
  induction l with
  | nil => simp
  | cons a l ih =>
    have h1 := h a (by simp)
    have h2 := total_nonneg (f := f) (l := l) (fun b hb => h b (List.mem_cons_of_mem _ hb))
    have h3 := ih (fun b hb => h b (List.mem_cons_of_mem _ hb))
    rw [total_cons]
    constructor
    · intro h0 b hb
      rcases List.mem_cons.mp hb with rfl | hb
      · linarith
      · exact h3.mp (by linarith) b hb
    · intro h0
      have h4 := h0 a (by simp)
      have h5 := h3.mpr (fun b hb => h0 b (List.mem_cons_of_mem _ hb))
      linarith

theorem total_perm (f : α → ℝ) {l l' : List α} (h : l.Perm l') : total f l = total f l' := (h.map f).sum_eq

end Sums

/-! ## C221 -/

/-- With the default gamma the signal to noise is that of the simple formula, which is also
what `None` gives. -/
theorem m52snr_default (m m5 : ℝ) : m52snr (some 0.04) m m5 = 5 * (10 : ℝ) ^ (0.4 * (m5 - m)) ∧
    m52snr none m m5 = 5 * (10 : ℝ) ^ (0.4 * (m5 - m)) := by
  have h1 : m52snr none m m5 = 5 * (10 : ℝ) ^ (0.4 * (m5 - m)) := by
    unfold m52snr
    simp only
    congr 2
    ring
  refine ⟨?_, h1⟩
  unfold m52snr
  simp only
  have hx : (0 : ℝ) < (10 : ℝ) ^ (0.4 * (m - m5)) := rpow_pos_of_pos (by norm_num) _
  set x := (10 : ℝ) ^ (0.4 * (m - m5)) with hxd
  have e : (0.04 - 0.04) * x + 0.04 * x * x = (x / 5) ^ 2 := by ring
  rw [e, sqrt_sq (by positivity)]
  have e2 : (10 : ℝ) ^ (0.4 * (m5 - m)) = x⁻¹ := by
    rw [hxd, ← rpow_neg (by norm_num)]
    congr 1
    ring
  rw [e2]
  field_simp

/-- A star at the limit has a signal to noise of five, for every gamma. -/
theorem m52snr_limit (g : Option ℝ) (m : ℝ) : m52snr g m m = 5 := by
  unfold m52snr
  cases g with
  | none => simp
  | some g =>
    simp only [sub_self, mul_zero, rpow_zero, mul_one]
    have e : (0.04 - g + g : ℝ) = 0.2 ^ 2 := by norm_num
    rw [e, sqrt_sq (by norm_num)]
    norm_num

/-- Deeper visits have more signal to noise, for every gamma from 0 to 0.04. -/
theorem m52snr_mono (g : ℝ) (h0 : 0 ≤ g) (h1 : g ≤ 0.04) (m a b : ℝ) (hab : a < b) :
    0 < m52snr (some g) m a ∧ m52snr (some g) m a < m52snr (some g) m b := by
  unfold m52snr
  simp only
  have hx : (0 : ℝ) < (10 : ℝ) ^ (0.4 * (m - a)) := rpow_pos_of_pos (by norm_num) _
  have hy : (0 : ℝ) < (10 : ℝ) ^ (0.4 * (m - b)) := rpow_pos_of_pos (by norm_num) _
  have hyx : (10 : ℝ) ^ (0.4 * (m - b)) < (10 : ℝ) ^ (0.4 * (m - a)) := rpow_lt_rpow_of_exponent_lt (by norm_num) (by linarith)
  set x := (10 : ℝ) ^ (0.4 * (m - a))
  set y := (10 : ℝ) ^ (0.4 * (m - b))
  have hpos : ∀ z : ℝ, 0 < z → 0 < (0.04 - g) * z + g * z * z := by
    intro z hz
    rcases eq_or_lt_of_le h0 with h | h
    · rw [← h]
      norm_num
      exact hz
    · have : 0 ≤ (0.04 - g) * z := mul_nonneg (by linarith) hz.le
      have : 0 < g * z * z := by positivity
      linarith
  have hlt : (0.04 - g) * y + g * y * y < (0.04 - g) * x + g * x * x := by
    have h2 : g * y * y ≤ g * x * x := by
      have : y * y ≤ x * x := mul_le_mul hyx.le hyx.le hy.le hx.le
      have := mul_le_mul_of_nonneg_left this h0
      linarith [mul_assoc g y y, mul_assoc g x x]
    have h3 : (0.04 - g) * y ≤ (0.04 - g) * x := mul_le_mul_of_nonneg_left hyx.le (by linarith)
    rcases eq_or_lt_of_le h0 with h | h
    · rw [← h]
      norm_num
      exact hyx
    · have : g * y * y < g * x * x := by
        have h4 : y * y < x * x := mul_lt_mul hyx hyx.le hy hx.le
        have := mul_lt_mul_of_pos_left h4 h
        linarith [mul_assoc g y y, mul_assoc g x x]
      linarith
  refine ⟨by have := sqrt_pos.mpr (hpos x hx); positivity, ?_⟩
  exact one_div_lt_one_div_of_lt (sqrt_pos.mpr (hpos y hy)) (sqrt_lt_sqrt (hpos y hy).le hlt)

/-- The precision is at least the floor and the noise, and at most their sum. -/
theorem astrom_bounds (fwhm snr floor : ℝ) (hf : 0 ≤ fwhm) (hs : 0 < snr) (h0 : 0 ≤ floor) :
    floor ≤ astromPrecision fwhm snr floor ∧ fwhm / snr ≤ astromPrecision fwhm snr floor ∧
      astromPrecision fwhm snr floor ≤ fwhm / snr + floor := by
  have hq : 0 ≤ fwhm / snr := by positivity
  unfold astromPrecision
  refine ⟨?_, ?_, ?_⟩
  · apply le_sqrt_of_sq_le
    have := sq_nonneg (fwhm / snr)
    linarith
  · apply le_sqrt_of_sq_le
    have := sq_nonneg floor
    linarith
  · rw [sqrt_le_left (by linarith)]
    have : 0 ≤ fwhm / snr * floor := mul_nonneg hq h0
    nlinarith

/-- It is smaller for better seeing and for more signal. -/
theorem astrom_mono (f f' s s' floor : ℝ) (hf0 : 0 ≤ f) (hf : f ≤ f') (hs : 0 < s') (hss : s' ≤ s) :
    astromPrecision f s floor ≤ astromPrecision f' s' floor := by
  unfold astromPrecision
  apply sqrt_le_sqrt
  have h1 : f / s ≤ f' / s' := div_le_div₀ (by linarith) hf hs hss
  have h2 : 0 ≤ f / s := div_nonneg hf0 (by linarith)
  have := pow_le_pow_left₀ h2 h1 2
  linarith

/-! ## C222 -/

/-- Coefficients `c` (last entries) of a linear estimate of the slope that is right for every
line through data with the given `x`. -/
def Unbiased (l : List (ℝ × ℝ × ℝ)) : Prop := ∀ a b : ℝ, total (fun p => p.2.2 * (a + b * p.1)) l = b

/-- The variance of the estimate for independent errors `sigma` (second entries). -/
noncomputable def variance (l : List (ℝ × ℝ × ℝ)) : ℝ := total (fun p => (p.2.2 * p.2.1) ^ 2) l

/-- `V` is the least variance of an unbiased linear estimate of the slope. -/
def LeastVariance (pts : List (ℝ × ℝ)) (V : ℝ) : Prop :=
  (∀ l : List (ℝ × ℝ × ℝ), l.map (fun p => (p.1, p.2.1)) = pts → Unbiased l → V ≤ variance l) ∧
    ∃ l : List (ℝ × ℝ × ℝ), l.map (fun p => (p.1, p.2.1)) = pts ∧ Unbiased l ∧ variance l = V

theorem unbiased_iff (l : List (ℝ × ℝ × ℝ)) :
    Unbiased l ↔ total (fun p => p.2.2) l = 0 ∧ total (fun p => p.2.2 * p.1) l = 1 := by
  have e : ∀ a b : ℝ, total (fun p : ℝ × ℝ × ℝ => p.2.2 * (a + b * p.1)) l = a * total (fun p => p.2.2) l + b * total (fun p => p.2.2 * p.1) l := by
    intro a b
    rw [← total_mul, ← total_mul, ← total_add]
    apply total_congr
    intro p _
    ring
  unfold Unbiased
  simp only [e]
  constructor
  · intro h
    have h1 := h 1 0
    have h2 := h 0 1
    constructor <;> linarith
  · rintro ⟨h1, h2⟩ a b
    rw [h1, h2]
    ring

/-- The sums of `sigma_slope`. -/
noncomputable def W (pts : List (ℝ × ℝ)) : ℝ := total (fun p => 1 / p.2 ^ 2) pts
noncomputable def WX (pts : List (ℝ × ℝ)) : ℝ := total (fun p => 1 / p.2 ^ 2 * p.1) pts
noncomputable def WXX (pts : List (ℝ × ℝ)) : ℝ := total (fun p => 1 / p.2 ^ 2 * p.1 ^ 2) pts
noncomputable def D (pts : List (ℝ × ℝ)) : ℝ := W pts * WXX pts - WX pts ^ 2

theorem sigmaSlope_eq (pts : List (ℝ × ℝ)) : sigmaSlope pts = if D pts ≤ 0 then none else some (√(W pts / D pts)) := rfl

/-- Weighted squares of the distances from a point. -/
theorem moment (pts : List (ℝ × ℝ)) (c : ℝ) :
    total (fun p => 1 / p.2 ^ 2 * (p.1 - c) ^ 2) pts = WXX pts - 2 * c * WX pts + c ^ 2 * W pts := by
  unfold WXX WX W
  rw [← total_mul (2 * c), ← total_mul (c ^ 2), ← total_sub, ← total_add]
  apply total_congr
  intro p _
  ring

theorem W_pos (pts : List (ℝ × ℝ)) (hs : ∀ p ∈ pts, 0 < p.2) (hne : pts ≠ []) : 0 < W pts := by
  apply total_pos _ hne
  intro p hp
  have := hs p hp
  positivity

theorem D_eq (pts : List (ℝ × ℝ)) (hs : ∀ p ∈ pts, 0 < p.2) (hne : pts ≠ []) :
    D pts = W pts * total (fun p => 1 / p.2 ^ 2 * (p.1 - WX pts / W pts) ^ 2) pts := by
  have hW := W_pos pts hs hne
  rw [moment]
  unfold D
  field_simp
  ring

theorem D_nonneg (pts : List (ℝ × ℝ)) (hs : ∀ p ∈ pts, 0 < p.2) : 0 ≤ D pts := by
  by_cases hne : pts = []
  · subst hne
    simp [D, W, WX, WXX]
  rw [D_eq pts hs hne]
  exact mul_nonneg (W_pos pts hs hne).le (total_nonneg (fun p _ => by positivity))

/-- There is no result exactly if all `x` are the same. -/
theorem sigmaSlope_nan_iff (pts : List (ℝ × ℝ)) (hs : ∀ p ∈ pts, 0 < p.2) :
    sigmaSlope pts = none ↔ ∀ p ∈ pts, ∀ q ∈ pts, p.1 = q.1 := by
  rw [sigmaSlope_eq]
  by_cases hne : pts = []
  · subst hne
    simp [D, W, WX, WXX]
  have hW := W_pos pts hs hne
  have h0 := D_nonneg pts hs
  have hiff : D pts ≤ 0 ↔ ∀ p ∈ pts, p.1 = WX pts / W pts := by
    have h1 : D pts ≤ 0 ↔ total (fun p => 1 / p.2 ^ 2 * (p.1 - WX pts / W pts) ^ 2) pts = 0 := by
      constructor
      · intro h
        have h2 : D pts = 0 := le_antisymm h h0
        rw [D_eq pts hs hne] at h2
        exact (mul_eq_zero.mp h2).resolve_left hW.ne'
      · intro h
        rw [D_eq pts hs hne, h, mul_zero]
    rw [h1, total_eq_zero (fun p _ => by positivity)]
    constructor
    · intro h p hp
      have h2 := h p hp
      have h3 := hs p hp
      rcases mul_eq_zero.mp h2 with h4 | h4
      · exfalso
        have : 0 < 1 / p.2 ^ 2 := by positivity
        linarith
      · have := pow_eq_zero_iff (two_ne_zero) |>.mp h4
        linarith
    · intro h p hp
      rw [h p hp]
      ring
  constructor
  · intro h p hp q hq
    have h1 : D pts ≤ 0 := by
      by_contra h2
      rw [if_neg h2] at h
      cases h
    rw [hiff.mp h1 p hp, hiff.mp h1 q hq]
  · intro h
    rw [if_pos]
    rw [hiff]
    intro p hp
    rw [eq_div_iff hW.ne']
    unfold W WX
    rw [← total_mul]
    apply total_congr
    intro q hq
    rw [h p hp q hq]
    ring

/-- **C222.** The result squared is the least variance of an unbiased linear estimate of the
slope. -/
theorem sigmaSlope_spec (pts : List (ℝ × ℝ)) (hs : ∀ p ∈ pts, 0 < p.2) (s : ℝ) (h : sigmaSlope pts = some s) :
    0 < s ∧ LeastVariance pts (s ^ 2) := by
  rw [sigmaSlope_eq] at h
  have hD : 0 < D pts := by
    by_contra h2
    rw [if_pos (not_lt.mp h2)] at h
    cases h
  rw [if_neg (not_le.mpr hD), Option.some.injEq] at h
  have hne : pts ≠ [] := by
    rintro rfl
    simp [D, W, WX, WXX] at hD
  have hW := W_pos pts hs hne
  have hV : 0 < W pts / D pts := by positivity
  subst h
  refine ⟨sqrt_pos.mpr hV, ?_⟩
  rw [sq_sqrt hV.le]
  -- coefficients of the least squares fit
  set k : ℝ × ℝ → ℝ := fun p => (1 / p.2 ^ 2) * (W pts * p.1 - WX pts) / D pts with hk
  constructor
  · intro l hl hu
    rw [unbiased_iff] at hu
    have hmem : ∀ p ∈ l, 0 < p.2.1 := fun p hp => hs (p.1, p.2.1) (hl ▸ List.mem_map_of_mem hp)
    -- products with the least squares coefficients
    have hcross : total (fun p : ℝ × ℝ × ℝ => (p.2.2 * p.2.1) * (k (p.1, p.2.1) * p.2.1)) l = W pts / D pts := by
      have e : total (fun p : ℝ × ℝ × ℝ => (p.2.2 * p.2.1) * (k (p.1, p.2.1) * p.2.1)) l =
          (W pts / D pts) * total (fun p => p.2.2 * p.1) l - (WX pts / D pts) * total (fun p => p.2.2) l := by
        rw [← total_mul, ← total_mul, ← total_sub]
        apply total_congr
        intro p hp
        have := hmem p hp
        simp only [hk]
        field_simp
      rw [e, hu.1, hu.2]
      ring
    have hsq : total (fun p : ℝ × ℝ × ℝ => (k (p.1, p.2.1) * p.2.1) ^ 2) l = W pts / D pts := by
      have e : total (fun p : ℝ × ℝ × ℝ => (k (p.1, p.2.1) * p.2.1) ^ 2) l = total (fun q : ℝ × ℝ => (k q * q.2) ^ 2) pts := by
        rw [← hl, total_map]
      rw [e]
      have e2 : total (fun q : ℝ × ℝ => (k q * q.2) ^ 2) pts = (W pts / D pts) ^ 2 * total (fun p => 1 / p.2 ^ 2 * (p.1 - WX pts / W pts) ^ 2) pts := by
        rw [← total_mul]
        apply total_congr
        intro q hq
        have := hs q hq
        simp only [hk]
        field_simp
      rw [e2]
      have h3 := D_eq pts hs hne
      have h4 : total (fun p => 1 / p.2 ^ 2 * (p.1 - WX pts / W pts) ^ 2) pts = D pts / W pts := by
        rw [eq_div_iff hW.ne', mul_comm]
        exact h3.symm
      rw [h4]
      field_simp
    have hpos : 0 ≤ total (fun p : ℝ × ℝ × ℝ => (p.2.2 * p.2.1 - k (p.1, p.2.1) * p.2.1) ^ 2) l :=
      total_nonneg (fun p _ => sq_nonneg _)
    have hexp : total (fun p : ℝ × ℝ × ℝ => (p.2.2 * p.2.1 - k (p.1, p.2.1) * p.2.1) ^ 2) l =
        variance l - 2 * (W pts / D pts) + W pts / D pts := by
      unfold variance
      conv_rhs => rw [← hcross]
      rw [← total_mul]
      conv_rhs => rw [hcross, ← hsq]
      rw [← total_sub, ← total_add]
      apply total_congr
      intro p _
      ring
    linarith
  · refine ⟨pts.map (fun p => (p.1, p.2, k p)), ?_, ?_, ?_⟩
    · rw [List.map_map]
      conv_rhs => rw [← List.map_id pts]
      rfl
    · rw [unbiased_iff, total_map, total_map]
      constructor
      · have e : total (fun p : ℝ × ℝ => k p) pts = (W pts / D pts) * WX pts - (WX pts / D pts) * W pts := by
          unfold WX W
          rw [← total_mul, ← total_mul, ← total_sub]
          apply total_congr
          intro p _
          simp only [hk, W, WX]
          ring
        simp only
        rw [e]
        ring
      · have e : total (fun p : ℝ × ℝ => k p * p.1) pts = (W pts / D pts) * WXX pts - (WX pts / D pts) * WX pts := by
          unfold WXX
          conv_rhs => rw [← total_mul]
          have e1 : (WX pts / D pts) * WX pts = total (fun p => (WX pts / D pts) * (1 / p.2 ^ 2 * p.1)) pts := by
            rw [total_mul]
            rfl
          rw [e1, ← total_sub]
          apply total_congr
          intro p _
          simp only [hk]
          ring
        simp only
        rw [e]
        have : D pts = W pts * WXX pts - WX pts ^ 2 := rfl
        field_simp
        linarith
    · unfold variance
      rw [total_map]
      simp only
      have e2 : total (fun q : ℝ × ℝ => (k q * q.2) ^ 2) pts = (W pts / D pts) ^ 2 * total (fun p => 1 / p.2 ^ 2 * (p.1 - WX pts / W pts) ^ 2) pts := by
        rw [← total_mul]
        apply total_congr
        intro q hq
        have := hs q hq
        simp only [hk]
        field_simp
      rw [e2]
      have h3 := D_eq pts hs hne
      have h4 : total (fun p => 1 / p.2 ^ 2 * (p.1 - WX pts / W pts) ^ 2) pts = D pts / W pts := by
        rw [eq_div_iff hW.ne', mul_comm]
        exact h3.symm
      rw [h4]
      field_simp

/-- Another measurement never makes the result worse. -/
theorem sigmaSlope_more (pts : List (ℝ × ℝ)) (hs : ∀ p ∈ pts, 0 < p.2) (q : ℝ × ℝ) (hq : 0 < q.2) (s : ℝ)
    (h : sigmaSlope pts = some s) : ∃ s', sigmaSlope (q :: pts) = some s' ∧ s' ≤ s := by
  have hs' : ∀ p ∈ q :: pts, 0 < p.2 := by
    intro p hp
    rcases List.mem_cons.mp hp with rfl | hp
    · exact hq
    · exact hs p hp
  obtain ⟨h0, _, l, hl, hu, hv⟩ := sigmaSlope_spec pts hs s h
  rcases h' : sigmaSlope (q :: pts) with _ | s'
  · exfalso
    rw [sigmaSlope_nan_iff _ hs'] at h'
    have : sigmaSlope pts = none := by
      rw [sigmaSlope_nan_iff _ hs]
      intro a ha b hb
      exact h' a (List.mem_cons_of_mem _ ha) b (List.mem_cons_of_mem _ hb)
    rw [this] at h
    cases h
  · refine ⟨s', rfl, ?_⟩
    obtain ⟨h0', hmin, _⟩ := sigmaSlope_spec _ hs' s' h'
    have := hmin ((q.1, q.2, 0) :: l) (by rw [List.map_cons, hl]) (by
      rw [unbiased_iff] at hu ⊢
      rw [total_cons, total_cons, hu.1, hu.2]
      constructor <;> ring)
    have e : variance ((q.1, q.2, 0) :: l) = variance l := by
      unfold variance
      rw [total_cons]
      ring
    rw [e, hv] at this
    exact le_of_sq_le_sq this h0.le
  where
    le_of_sq_le_sq {a b : ℝ} (h : a ^ 2 ≤ b ^ 2) (hb : 0 ≤ b) : a ≤ b := le_trans (le_abs_self a) (abs_le_of_sq_le_sq h hb)

/-- For instance two measurements at 0 and 2 with errors 3 and 4. -/
example : sigmaSlope [(0, 3), (2, 4)] = some (5 / 2) := by
  have hD : D [(0, 3), (2, 4)] = 1 / 36 := by
    simp [D, W, WX, WXX]
    norm_num
  have hW : W [(0, 3), (2, 4)] = 25 / 144 := by
    simp [W]
    norm_num
  rw [sigmaSlope_eq, hD, hW, if_neg (by norm_num)]
  congr 1
  rw [show (25 / 144 / (1 / 36) : ℝ) = (5 / 2) ^ 2 by norm_num, sqrt_sq (by norm_num)]

/-! ## C223 -/

/-- The signal to noise of a visit. -/
noncomputable def snrOf (mags : String → ℝ) (v : Visit) : ℝ := 5 * (10 : ℝ) ^ (0.4 * (v.m5 - mags v.band))

theorem snrOf_pos (mags : String → ℝ) (v : Visit) : 0 < snrOf mags v := by
  unfold snrOf
  have : (0 : ℝ) < (10 : ℝ) ^ (0.4 * (v.m5 - mags v.band)) := rpow_pos_of_pos (by norm_num) _
  linarith

/-- The error of a visit. -/
noncomputable def errOf (mags : String → ℝ) (atm : ℝ) (v : Visit) : ℝ := √((v.seeing / snrOf mags v) ^ 2 + atm ^ 2)

theorem errOf_pos (mags : String → ℝ) (atm : ℝ) (v : Visit) (h : 0 < v.seeing) : 0 < errOf mags atm v := by
  unfold errOf
  have := snrOf_pos mags v
  have h1 : 0 < (v.seeing / snrOf mags v) ^ 2 := by positivity
  have h2 := sq_nonneg atm
  exact sqrt_pos.mpr (by linarith)

theorem snrLoop_spec (mags : String → ℝ) (fs : List String) (vs : List Visit) :
    snrLoop mags fs vs = vs.map (fun v => (v, if v.band ∈ fs then snrOf mags v else 0)) := by
  unfold snrLoop
  have h : ∀ (fs : List String) (g : Visit → ℝ), fs.foldl (snrStep mags) (vs.map (fun v => (v, g v))) =
      vs.map (fun v => (v, if v.band ∈ fs then snrOf mags v else g v)) := by
    intro fs
    induction fs with
    | nil => intro g; simp
    | cons f fs ih =>
      intro g
      rw [List.foldl_cons]
      have e : snrStep mags (vs.map (fun v => (v, g v))) f = vs.map (fun v => (v, if v.band = f then snrOf mags v else g v)) := by
        unfold snrStep
        rw [List.map_map]
        apply List.map_congr_left
        intro v _
        simp only [Function.comp]
        by_cases hb : v.band = f
        · rw [if_pos hb, if_pos hb, (m52snr_default _ _).1]
          unfold snrOf
          rw [hb]
        · rw [if_neg hb, if_neg hb]
      rw [e, ih]
      apply List.map_congr_left
      intro v _
      by_cases h1 : v.band ∈ fs
      · simp [h1]
      · by_cases h2 : v.band = f
        · simp [h2]
        · simp [h1, h2]
  exact h fs (fun _ => 0)

theorem errors_spec (mags : String → ℝ) (atm : ℝ) (vs : List Visit) :
    errors mags atm vs = vs.map (fun v => (v, errOf mags atm v)) := by
  unfold errors
  rw [snrLoop_spec, List.map_map]
  apply List.map_congr_left
  intro v hv
  have : v.band ∈ (vs.map Visit.band).dedup := List.mem_dedup.mpr (List.mem_map_of_mem hv)
  simp only [Function.comp, if_pos this]
  rfl

/-- Coefficients (last entries) of an estimate of an amplitude that is right for every
amplitude, for data that are the amplitude times the second entries. -/
def UnbiasedAmp (l : List (ℝ × ℝ × ℝ)) : Prop := ∀ a : ℝ, total (fun p => p.2.2 * (a * p.2.1)) l = a

/-- Its variance for independent errors (first entries). -/
noncomputable def varianceAmp (l : List (ℝ × ℝ × ℝ)) : ℝ := total (fun p => (p.2.2 * p.1) ^ 2) l

/-- `V` is the least variance of an unbiased linear estimate of the amplitude. -/
def LeastAmp (pts : List (ℝ × ℝ)) (V : ℝ) : Prop :=
  (∀ l : List (ℝ × ℝ × ℝ), l.map (fun p => (p.1, p.2.1)) = pts → UnbiasedAmp l → V ≤ varianceAmp l) ∧
    ∃ l : List (ℝ × ℝ × ℝ), l.map (fun p => (p.1, p.2.1)) = pts ∧ UnbiasedAmp l ∧ varianceAmp l = V

theorem leastAmp (pts : List (ℝ × ℝ)) (hs : ∀ p ∈ pts, 0 < p.1) (hA : 0 < total (fun p => (p.2 / p.1) ^ 2) pts) :
    LeastAmp pts (1 / total (fun p => (p.2 / p.1) ^ 2) pts) := by
  set A := total (fun p => (p.2 / p.1) ^ 2) pts with hAd
  have hu : ∀ l : List (ℝ × ℝ × ℝ), UnbiasedAmp l ↔ total (fun p => p.2.2 * p.2.1) l = 1 := by
    intro l
    have e : ∀ a : ℝ, total (fun p : ℝ × ℝ × ℝ => p.2.2 * (a * p.2.1)) l = a * total (fun p => p.2.2 * p.2.1) l := by
      intro a
      rw [← total_mul]
      apply total_congr
      intro p _
      ring
    unfold UnbiasedAmp
    simp only [e]
    constructor
    · intro h
      have := h 1
      linarith
    · intro h a
      rw [h, mul_one]
  constructor
  · intro l hl hul
    rw [hu] at hul
    have hmem : ∀ p ∈ l, 0 < p.1 := fun p hp => hs (p.1, p.2.1) (hl ▸ List.mem_map_of_mem hp)
    have hA' : total (fun p : ℝ × ℝ × ℝ => (p.2.1 / p.1) ^ 2) l = A := by
      rw [hAd, ← hl, total_map]
    have hpos : 0 ≤ total (fun p : ℝ × ℝ × ℝ => (p.2.2 * p.1 - 1 / A * (p.2.1 / p.1)) ^ 2) l := total_nonneg (fun p _ => sq_nonneg _)
    have hexp : total (fun p : ℝ × ℝ × ℝ => (p.2.2 * p.1 - 1 / A * (p.2.1 / p.1)) ^ 2) l =
        varianceAmp l - 2 * (1 / A) * total (fun p => p.2.2 * p.2.1) l + (1 / A) ^ 2 * total (fun p : ℝ × ℝ × ℝ => (p.2.1 / p.1) ^ 2) l := by
      unfold varianceAmp
      rw [← total_mul, ← total_mul, ← total_sub, ← total_add]
      apply total_congr
      intro p hp
      have := hmem p hp
      field_simp
      ring
    rw [hexp, hul, hA'] at hpos
    have e : (1 / A) ^ 2 * A = 1 / A := by field_simp
    rw [e] at hpos
    linarith
  · refine ⟨pts.map (fun p => (p.1, p.2, 1 / A * (p.2 / p.1 ^ 2))), ?_, ?_, ?_⟩
    · rw [List.map_map]
      conv_rhs => rw [← List.map_id pts]
      rfl
    · rw [hu, total_map]
      have e : total (fun p : ℝ × ℝ => 1 / A * (p.2 / p.1 ^ 2) * p.2) pts = 1 / A * A := by
        conv_rhs => rw [hAd]
        rw [← total_mul]
        apply total_congr
        intro p hp
        have := hs p hp
        rw [← hAd]
        field_simp
      simp only
      rw [e]
      field_simp
    · unfold varianceAmp
      rw [total_map]
      have e : total (fun p : ℝ × ℝ => (1 / A * (p.2 / p.1 ^ 2) * p.1) ^ 2) pts = (1 / A) ^ 2 * A := by
        conv_rhs => rw [hAd]
        rw [← total_mul]
        apply total_congr
        intro p hp
        have := hs p hp
        rw [← hAd]
        field_simp
      simp only
      rw [e]
      field_simp

/-- Sums of `_final_sigma`. -/
theorem finalSigma_eq (l : List (ℝ × ℝ × ℝ)) :
    finalSigma l = if total (fun p => (p.2.1 / p.1) ^ 2 + (p.2.2 / p.1) ^ 2) l = 0 then none
      else some (√(1 / total (fun p => (p.2.1 / p.1) ^ 2 + (p.2.2 / p.1) ^ 2) l) * 1000) := by
  have e1 : ∀ f : ℝ × ℝ × ℝ → ℝ, total (fun p => 1 / (p.1 / f p) ^ 2) l = total (fun p => (f p / p.1) ^ 2) l := by
    intro f
    apply total_congr
    intro p _
    rw [div_pow, div_pow, one_div_div]
  have e2 : ∀ x : ℝ, 0 ≤ x → 1 / √(1 / x) ^ 2 = x := by
    intro x hx
    rw [sq_sqrt (by positivity), one_div_one_div]
  have h1 := total_nonneg (f := fun p : ℝ × ℝ × ℝ => (p.2.1 / p.1) ^ 2) (l := l) (fun _ _ => sq_nonneg _)
  have h2 := total_nonneg (f := fun p : ℝ × ℝ × ℝ => (p.2.2 / p.1) ^ 2) (l := l) (fun _ _ => sq_nonneg _)
  unfold finalSigma
  simp only [e1 (fun p => p.2.1), e1 (fun p => p.2.2), e2 _ h1, e2 _ h2, total_add]

/-- The parallax data: both coordinates of all visits, with their errors. -/
noncomputable def parallaxData (mags : String → ℝ) (atm : ℝ) (vs : List Visit) : List (ℝ × ℝ) :=
  vs.map (fun v => (errOf mags atm v, v.ra)) ++ vs.map (fun v => (errOf mags atm v, v.dec))

theorem parallaxData_sum (mags : String → ℝ) (atm : ℝ) (vs : List Visit) :
    total (fun p => (p.2 / p.1) ^ 2) (parallaxData mags atm vs) =
      total (fun v => (v.ra / errOf mags atm v) ^ 2 + (v.dec / errOf mags atm v) ^ 2) vs := by
  unfold parallaxData
  rw [total_append, total_map, total_map, total_add]

theorem parallax_eq (mags : String → ℝ) (atm : ℝ) (vs : List Visit) :
    parallax mags atm vs = if total (fun p => (p.2 / p.1) ^ 2) (parallaxData mags atm vs) = 0 then none
      else some (√(1 / total (fun p => (p.2 / p.1) ^ 2) (parallaxData mags atm vs)) * 1000) := by
  unfold parallax
  rw [errors_spec, List.map_map, finalSigma_eq, total_map, parallaxData_sum]
  rfl

/-- **C223.** The uncertainty of the parallax, in thousandths, squared is the least variance
of an unbiased linear estimate from all coordinates; it is infinite exactly if there is no
parallax in any visit. -/
theorem parallax_spec (mags : String → ℝ) (atm : ℝ) (vs : List Visit) (hs : ∀ v ∈ vs, 0 < v.seeing) :
    (parallax mags atm vs = none ↔ ∀ v ∈ vs, v.ra = 0 ∧ v.dec = 0) ∧
      ∀ s, parallax mags atm vs = some s → 0 < s ∧ LeastAmp (parallaxData mags atm vs) ((s / 1000) ^ 2) := by
  have hpos : ∀ p ∈ parallaxData mags atm vs, 0 < p.1 := by
    intro p hp
    rcases List.mem_append.mp hp with hp | hp
    · obtain ⟨v, hv, rfl⟩ := List.mem_map.mp hp
      exact errOf_pos mags atm v (hs v hv)
    · obtain ⟨v, hv, rfl⟩ := List.mem_map.mp hp
      exact errOf_pos mags atm v (hs v hv)
  have h0 : 0 ≤ total (fun p => (p.2 / p.1) ^ 2) (parallaxData mags atm vs) := total_nonneg (fun _ _ => sq_nonneg _)
  rw [parallax_eq]
  constructor
  · rw [parallaxData_sum]
    have hz : total (fun v => (v.ra / errOf mags atm v) ^ 2 + (v.dec / errOf mags atm v) ^ 2) vs = 0 ↔ ∀ v ∈ vs, v.ra = 0 ∧ v.dec = 0 := by
      rw [total_eq_zero (fun v _ => by positivity)]
      constructor
      · intro h v hv
        have h1 := h v hv
        have h2 := errOf_pos mags atm v (hs v hv)
        have h3 : (v.ra / errOf mags atm v) ^ 2 = 0 := le_antisymm (by linarith [sq_nonneg (v.dec / errOf mags atm v)]) (sq_nonneg _)
        have h4 : (v.dec / errOf mags atm v) ^ 2 = 0 := by linarith
        rw [sq_eq_zero_iff, div_eq_zero_iff] at h3 h4
        exact ⟨h3.resolve_right h2.ne', h4.resolve_right h2.ne'⟩
      · intro h v hv
        rw [(h v hv).1, (h v hv).2]
        simp
    rw [← hz]
    constructor
    · intro h
      by_contra h1
      rw [if_neg h1] at h
      cases h
    · intro h
      rw [if_pos h]
  · intro s h
    by_cases hz : total (fun p => (p.2 / p.1) ^ 2) (parallaxData mags atm vs) = 0
    · rw [if_pos hz] at h
      cases h
    · rw [if_neg hz, Option.some.injEq] at h
      have hA : 0 < total (fun p => (p.2 / p.1) ^ 2) (parallaxData mags atm vs) := lt_of_le_of_ne h0 (Ne.symm hz)
      subst h
      constructor
      · have : 0 < √(1 / total (fun p => (p.2 / p.1) ^ 2) (parallaxData mags atm vs)) := sqrt_pos.mpr (by positivity)
        positivity
      · have e : (√(1 / total (fun p => (p.2 / p.1) ^ 2) (parallaxData mags atm vs)) * 1000 / 1000) ^ 2 =
            1 / total (fun p => (p.2 / p.1) ^ 2) (parallaxData mags atm vs) := by
          rw [mul_div_assoc, div_self (by norm_num), mul_one, sq_sqrt (by positivity)]
        rw [e]
        exact leastAmp _ hpos hA

/-- The normalised value squared is the mean of the squared parallax factors, weighted by the
precision of the visits; so it is from zero to one, and one only if the parallax is full in
all visits. -/
theorem parallaxNorm_spec (mags : String → ℝ) (atm : ℝ) (vs : List Visit) (hs : ∀ v ∈ vs, 0 < v.seeing) (hne : vs ≠ []) :
    ∃ r, parallaxNorm mags atm vs = some r ∧ 0 ≤ r ∧
      r ^ 2 * total (fun v => 1 / errOf mags atm v ^ 2) vs = total (fun v => 1 / errOf mags atm v ^ 2 * (v.ra ^ 2 + v.dec ^ 2)) vs ∧
      ((∀ v ∈ vs, v.ra ^ 2 + v.dec ^ 2 ≤ 1) → r ≤ 1 ∧ (r = 1 ↔ ∀ v ∈ vs, v.ra ^ 2 + v.dec ^ 2 = 1)) := by
  have herr := fun v hv => errOf_pos mags atm v (hs v hv)
  set U := total (fun v => 1 / errOf mags atm v ^ 2) vs with hU
  set A := total (fun v => 1 / errOf mags atm v ^ 2 * (v.ra ^ 2 + v.dec ^ 2)) vs with hA
  have hU0 : 0 < U := total_pos (fun v hv => by have := herr v hv; positivity) hne
  have hA0 : 0 ≤ A := total_nonneg (fun v _ => by positivity)
  have hAe : total (fun p => (p.2 / p.1) ^ 2) (parallaxData mags atm vs) = A := by
    rw [parallaxData_sum]
    apply total_congr
    intro v _
    rw [div_pow, div_pow]
    ring
  have hbest : finalSigma ((errors mags atm vs).map (fun p => (p.2, p.1.ra * 0 + 1, p.1.dec * 0))) = some (√(1 / U) * 1000) := by
    rw [errors_spec, List.map_map, finalSigma_eq, total_map]
    have e : total (fun v : Visit => (((fun p : Visit × ℝ => (p.2, p.1.ra * 0 + 1, p.1.dec * 0)) ∘ fun v => (v, errOf mags atm v)) v).2.1 /
        (((fun p : Visit × ℝ => (p.2, p.1.ra * 0 + 1, p.1.dec * 0)) ∘ fun v => (v, errOf mags atm v)) v).1) vs = total (fun v => 1 / errOf mags atm v) vs := by
      apply total_congr
      intro v _
      simp
    have e2 : total (fun v : Visit => ((((fun p : Visit × ℝ => (p.2, p.1.ra * 0 + 1, p.1.dec * 0)) ∘ fun v => (v, errOf mags atm v)) v).2.1 /
        (((fun p : Visit × ℝ => (p.2, p.1.ra * 0 + 1, p.1.dec * 0)) ∘ fun v => (v, errOf mags atm v)) v).1) ^ 2 +
        ((((fun p : Visit × ℝ => (p.2, p.1.ra * 0 + 1, p.1.dec * 0)) ∘ fun v => (v, errOf mags atm v)) v).2.2 /
        (((fun p : Visit × ℝ => (p.2, p.1.ra * 0 + 1, p.1.dec * 0)) ∘ fun v => (v, errOf mags atm v)) v).1) ^ 2) vs = U := by
      rw [hU]
      apply total_congr
      intro v _
      simp
    rw [e2, if_neg hU0.ne']
  have hr : parallaxNorm mags atm vs = some (√(A / U)) := by
    unfold parallaxNorm
    rw [hbest, Option.map_some, parallax_eq, hAe]
    congr 1
    by_cases hz : A = 0
    · rw [if_pos hz, hz]
      simp
    · rw [if_neg hz]
      have hA1 : 0 < A := lt_of_le_of_ne hA0 (Ne.symm hz)
      simp only
      rw [mul_div_mul_right _ _ (by norm_num), ← sqrt_div (by positivity)]
      congr 1
      field_simp
  refine ⟨_, hr, sqrt_nonneg _, ?_, ?_⟩
  · rw [sq_sqrt (by positivity)]
    field_simp
  · intro h
    have hle : A ≤ U := by
      rw [hA, hU]
      apply total_le
      intro v hv
      have h1 := h v hv
      have h2 : 0 ≤ 1 / errOf mags atm v ^ 2 := by positivity
      calc _ ≤ 1 / errOf mags atm v ^ 2 * 1 := mul_le_mul_of_nonneg_left h1 h2
        _ = _ := mul_one _
    constructor
    · rw [sqrt_le_one]
      rw [div_le_one hU0]
      exact hle
    · rw [sqrt_eq_one, div_eq_one_iff_eq hU0.ne']
      have hdiff : U - A = total (fun v => 1 / errOf mags atm v ^ 2 * (1 - (v.ra ^ 2 + v.dec ^ 2))) vs := by
        rw [hU, hA, ← total_sub]
        apply total_congr
        intro v _
        ring
      have hz := total_eq_zero (f := fun v => 1 / errOf mags atm v ^ 2 * (1 - (v.ra ^ 2 + v.dec ^ 2))) (l := vs)
        (fun v hv => mul_nonneg (by positivity) (by linarith [h v hv]))
      constructor
      · intro h1 v hv
        have h2 := hz.mp (by rw [← hdiff]; linarith) v hv
        have h3 := herr v hv
        rcases mul_eq_zero.mp h2 with h4 | h4
        · exfalso
          have : 0 < 1 / errOf mags atm v ^ 2 := by positivity
          linarith
        · linarith
      · intro h1
        have := hz.mpr (fun v hv => by rw [h1 v hv]; ring)
        rw [← hdiff] at this
        linarith

/-! ## C224 -/

theorem pmKept_spec (mags : String → ℝ) (atm : ℝ) (vs : List Visit) :
    pmKept mags atm vs = (vs.filter (fun v => decide (2 ≤ vs.countP (fun u => decide (u.band = v.band))))).map
      (fun v => (v.mjd, errOf mags atm v)) := by
  unfold pmKept
  apply List.map_congr_left
  intro v _
  rw [(m52snr_default _ _).1]
  rfl

/-- **C224.** The uncertainty of the proper motion: of the visits in filters with two or more,
the least variance of the slope, in thousandths per year. -/
theorem pm_spec (baseline : ℝ) (mags : String → ℝ) (atm : ℝ) (vs kept : List Visit) (hs : ∀ v ∈ vs, 0 < v.seeing)
    (hk : kept = vs.filter (fun v => decide (2 ≤ (vs.filter (fun u => decide (u.band = v.band))).length))) :
    (properMotion false baseline mags atm vs = none ↔ ∀ u ∈ kept, ∀ v ∈ kept, u.mjd = v.mjd) ∧
      ∀ s, properMotion false baseline mags atm vs = some s →
        0 < s ∧ LeastVariance (kept.map (fun v => (v.mjd, errOf mags atm v))) ((s / 365250) ^ 2) := by
  have hkept : pmKept mags atm vs = kept.map (fun v => (v.mjd, errOf mags atm v)) := by
    rw [pmKept_spec, hk]
    simp only [List.countP_eq_length_filter]
  have hpos : ∀ p ∈ kept.map (fun v => (v.mjd, errOf mags atm v)), 0 < p.2 := by
    intro p hp
    obtain ⟨v, hv, rfl⟩ := List.mem_map.mp hp
    rw [hk] at hv
    exact errOf_pos mags atm v (hs v (List.mem_filter.mp hv).1)
  have hrun : properMotion false baseline mags atm vs =
      (sigmaSlope (kept.map (fun v => (v.mjd, errOf mags atm v)))).map (fun s => s * 365.25 * 1000) := by
    unfold properMotion pm
    rw [hkept]
    simp
  rw [hrun]
  constructor
  · rw [Option.map_eq_none_iff, sigmaSlope_nan_iff _ hpos]
    simp
  · intro s h
    obtain ⟨t, ht, rfl⟩ := Option.map_eq_some_iff.mp h
    obtain ⟨h1, h2⟩ := sigmaSlope_spec _ hpos t ht
    refine ⟨by positivity, ?_⟩
    have e : t * 365.25 * 1000 / 365250 = t := by ring
    rw [e]
    exact h2

theorem W_append (a b : List (ℝ × ℝ)) : W (a ++ b) = W a + W b := total_append _ _ _
theorem WX_append (a b : List (ℝ × ℝ)) : WX (a ++ b) = WX a + WX b := total_append _ _ _
theorem WXX_append (a b : List (ℝ × ℝ)) : WXX (a ++ b) = WXX a + WXX b := total_append _ _ _

theorem W_at (l : List (ℝ × ℝ)) (c : ℝ) : W (l.map (fun p => (c, p.2))) = W l := by
  unfold W
  rw [total_map]

theorem WX_at (l : List (ℝ × ℝ)) (c : ℝ) : WX (l.map (fun p => (c, p.2))) = c * W l := by
  unfold WX W
  rw [total_map, ← total_mul]
  apply total_congr
  intro p _
  ring

theorem WXX_at (l : List (ℝ × ℝ)) (c : ℝ) : WXX (l.map (fun p => (c, p.2))) = c ^ 2 * W l := by
  unfold WXX W
  rw [total_map, ← total_mul]
  apply total_congr
  intro p _
  ring

theorem W_split (pts : List (ℝ × ℝ)) (k : ℕ) : W (pts.take k) + W (pts.drop k) = W pts := by
  rw [← W_append, List.take_append_drop]

theorem W_best (baseline : ℝ) (pts : List (ℝ × ℝ)) : W (bestDates baseline pts) = W pts := by
  unfold bestDates
  rw [W_append, W_at, W_at, W_split]

theorem D_best (baseline : ℝ) (pts : List (ℝ × ℝ)) : D (bestDates baseline pts) =
    W (pts.take (pts.length / 2)) * W (pts.drop (pts.length / 2)) * (baseline * 365.25) ^ 2 := by
  unfold D
  rw [W_best]
  unfold bestDates
  rw [WX_append, WX_at, WX_at, WXX_append, WXX_at, WXX_at, ← W_split pts (pts.length / 2)]
  ring

theorem D_best_pos (baseline : ℝ) (pts : List (ℝ × ℝ)) (hb : 0 < baseline) (hs : ∀ p ∈ pts, 0 < p.2) (h2 : 2 ≤ pts.length) :
    0 < D (bestDates baseline pts) := by
  rw [D_best]
  have h3 : 0 < W (pts.take (pts.length / 2)) := W_pos _ (fun p hp => hs p (List.mem_of_mem_take hp)) (by
    intro h
    have := congrArg List.length h
    rw [List.length_take, List.length_nil] at this
    omega)
  have h4 : 0 < W (pts.drop (pts.length / 2)) := W_pos _ (fun p hp => hs p (List.mem_of_mem_drop hp)) (by
    intro h
    have := congrArg List.length h
    rw [List.length_drop, List.length_nil] at this
    omega)
  positivity

/-- The normalised value. -/
theorem pmNorm_eq (baseline : ℝ) (pts : List (ℝ × ℝ)) (hb : 0 < baseline) (hs : ∀ p ∈ pts, 0 < p.2) (h2 : 2 ≤ pts.length) :
    pmNorm baseline pts = if D pts ≤ 0 then none else some (√(D pts / D (bestDates baseline pts))) := by
  have hne : pts ≠ [] := by
    rintro rfl
    simp at h2
  have hW := W_pos pts hs hne
  have hB := D_best_pos baseline pts hb hs h2
  unfold pmNorm pm
  rw [sigmaSlope_eq, sigmaSlope_eq, if_neg (not_le.mpr hB), W_best]
  by_cases hD : D pts ≤ 0
  · rw [if_pos hD, if_pos hD]
    rfl
  · rw [if_neg hD, if_neg hD]
    have hD' : 0 < D pts := not_le.mp hD
    simp only [Option.map_some, Option.some.injEq]
    have h1 : 0 < √(W pts / D pts) := sqrt_pos.mpr (by positivity)
    have e : ∀ a b : ℝ, a * 365.25 * 1000 / (b * 365.25 * 1000) = a / b := by
      intro a b
      rw [mul_assoc, mul_assoc, mul_div_mul_right _ _ (by norm_num)]
    rw [e, ← sqrt_div (by positivity)]
    congr 1
    field_simp

/-- Half at each end is the widest spread of dates in an interval. -/
theorem widest (T : ℝ) (xs : List ℝ) (h : ∀ x ∈ xs, 0 ≤ x ∧ x ≤ T) (a b : ℕ) :
    ((a + b + xs.length : ℕ) : ℝ) * (total (fun x => x ^ 2) xs + b * T ^ 2) - (total (fun x => x) xs + b * T) ^ 2 ≤
      (((a + b + xs.length) / 2 : ℕ) : ℝ) * (((a + b + xs.length) - (a + b + xs.length) / 2 : ℕ) : ℝ) * T ^ 2 := by
  induction xs generalizing a b with
  | nil =>
    simp only [List.length_nil, add_zero, total_nil, zero_add]
    have h1 : a * b ≤ (a + b) / 2 * (a + b - (a + b) / 2) := by
      rcases Nat.even_or_odd' (a + b) with ⟨k, hk | hk⟩
      · have h2 : (a + b) / 2 = k := by omega
        rw [h2, hk]
        have h3 : 2 * k - k = k := by omega
        rw [h3]
        nlinarith [sq_nonneg ((a : ℤ) - b)]
      · have h2 : (a + b) / 2 = k := by omega
        rw [h2, hk]
        have h3 : 2 * k + 1 - k = k + 1 := by omega
        rw [h3]
        rcases le_or_gt a b with h4 | h4
        · have h5 : a ≤ k := by omega
          obtain ⟨c, rfl⟩ := Nat.exists_eq_add_of_le h5
          have h6 : b = a + 2 * c + 1 := by omega
          subst h6
          nlinarith
        · have h5 : b ≤ k := by omega
          obtain ⟨c, rfl⟩ := Nat.exists_eq_add_of_le h5
          have h6 : a = b + 2 * c + 1 := by omega
          subst h6
          nlinarith
    have h2 : ((a * b : ℕ) : ℝ) ≤ (((a + b) / 2 * (a + b - (a + b) / 2) : ℕ) : ℝ) := Nat.cast_le.mpr h1
    rw [Nat.cast_mul, Nat.cast_mul] at h2
    have h3 := mul_le_mul_of_nonneg_right h2 (sq_nonneg T)
    calc _ = (a : ℝ) * b * T ^ 2 := by
          push_cast
          ring
      _ ≤ _ := h3
  | cons x xs ih =>
    have hx := h x (List.mem_cons_self ..)
    have hxs : ∀ y ∈ xs, 0 ≤ y ∧ y ≤ T := fun y hy => h y (List.mem_cons_of_mem _ hy)
    have h0 := ih hxs (a + 1) b
    have h1 := ih hxs a (b + 1)
    have e0 : a + 1 + b + xs.length = a + b + (x :: xs).length := by
      rw [List.length_cons]
      omega
    have e1 : a + (b + 1) + xs.length = a + b + (x :: xs).length := by
      rw [List.length_cons]
      omega
    rw [e0] at h0
    rw [e1] at h1
    have hN : (1 : ℝ) ≤ ((a + b + (x :: xs).length : ℕ) : ℝ) := by
      have : 1 ≤ a + b + (x :: xs).length := by
        rw [List.length_cons]
        omega
      exact_mod_cast this
    rw [total_cons, total_cons]
    set N : ℝ := ((a + b + (x :: xs).length : ℕ) : ℝ)
    set M := (((a + b + (x :: xs).length) / 2 : ℕ) : ℝ) * (((a + b + (x :: xs).length) - (a + b + (x :: xs).length) / 2 : ℕ) : ℝ) * T ^ 2
    set q := total (fun x => x ^ 2) xs
    set s := total (fun x : ℝ => x) xs
    push_cast at h1
    rcases eq_or_lt_of_le (le_trans hx.1 hx.2) with hT | hT
    · have hx0 : x = 0 := le_antisymm (by linarith [hx.2]) hx.1
      rw [hx0]
      calc _ = N * (q + b * T ^ 2) - (s + b * T) ^ 2 := by ring
        _ ≤ _ := h0
    · have hc0 : 0 ≤ 1 - x / T := by
        rw [sub_nonneg, div_le_one hT]
        exact hx.2
      have hc1 : 0 ≤ x / T := div_nonneg hx.1 hT.le
      have k0 := mul_le_mul_of_nonneg_left h0 hc0
      have k1 := mul_le_mul_of_nonneg_left h1 hc1
      have hxx : x ^ 2 ≤ x * T := by nlinarith
      have e : (1 - x / T) * (N * (q + b * T ^ 2) - (s + b * T) ^ 2) + x / T * (N * (q + (b + 1) * T ^ 2) - (s + (b + 1) * T) ^ 2) =
          N * (q + b * T ^ 2) - (s + b * T) ^ 2 + (N - 1) * (x * T) - 2 * x * (s + b * T) := by
        field_simp
        ring
      have e2 : (1 - x / T) * M + x / T * M = M := by ring
      have h3 : (N - 1) * x ^ 2 ≤ (N - 1) * (x * T) := mul_le_mul_of_nonneg_left hxx (by linarith)
      calc _ = N * (q + b * T ^ 2) - (s + b * T) ^ 2 + (N - 1) * x ^ 2 - 2 * x * (s + b * T) := by ring
        _ ≤ N * (q + b * T ^ 2) - (s + b * T) ^ 2 + (N - 1) * (x * T) - 2 * x * (s + b * T) := by linarith
        _ = (1 - x / T) * (N * (q + b * T ^ 2) - (s + b * T) ^ 2) + x / T * (N * (q + (b + 1) * T ^ 2) - (s + (b + 1) * T) ^ 2) := e.symm
        _ ≤ (1 - x / T) * M + x / T * M := by linarith
        _ = M := e2

/-- What the docstring says: the normalised value is at most one for visits within the
baseline. -/
def NormAtMostOne : Prop :=
  ∀ (baseline : ℝ) (mags : String → ℝ) (atm : ℝ) (vs : List Visit) (r : ℝ), 0 < baseline → (∀ v ∈ vs, 0 < v.seeing) →
    (∀ u ∈ vs, ∀ v ∈ vs, u.mjd - v.mjd ≤ baseline * 365.25) →
    properMotion true baseline mags atm vs = some r → r ≤ 1

/-- For visits with the same error it is so. Missing from `NormAtMostOne`: errors that
differ. -/
theorem pm_norm_partial (baseline e : ℝ) (mags : String → ℝ) (atm : ℝ) (vs : List Visit) (r : ℝ) (hb : 0 < baseline)
    (hs : ∀ v ∈ vs, 0 < v.seeing) (he : ∀ v ∈ vs, errOf mags atm v = e)
    (hw : ∀ u ∈ vs, ∀ v ∈ vs, u.mjd - v.mjd ≤ baseline * 365.25)
    (h : properMotion true baseline mags atm vs = some r) : 0 < r ∧ r ≤ 1 := by
  unfold properMotion at h
  rw [if_pos rfl, pmKept_spec] at h
  set kept := vs.filter (fun v => decide (2 ≤ vs.countP (fun u => decide (u.band = v.band)))) with hk
  set pts := kept.map (fun v => (v.mjd, errOf mags atm v)) with hp
  have hkv : ∀ v ∈ kept, v ∈ vs := fun v hv => (List.mem_filter.mp hv).1
  have hpos : ∀ p ∈ pts, 0 < p.2 := by
    intro p hp
    obtain ⟨v, hv, rfl⟩ := List.mem_map.mp hp
    exact errOf_pos mags atm v (hs v (hkv v hv))
  have hlen : kept = [] ∨ 2 ≤ kept.length := by
    by_cases hne : kept = []
    · exact Or.inl hne
    · right
      obtain ⟨v, hv⟩ := List.exists_mem_of_ne_nil _ hne
      have h1 : 2 ≤ vs.countP (fun u => decide (u.band = v.band)) := by
        have := (List.mem_filter.mp hv).2
        exact of_decide_eq_true this
      refine le_trans h1 ?_
      rw [List.countP_eq_length_filter]
      apply List.Sublist.length_le
      apply List.monotone_filter_right
      intro u hu
      have hu' : u.band = v.band := of_decide_eq_true hu
      have : 2 ≤ vs.countP (fun w => decide (w.band = u.band)) := by
        rw [hu']
        exact h1
      exact decide_eq_true this
  rcases hlen with hlen | hlen
  · rw [hp, hlen] at h
    simp [pmNorm, pm, sigmaSlope, bestDates] at h
  · have h2 : 2 ≤ pts.length := by
      rw [hp, List.length_map]
      exact hlen
    have hB := D_best_pos baseline pts hb hpos h2
    rw [pmNorm_eq baseline pts hb hpos h2] at h
    have hD : 0 < D pts := by
      by_contra h3
      rw [if_pos (not_lt.mp h3)] at h
      cases h
    rw [if_neg (not_le.mpr hD), Option.some.injEq] at h
    subst h
    refine ⟨sqrt_pos.mpr (by positivity), ?_⟩
    rw [sqrt_le_one, div_le_one hB, D_best]
    -- all weights are the same
    have hw1 : ∀ p ∈ pts, 1 / p.2 ^ 2 = 1 / e ^ 2 := by
      intro p hp'
      obtain ⟨v, hv, rfl⟩ := List.mem_map.mp hp'
      simp only
      rw [he v (hkv v hv)]
    have hWn : ∀ l : List (ℝ × ℝ), (∀ p ∈ l, p ∈ pts) → W l = 1 / e ^ 2 * l.length := by
      intro l hl
      unfold W
      rw [← total_const]
      exact total_congr (fun p hp' => hw1 p (hl p hp'))
    rw [hWn _ (fun p hp' => List.mem_of_mem_take hp'), hWn _ (fun p hp' => List.mem_of_mem_drop hp'), List.length_take, List.length_drop]
    -- the first date
    obtain ⟨c, hc⟩ : ∃ c, ∀ p ∈ pts, 0 ≤ p.1 - c ∧ p.1 - c ≤ baseline * 365.25 := by
      have hne : kept ≠ [] := by
        intro h3
        rw [h3] at hlen
        simp at hlen
      obtain ⟨v, hv, hmin⟩ : ∃ v ∈ kept, ∀ u ∈ kept, v.mjd ≤ u.mjd := by
        have hfin : (kept.map Visit.mjd).toFinset.Nonempty := by
          obtain ⟨v, hv⟩ := List.exists_mem_of_ne_nil _ hne
          exact ⟨v.mjd, List.mem_toFinset.mpr (List.mem_map_of_mem hv)⟩
        have hm := Finset.min'_mem _ hfin
        obtain ⟨v, hv, hvm⟩ := List.mem_map.mp (List.mem_toFinset.mp hm)
        refine ⟨v, hv, ?_⟩
        intro u hu
        rw [hvm]
        exact Finset.min'_le _ _ (List.mem_toFinset.mpr (List.mem_map_of_mem hu))
      refine ⟨v.mjd, ?_⟩
      intro p hp'
      obtain ⟨u, hu, rfl⟩ := List.mem_map.mp hp'
      have h3 := hmin u hu
      have h4 := hw u (hkv u hu) v (hkv v hv)
      exact ⟨by simp only; linarith, h4⟩
    have hX := widest (baseline * 365.25) (pts.map (fun p => p.1 - c)) (by
      intro x hx
      obtain ⟨p, hp', rfl⟩ := List.mem_map.mp hx
      exact hc p hp') 0 0
    simp only [zero_add, Nat.cast_zero, zero_mul, add_zero, List.length_map, total_map] at hX
    have hDc : D pts = (1 / e ^ 2) ^ 2 * ((pts.length : ℝ) * total (fun p => (p.1 - c) ^ 2) pts - total (fun p => p.1 - c) pts ^ 2) := by
      have m2 : total (fun p => (p.1 - c) ^ 2) pts * (1 / e ^ 2) = WXX pts - 2 * c * WX pts + c ^ 2 * W pts := by
        rw [← moment, mul_comm, ← total_mul]
        apply total_congr
        intro p hp'
        rw [hw1 p hp']
      have m1 : total (fun p => p.1 - c) pts * (1 / e ^ 2) = WX pts - c * W pts := by
        unfold WX W
        rw [mul_comm, ← total_mul, ← total_mul, ← total_sub]
        apply total_congr
        intro p hp'
        rw [hw1 p hp']
        ring
      have m0 := hWn pts (fun _ h => h)
      calc D pts = W pts * (WXX pts - 2 * c * WX pts + c ^ 2 * W pts) - (WX pts - c * W pts) ^ 2 := by
            unfold D
            ring
        _ = _ := by
            rw [← m2, ← m1, m0]
            ring
    rw [hDc]
    have hmin : min (pts.length / 2) pts.length = pts.length / 2 := by omega
    rw [hmin]
    have h5 := mul_le_mul_of_nonneg_left hX (sq_nonneg (1 / e ^ 2))
    calc _ ≤ _ := h5
      _ = _ := by ring

/-- Dates at the ends, half and half, have the value one. -/
theorem pm_norm_best (baseline : ℝ) (pts : List (ℝ × ℝ)) (hb : 0 < baseline) (hs : ∀ p ∈ pts, 0 < p.2) (h2 : 2 ≤ pts.length) :
    pmNorm baseline (bestDates baseline pts) = some 1 := by
  have hl : (bestDates baseline pts).length = pts.length := by
    unfold bestDates
    rw [List.length_append, List.length_map, List.length_map, List.length_take, List.length_drop]
    omega
  have hs' : ∀ p ∈ bestDates baseline pts, 0 < p.2 := by
    intro p hp
    unfold bestDates at hp
    rcases List.mem_append.mp hp with hp | hp
    · obtain ⟨q, hq, rfl⟩ := List.mem_map.mp hp
      exact hs q (List.mem_of_mem_take hq)
    · obtain ⟨q, hq, rfl⟩ := List.mem_map.mp hp
      exact hs q (List.mem_of_mem_drop hq)
  have hB := D_best_pos baseline pts hb hs h2
  have hidem : bestDates baseline (bestDates baseline pts) = bestDates baseline pts := by
    have ht : (bestDates baseline pts).take (pts.length / 2) = (pts.take (pts.length / 2)).map (fun p => (0, p.2)) := by
      unfold bestDates
      rw [List.take_append_of_le_length (by rw [List.length_map, List.length_take]; omega)]
      apply List.take_of_length_le
      rw [List.length_map, List.length_take]
      omega
    have hd : (bestDates baseline pts).drop (pts.length / 2) = (pts.drop (pts.length / 2)).map (fun p => (baseline * 365.25, p.2)) := by
      unfold bestDates
      rw [List.drop_append_of_le_length (by rw [List.length_map, List.length_take]; omega), List.drop_eq_nil_of_le (by
        rw [List.length_map, List.length_take]
        omega), List.nil_append]
    have e : ∀ l : List (ℝ × ℝ), bestDates baseline l = (l.take (l.length / 2)).map (fun p => (0, p.2)) ++
        (l.drop (l.length / 2)).map (fun p => (baseline * 365.25, p.2)) := fun _ => rfl
    rw [e (bestDates baseline pts), hl, ht, hd, List.map_map, List.map_map]
    rfl
  rw [pmNorm_eq baseline _ hb hs' (by rw [hl]; exact h2), hidem, if_neg (not_le.mpr hB), div_self hB.ne', sqrt_one]

/-- A visit at date `t` with error `s`. -/
def visitAt (t s : ℝ) : Visit := ⟨"r", 20, 5 * s, t, 0, 0, 0, 0⟩

theorem errOf_visitAt (t s : ℝ) (h : 0 ≤ s) : errOf (fun _ => 20) 0 (visitAt t s) = s := by
  unfold errOf snrOf visitAt
  simp only [sub_self, mul_zero, rpow_zero, mul_one]
  have e : (5 * s / 5) ^ 2 + (0 : ℝ) ^ 2 = s ^ 2 := by ring
  rw [e, sqrt_sq h]

theorem pmKept_four (a b c d x y z w : ℝ) (hx : 0 ≤ x) (hy : 0 ≤ y) (hz : 0 ≤ z) (hw : 0 ≤ w) :
    pmKept (fun _ => 20) 0 [visitAt a x, visitAt b y, visitAt c z, visitAt d w] = [(a, x), (b, y), (c, z), (d, w)] := by
  rw [pmKept_spec]
  have hf : [visitAt a x, visitAt b y, visitAt c z, visitAt d w].filter
      (fun v => decide (2 ≤ [visitAt a x, visitAt b y, visitAt c z, visitAt d w].countP (fun u => decide (u.band = v.band)))) =
      [visitAt a x, visitAt b y, visitAt c z, visitAt d w] := by
    rw [List.filter_eq_self]
    intro v hv
    have hb : v.band = "r" := by
      simp only [List.mem_cons, List.not_mem_nil, or_false] at hv
      rcases hv with rfl | rfl | rfl | rfl <;> rfl
    rw [hb]
    simp [visitAt]
  rw [hf]
  simp only [List.map_cons, List.map_nil, errOf_visitAt _ _ hx, errOf_visitAt _ _ hy, errOf_visitAt _ _ hz, errOf_visitAt _ _ hw]
  rfl

/-- **C224.** With good and bad visits the value can be more than five, for a baseline of ten
years and visits within it; and it changes if the same visits come in another order, since
the best dates are given to the visits in the order of the data. -/
theorem pm_norm_order : ∃ vs vs' : List Visit, vs.Perm vs' ∧ (∀ v ∈ vs, 0 < v.seeing) ∧
    (∀ u ∈ vs, ∀ v ∈ vs, u.mjd - v.mjd ≤ 10 * 365.25) ∧
    (∃ r, properMotion true 10 (fun _ => 20) 0 vs = some r ∧ 5 < r) ∧ properMotion true 10 (fun _ => 20) 0 vs' = some 1 := by
  refine ⟨[visitAt 0 1, visitAt 3652.5 1, visitAt 0 10, visitAt 3652.5 10], [visitAt 0 1, visitAt 0 10, visitAt 3652.5 1, visitAt 3652.5 10],
    ?_, ?_, ?_, ?_, ?_⟩
  · exact List.Perm.cons _ (List.Perm.swap _ _ _)
  · intro v hv
    simp only [List.mem_cons, List.not_mem_nil, or_false] at hv
    rcases hv with rfl | rfl | rfl | rfl <;> norm_num [visitAt]
  · intro u hu v hv
    simp only [List.mem_cons, List.not_mem_nil, or_false] at hu hv
    rcases hu with rfl | rfl | rfl | rfl <;> rcases hv with rfl | rfl | rfl | rfl <;> norm_num [visitAt]
  · unfold properMotion
    rw [if_pos rfl, pmKept_four _ _ _ _ _ _ _ _ (by norm_num) (by norm_num) (by norm_num) (by norm_num)]
    rw [pmNorm_eq 10 _ (by norm_num) (by
      intro p hp
      simp only [List.mem_cons, List.not_mem_nil, or_false] at hp
      rcases hp with rfl | rfl | rfl | rfl <;> norm_num) (by simp)]
    have hD : D [(0, 1), (3652.5, 1), (0, 10), (3652.5, 10)] = 1.0201 * 3652.5 ^ 2 := by
      norm_num [D, W, WX, WXX]
    have hB : D (bestDates 10 [(0, 1), (3652.5, 1), (0, 10), (3652.5, 10)]) = 0.04 * 3652.5 ^ 2 := by
      rw [D_best]
      norm_num [W]
    rw [hD, hB, if_neg (by norm_num)]
    refine ⟨_, rfl, ?_⟩
    rw [lt_sqrt (by norm_num)]
    norm_num
  · unfold properMotion
    rw [if_pos rfl, pmKept_four _ _ _ _ _ _ _ _ (by norm_num) (by norm_num) (by norm_num) (by norm_num)]
    have hb := pm_norm_best 10 [(0, 1), (0, 10), (0, 1), (0, 10)] (by norm_num) (by
      intro p hp
      simp only [List.mem_cons, List.not_mem_nil, or_false] at hp
      rcases hp with rfl | rfl | rfl | rfl <;> norm_num) (by simp)
    have e : bestDates 10 [(0, 1), (0, 10), (0, 1), (0, 10)] = [(0, 1), (0, 10), (3652.5, 1), (3652.5, 10)] := by
      norm_num [bestDates]
    rw [e] at hb
    exact hb

theorem pm_norm_false : ¬ NormAtMostOne := by
  intro h
  obtain ⟨vs, _, _, h1, h2, ⟨r, h3, h4⟩, _⟩ := pm_norm_order
  have := h 10 _ 0 vs r (by norm_num) h1 h2 h3
  linarith

/-! ## C225 -/

section Mean

variable {α : Type*} {w : α → ℝ} {l : List α}

theorem average_mul (w f : α → ℝ) (l : List α) (hw : ∀ a ∈ l, 0 < w a) (hne : l ≠ []) :
    average f w l * total w l = total (fun p => f p * w p) l := by
  unfold average
  exact div_mul_cancel₀ _ (total_pos hw hne).ne'

theorem average_nonneg (f : α → ℝ) (hw : ∀ a ∈ l, 0 < w a) (hf : ∀ a ∈ l, 0 ≤ f a) : 0 ≤ average f w l := by
  unfold average
  exact div_nonneg (total_nonneg (fun a ha => mul_nonneg (hf a ha) (hw a ha).le)) (total_nonneg (fun a ha => (hw a ha).le))

/-- Squared distances from a point. -/
theorem spread_sum (f : α → ℝ) (c : ℝ) : total (fun p => (f p - c) ^ 2 * w p) l =
    total (fun p => f p ^ 2 * w p) l - 2 * c * total (fun p => f p * w p) l + c ^ 2 * total w l := by
  rw [← total_mul, ← total_mul, ← total_sub, ← total_add]
  apply total_congr
  intro p _
  ring

end Mean

/-- The weighted distance is from zero to one for parallax factors up to one, and zero exactly
if all visits have the same factors. -/
theorem weightedR_spec (l : List (ℝ × ℝ × ℝ)) (hne : l ≠ []) (hw : ∀ p ∈ l, 0 < p.1) :
    0 ≤ weightedR l ∧ ((∀ p ∈ l, p.2.1 ^ 2 + p.2.2 ^ 2 ≤ 1) → weightedR l ≤ 1) ∧
      (weightedR l = 0 ↔ ∀ p ∈ l, ∀ q ∈ l, p.2 = q.2) := by
  set y0 := average (fun p : ℝ × ℝ × ℝ => p.2.1) (fun p => p.1) l with hy
  set x0 := average (fun p : ℝ × ℝ × ℝ => p.2.2) (fun p => p.1) l with hx
  have hr : weightedR l = average (fun p => √((p.2.2 - x0) ^ 2 + (p.2.1 - y0) ^ 2)) (fun p => p.1) l := rfl
  have hT : 0 < total (fun p : ℝ × ℝ × ℝ => p.1) l := total_pos hw hne
  have ey := average_mul (fun p : ℝ × ℝ × ℝ => p.1) (fun p => p.2.1) l hw hne
  have ex := average_mul (fun p : ℝ × ℝ × ℝ => p.1) (fun p => p.2.2) l hw hne
  rw [← hy] at ey
  rw [← hx] at ex
  refine ⟨?_, ?_, ?_⟩
  · rw [hr]
    exact average_nonneg _ hw (fun _ _ => sqrt_nonneg _)
  · intro h1
    set r := weightedR l with hrd
    have er := average_mul (fun p : ℝ × ℝ × ℝ => p.1) (fun p => √((p.2.2 - x0) ^ 2 + (p.2.1 - y0) ^ 2)) l hw hne
    rw [← hr] at er
    have h2 : 0 ≤ total (fun p : ℝ × ℝ × ℝ => (√((p.2.2 - x0) ^ 2 + (p.2.1 - y0) ^ 2) - r) ^ 2 * p.1) l :=
      total_nonneg (fun p hp => mul_nonneg (sq_nonneg _) (hw p hp).le)
    rw [spread_sum, ← er] at h2
    have h3 : total (fun p : ℝ × ℝ × ℝ => √((p.2.2 - x0) ^ 2 + (p.2.1 - y0) ^ 2) ^ 2 * p.1) l =
        total (fun p => (p.2.2 - x0) ^ 2 * p.1) l + total (fun p => (p.2.1 - y0) ^ 2 * p.1) l := by
      rw [← total_add]
      apply total_congr
      intro p _
      rw [sq_sqrt (by positivity)]
      ring
    rw [spread_sum (fun p : ℝ × ℝ × ℝ => p.2.2), spread_sum (fun p : ℝ × ℝ × ℝ => p.2.1), ← ex, ← ey] at h3
    have h4 : total (fun p : ℝ × ℝ × ℝ => p.2.2 ^ 2 * p.1) l + total (fun p : ℝ × ℝ × ℝ => p.2.1 ^ 2 * p.1) l ≤ total (fun p : ℝ × ℝ × ℝ => p.1) l := by
      rw [← total_add]
      apply total_le
      intro p hp
      have := mul_le_mul_of_nonneg_right (h1 p hp) (hw p hp).le
      linarith
    have h5 : r ^ 2 * total (fun p : ℝ × ℝ × ℝ => p.1) l ≤ 1 * total (fun p : ℝ × ℝ × ℝ => p.1) l := by
      have := mul_nonneg (sq_nonneg x0) hT.le
      have := mul_nonneg (sq_nonneg y0) hT.le
      nlinarith
    have h6 : r ^ 2 ≤ 1 := le_of_mul_le_mul_right h5 hT
    by_contra h7
    push Not at h7
    nlinarith
  · have hz : weightedR l = 0 ↔ ∀ p ∈ l, √((p.2.2 - x0) ^ 2 + (p.2.1 - y0) ^ 2) * p.1 = 0 := by
      rw [hr]
      unfold average
      rw [div_eq_zero_iff, or_iff_left hT.ne']
      exact total_eq_zero (fun p hp => mul_nonneg (sqrt_nonneg _) (hw p hp).le)
    rw [hz]
    constructor
    · intro h
      have h2 : ∀ p ∈ l, p.2 = (y0, x0) := by
        intro p hp
        have h3 := (mul_eq_zero.mp (h p hp)).resolve_right (hw p hp).ne'
        rw [sqrt_eq_zero (by positivity)] at h3
        have h4 : (p.2.2 - x0) ^ 2 = 0 := le_antisymm (by linarith [sq_nonneg (p.2.1 - y0)]) (sq_nonneg _)
        have h5 : (p.2.1 - y0) ^ 2 = 0 := by linarith
        rw [sq_eq_zero_iff, sub_eq_zero] at h4 h5
        exact Prod.ext h5 h4
      intro p hp q hq
      rw [h2 p hp, h2 q hq]
    · intro h p hp
      have e1 : y0 = p.2.1 := by
        apply mul_right_cancel₀ hT.ne'
        rw [ey, ← total_mul]
        apply total_congr
        intro q hq
        rw [h q hq p hp]
      have e2 : x0 = p.2.2 := by
        apply mul_right_cancel₀ hT.ne'
        rw [ex, ← total_mul]
        apply total_congr
        intro q hq
        rw [h q hq p hp]
      rw [e1, e2]
      simp

/-- **C225.** Without a range of angles the result is bad exactly for fewer than two visits, and
otherwise from zero to one, with zero exactly if all visits have the same parallax factors. -/
theorem coverage_spec (mags : String → ℝ) (atm snrLimit range : ℝ) (hr : range ≤ 0) (vs : List Visit) (hs : ∀ v ∈ vs, 0 < v.seeing) :
    if vs.length < 2 then coverage mags atm range snrLimit vs = .bad
    else ∃ r, coverage mags atm range snrLimit vs = .ok r ∧ 0 ≤ r ∧ ((∀ v ∈ vs, v.ra ^ 2 + v.dec ^ 2 ≤ 1) → r ≤ 1) ∧
      (r = 0 ↔ ∀ u ∈ vs, ∀ v ∈ vs, u.ra = v.ra ∧ u.dec = v.dec) := by
  by_cases h2 : vs.length < 2
  · rw [if_pos h2]
    unfold coverage
    rw [if_pos h2]
  · rw [if_neg h2]
    have hne : vs ≠ [] := by
      rintro rfl
      simp at h2
    set l := vs.map (fun v => (1 / errOf mags atm v ^ 2, v.ra, v.dec)) with hl
    have hw : ∀ p ∈ l, 0 < p.1 := by
      intro p hp
      obtain ⟨v, hv, rfl⟩ := List.mem_map.mp hp
      have := errOf_pos mags atm v (hs v hv)
      simp only
      positivity
    obtain ⟨w1, w2, w3⟩ := weightedR_spec l (by simpa [hl] using hne) hw
    refine ⟨weightedR l, ?_, w1, ?_, ?_⟩
    · unfold coverage
      rw [if_neg h2, if_neg (not_lt.mpr hr), errors_spec, List.map_map, mul_one]
      rfl
    · intro h
      apply w2
      intro p hp
      obtain ⟨v, hv, rfl⟩ := List.mem_map.mp hp
      exact h v hv
    · rw [w3]
      constructor
      · intro h u hu v hv
        have := h _ (List.mem_map_of_mem hu) _ (List.mem_map_of_mem hv)
        exact Prod.ext_iff.mp this
      · intro h p hp q hq
        obtain ⟨u, hu, rfl⟩ := List.mem_map.mp hp
        obtain ⟨v, hv, rfl⟩ := List.mem_map.mp hq
        exact Prod.ext_iff.mpr (h u hu v hv)

/-- If visits pass the test, two angles differ by the range. -/
theorem theta_check_partial (range : ℝ) (theta : List ℝ) (h : thetaCheck range theta = some true) :
    ∃ a ∈ theta, ∃ b ∈ theta, range ≤ b - a := by
  unfold thetaCheck at h
  cases hm : theta.min? with
  | none => rw [hm] at h; cases h
  | some a =>
    have hs : spread theta = (theta.map (fun t => t - a)).max? := by
      unfold spread
      rw [hm]
      rfl
    rw [hm, hs] at h
    cases hM : (theta.map (fun t => t - a)).max? with
    | none => rw [hM] at h; cases h
    | some m =>
      rw [hM] at h
      simp only at h
      by_cases hr : range ≤ m
      · obtain ⟨b, hb, hbm⟩ := List.mem_map.mp (List.max?_mem hM)
        exact ⟨a, List.min?_mem hm, b, hb, by rw [hbm]; exact hr⟩
      · rw [if_neg hr] at h
        cases h

theorem thetaCheck_two (range x y : ℝ) (hxy : x ≤ y) : thetaCheck range [x, y] =
    if range ≤ y - x then
      some (decide (range ≤ max (fmod π 2 * π) (fmod (y - x + π) 2 * π) - min (fmod π 2 * π) (fmod (y - x + π) 2 * π)))
    else some false := by
  have hs : ∀ u v : ℝ, spread [u, v] = some (max u v - min u v) := by
    intro u v
    unfold spread
    rcases le_total u v with h | h
    · simp [h]
    · simp [h]
  unfold thetaCheck
  rw [hs, max_eq_right hxy, min_eq_left hxy]
  have hm : [x, y].min? = some x := by simp [hxy]
  rw [hm]
  simp only
  by_cases h : range ≤ y - x
  · rw [if_pos h, if_pos h]
    simp only [List.map_cons, List.map_nil, sub_self, zero_add]
    rw [hs]
    rfl
  · rw [if_neg h, if_neg h]

/-- The angular distance around the circle. -/
noncomputable def around (x y : ℝ) : ℝ := min |y - x| (2 * π - |y - x|)

/-- What the comment says: wraparound is taken into account, for two bright visits. -/
def Wraparound : Prop := ∀ range x y : ℝ, -π < x → x ≤ π → -π < y → y ≤ π → 0 < range → range ≤ π →
  (thetaCheck range [x, y] = some true ↔ range ≤ around x y)

theorem floor_pi : ⌊π / 2⌋ = 1 := by
  rw [Int.floor_eq_iff]
  have := pi_gt_d2
  have := pi_lt_d2
  norm_num at *
  constructor <;> linarith

/-- **C225.** Two visits on nearly the same side pass for a range of a half: angles on both
sides of pi, 0.1 apart. -/
theorem theta_accept : thetaCheck 0.5 [-π + 0.05, π - 0.05] = some true ∧ around (-π + 0.05) (π - 0.05) = 0.1 := by
  have h1 := pi_gt_d2
  have h2 := pi_lt_d2
  norm_num at h1 h2
  have e : π - 0.05 - (-π + 0.05) = 2 * π - 0.1 := by ring
  constructor
  · rw [thetaCheck_two _ _ _ (by linarith), e, if_pos (by linarith)]
    have hf : ⌊(2 * π - 0.1 + π) / 2⌋ = 4 := by
      rw [Int.floor_eq_iff]
      norm_num
      constructor <;> linarith
    have f1 : fmod π 2 = π - 2 := by
      unfold fmod
      rw [floor_pi]
      norm_num
    have f2 : fmod (2 * π - 0.1 + π) 2 = 3 * π - 8.1 := by
      unfold fmod
      rw [hf]
      norm_num
      ring
    rw [f1, f2]
    have hle : (π - 2) * π ≤ (3 * π - 8.1) * π := mul_le_mul_of_nonneg_right (by linarith) (by linarith)
    rw [max_eq_right hle, min_eq_left hle]
    congr 1
    apply decide_eq_true
    nlinarith
  · unfold around
    rw [e, abs_of_nonneg (by linarith), min_eq_right (by linarith)]
    ring

/-- And two visits that are 2 apart do not pass for a range of one. -/
theorem theta_reject : thetaCheck 1 [0, 2] = some false ∧ around 0 2 = 2 := by
  have h1 := pi_gt_d2
  have h2 := pi_lt_d2
  norm_num at h1 h2
  constructor
  · rw [thetaCheck_two _ _ _ (by norm_num), if_pos (by norm_num)]
    have hf : ⌊(2 - 0 + π) / 2⌋ = 2 := by
      rw [Int.floor_eq_iff]
      norm_num
      constructor <;> linarith
    have f1 : fmod π 2 = π - 2 := by
      unfold fmod
      rw [floor_pi]
      norm_num
    have f2 : fmod (2 - 0 + π) 2 = π - 2 := by
      unfold fmod
      rw [hf]
      norm_num
      ring
    rw [f1, f2, max_self, min_self, sub_self]
    norm_num
  · unfold around
    norm_num
    linarith

theorem wraparound_false : ¬ Wraparound := by
  intro h
  have h1 := pi_gt_d2
  have h2 := pi_lt_d2
  norm_num at h1 h2
  have h3 := (h 1 0 2 (by linarith) (by linarith) (by linarith) (by linarith) (by norm_num) (by linarith)).mpr (by rw [theta_reject.2]; norm_num)
  rw [theta_reject.1] at h3
  cases h3

/-- Visits with given angles, all with the same error and a signal to noise of 5. -/
noncomputable def visitAngle (t : ℝ) : Visit := ⟨"r", 20, 5, 0, cos t, sin t, 0, 0⟩

theorem snrLoop_angle (a b : ℝ) : snrLoop (fun _ => 20) (([visitAngle a, visitAngle b].map Visit.band).dedup) [visitAngle a, visitAngle b] =
    [(visitAngle a, 5), (visitAngle b, 5)] := by
  rw [snrLoop_spec]
  have h : ∀ t, snrOf (fun _ => 20) (visitAngle t) = 5 := by
    intro t
    simp [snrOf, visitAngle]
  simp only [List.map_cons, List.map_nil, h]
  simp [visitAngle]

/-- The same for the metric: the first two visits keep their value and the second lose it; and
with no visit above the limit there is an exception. -/
theorem coverage_range : (∃ r, coverage (fun _ => 20) 0 0.5 5 [visitAngle (-π + 0.05), visitAngle (π - 0.05)] = .ok r ∧ 0 < r) ∧
    coverage (fun _ => 20) 0 1 5 [visitAngle 0, visitAngle 2] = .ok 0 ∧
    ∀ (range : ℝ) (mags : String → ℝ) (atm lim : ℝ) (vs : List Visit), 2 ≤ vs.length → 0 < range → (∀ v ∈ vs, snrOf mags v < lim) →
      coverage mags atm range lim vs = .error := by
  have h1 := pi_gt_d2
  have h2 := pi_lt_d2
  norm_num at h1 h2
  have hvis : ∀ t, Complex.arg (((visitAngle t).ra : ℂ) + ((visitAngle t).dec : ℂ) * Complex.I) = Complex.arg (Complex.cos t + Complex.sin t * Complex.I) := by
    intro t
    simp [visitAngle]
  have harg : ∀ t : ℝ, -π < t → t ≤ π → Complex.arg (((visitAngle t).ra : ℂ) + ((visitAngle t).dec : ℂ) * Complex.I) = t := by
    intro t ha hb
    rw [hvis]
    exact Complex.arg_cos_add_sin_mul_I ⟨ha, hb⟩
  refine ⟨?_, ?_, ?_⟩
  · set a := -π + 0.05 with ha
    set b := π - 0.05 with hb
    have hspec := coverage_spec (fun _ => 20) 0 5 0 le_rfl [visitAngle a, visitAngle b] (by
      intro v hv
      simp only [List.mem_cons, List.not_mem_nil, or_false] at hv
      rcases hv with rfl | rfl <;> norm_num [visitAngle])
    rw [if_neg (by simp)] at hspec
    obtain ⟨r, hr, h0, _, hz⟩ := hspec
    refine ⟨r, ?_, ?_⟩
    · unfold coverage at hr ⊢
      rw [if_neg (by simp), if_neg (lt_irrefl _)] at hr
      rw [if_neg (by simp), if_pos (by norm_num)]
      simp only
      rw [snrLoop_angle]
      have hf : [(visitAngle a, (5 : ℝ)), (visitAngle b, 5)].filter (fun p => decide ((5 : ℝ) ≤ p.2)) = [(visitAngle a, 5), (visitAngle b, 5)] := by
        simp
      rw [hf]
      simp only [List.map_cons, List.map_nil]
      rw [harg a (by rw [ha]; linarith) (by rw [ha]; linarith), harg b (by rw [hb]; linarith) (by rw [hb]; linarith), theta_accept.1]
      exact hr
    · rcases eq_or_lt_of_le h0 with h3 | h3
      · exfalso
        have h4 := (hz.mp h3.symm (visitAngle a) (by simp) (visitAngle b) (by simp)).2
        simp only [visitAngle] at h4
        have h5 : sin a = -sin b := by
          rw [← sin_neg]
          congr 1
          rw [ha, hb]
          ring
        have h6 : 0 < sin b := sin_pos_of_pos_of_lt_pi (by rw [hb]; linarith) (by rw [hb]; linarith)
        linarith
      · exact h3
  · unfold coverage
    rw [if_neg (by simp), if_pos (by norm_num)]
    simp only
    rw [snrLoop_angle]
    have hf : [(visitAngle 0, (5 : ℝ)), (visitAngle 2, 5)].filter (fun p => decide ((5 : ℝ) ≤ p.2)) = [(visitAngle 0, 5), (visitAngle 2, 5)] := by
      simp
    rw [hf]
    simp only [List.map_cons, List.map_nil]
    rw [harg 0 (by linarith) (by linarith), harg 2 (by linarith) (by linarith), theta_reject.1]
    simp
  · intro range mags atm lim vs h2 hr hv
    unfold coverage
    rw [if_neg (by omega), if_pos hr]
    simp only
    have hf : (snrLoop mags (vs.map Visit.band).dedup vs).filter (fun p => decide (lim ≤ p.2)) = [] := by
      rw [List.filter_eq_nil_iff, snrLoop_spec]
      intro p hp
      obtain ⟨v, hv', rfl⟩ := List.mem_map.mp hp
      have : v.band ∈ (vs.map Visit.band).dedup := List.mem_dedup.mpr (List.mem_map_of_mem hv')
      simp only [if_pos this]
      have := hv v hv'
      simp [this]
    rw [hf]
    rfl

/-! ## C226 -/

/-- **C226.** The correlation of the fit is that of the two columns with the sign changed: it is
less than one in size, and zero exactly if the columns are orthogonal. -/
theorem degen_spec (l : List (ℝ × ℝ × ℝ)) (hs : ∀ p ∈ l, 0 < p.1) (r : ℝ) (h : degen l = some r) :
    let pp := total (fun p => (p.2.1 / p.1) ^ 2) l
    let dd := total (fun p => (p.2.2 / p.1) ^ 2) l
    let pd := total (fun p => p.2.1 / p.1 * (p.2.2 / p.1)) l
    0 < pp ∧ 0 < dd ∧ r = -pd / √(pp * dd) ∧ -1 < r ∧ r < 1 ∧ (r = 0 ↔ pd = 0) := by
  intro pp dd pd
  have e1 : total (fun p : ℝ × ℝ × ℝ => p.2.1 * p.2.1 / p.1 ^ 2) l = pp := by
    apply total_congr
    intro p hp
    have := hs p hp
    field_simp
  have e2 : total (fun p : ℝ × ℝ × ℝ => p.2.1 * p.2.2 / p.1 ^ 2) l = pd := by
    apply total_congr
    intro p hp
    have := hs p hp
    field_simp
  have e3 : total (fun p : ℝ × ℝ × ℝ => p.2.2 * p.2.2 / p.1 ^ 2) l = dd := by
    apply total_congr
    intro p hp
    have := hs p hp
    field_simp
  unfold degen at h
  simp only [e1, e2, e3] at h
  have hp0 : 0 ≤ pp := total_nonneg (fun _ _ => sq_nonneg _)
  have hd0 : 0 ≤ dd := total_nonneg (fun _ _ => sq_nonneg _)
  have hquad : ∀ a b : ℝ, 0 ≤ a ^ 2 * pp + 2 * a * b * pd + b ^ 2 * dd := by
    intro a b
    have : a ^ 2 * pp + 2 * a * b * pd + b ^ 2 * dd = total (fun p : ℝ × ℝ × ℝ => (a * (p.2.1 / p.1) + b * (p.2.2 / p.1)) ^ 2) l := by
      show a ^ 2 * total _ l + 2 * a * b * total _ l + b ^ 2 * total _ l = _
      rw [← total_mul, ← total_mul, ← total_mul, ← total_add, ← total_add]
      apply total_congr
      intro p _
      ring
    rw [this]
    exact total_nonneg (fun _ _ => sq_nonneg _)
  by_cases hdet : pp * dd - pd * pd = 0
  · rw [if_pos hdet] at h
    cases h
  rw [if_neg hdet, Option.some.injEq] at h
  have hpp : 0 < pp := by
    rcases eq_or_lt_of_le hp0 with h1 | h1
    · exfalso
      have h2 := hquad (-(dd + 1)) pd
      have h3 : pd = 0 := by
        rw [← h1] at h2
        have h4 := sq_nonneg pd
        have h5 : pd ^ 2 * (dd + 2) ≤ 0 := by nlinarith
        have h6 : pd ^ 2 = 0 := by
          by_contra h7
          have : 0 < pd ^ 2 := lt_of_le_of_ne h4 (Ne.symm h7)
          have : 0 < pd ^ 2 * (dd + 2) := by positivity
          linarith
        exact pow_eq_zero_iff two_ne_zero |>.mp h6
      apply hdet
      rw [← h1, h3]
      ring
    · exact h1
  have hdet0 : 0 < pp * dd - pd * pd := by
    have h2 := hquad (-pd) pp
    have h3 : 0 ≤ pp * (pp * dd - pd * pd) := by nlinarith
    have h4 : 0 ≤ pp * dd - pd * pd := nonneg_of_mul_nonneg_right h3 hpp
    exact lt_of_le_of_ne h4 (Ne.symm hdet)
  have hdd : 0 < dd := by
    rcases eq_or_lt_of_le hd0 with h1 | h1
    · exfalso
      rw [← h1] at hdet0
      nlinarith [sq_nonneg pd]
    · exact h1
  set det := pp * dd - pd * pd with hdd'
  have hroot : √(dd / det) * √(pp / det) = √(pp * dd) / det := by
    rw [← sqrt_mul (by positivity)]
    have : dd / det * (pp / det) = pp * dd / det ^ 2 := by
      field_simp
    rw [this, sqrt_div (by positivity), sqrt_sq hdet0.le]
  have hS : 0 < √(pp * dd) := sqrt_pos.mpr (by positivity)
  have hr : r = -pd / √(pp * dd) := by
    rw [← h, hroot]
    field_simp
  have hlt : pd ^ 2 < pp * dd := by
    have : pd ^ 2 = pd * pd := by ring
    linarith
  have habs : |pd| < √(pp * dd) := by
    rw [lt_sqrt (abs_nonneg _), sq_abs]
    exact hlt
  rw [abs_lt] at habs
  refine ⟨hpp, hdd, hr, ?_, ?_, ?_⟩
  · rw [hr, lt_div_iff₀ hS]
    linarith
  · rw [hr, div_lt_iff₀ hS]
    linarith
  · rw [hr, div_eq_zero_iff, or_iff_left hS.ne', neg_eq_zero]

/-- The columns of three of the metrics are declared. -/
theorem declared_partial : ∀ m ∈ ["ParallaxMetric", "ProperMotionMetric", "ParallaxCoverageMetric"], ∀ c ∈ read m, c ∈ declared m := by
  decide

/-- What a user relies on: a metric gets the columns it reads. -/
def Declared : Prop := ∀ m c, c ∈ read m → c ∈ declared m

/-- The filter column of `ParallaxDcrDegenMetric` is not. -/
theorem declared_false : "band" ∈ read "ParallaxDcrDegenMetric" ∧ "band" ∉ declared "ParallaxDcrDegenMetric" ∧ ¬ Declared := by
  refine ⟨by decide, by decide, ?_⟩
  intro h
  exact absurd (h "ParallaxDcrDegenMetric" "band" (by decide)) (by decide)

/-! ## C227 -/

/-- **C227.** The precision squared is the inverse of the sum of the squared tangents of the
zenith distances over the errors, of the visits in the six filters; so the parallactic angle
has no effect. It is infinite exactly if all those visits are at the zenith. -/
theorem dcr_spec (mags : String → ℝ) (atm : ℝ) (vs kept : List Visit) (hs : ∀ v ∈ vs, 0 < v.seeing)
    (hk : kept = vs.filter (fun v => decide (v.band ∈ ["u", "g", "r", "i", "z", "y"]))) :
    (dcrPrecision mags atm vs = none ↔ ∀ v ∈ kept, tan (v.zd * (π / 180)) = 0) ∧
      ∀ r, dcrPrecision mags atm vs = some r →
        0 < r ∧ 1 / r ^ 2 = total (fun v => (tan (v.zd * (π / 180)) / errOf mags atm v) ^ 2) kept := by
  set A := total (fun v => (tan (v.zd * (π / 180)) / errOf mags atm v) ^ 2) kept with hA
  have hl : (snrLoop mags ["u", "g", "r", "i", "z", "y"] vs).filter (fun p => decide (p.2 ≠ 0)) = kept.map (fun v => (v, snrOf mags v)) := by
    rw [snrLoop_spec, List.filter_map, hk]
    have e : vs.filter ((fun p : Visit × ℝ => decide (p.2 ≠ 0)) ∘ fun v => (v, if v.band ∈ ["u", "g", "r", "i", "z", "y"] then snrOf mags v else 0)) =
        vs.filter (fun v => decide (v.band ∈ ["u", "g", "r", "i", "z", "y"])) := by
      apply List.filter_congr
      intro v _
      rw [Function.comp, decide_eq_decide]
      by_cases hb : v.band ∈ ["u", "g", "r", "i", "z", "y"]
      · simp only [if_pos hb]
        exact ⟨fun _ => hb, fun _ => (snrOf_pos mags v).ne'⟩
      · simp only [if_neg hb]
        exact ⟨fun h => absurd rfl h, fun h => absurd h hb⟩
    rw [e]
    apply List.map_congr_left
    intro v hv
    rw [if_pos (of_decide_eq_true (List.mem_filter.mp hv).2)]
  have herr : ∀ v : Visit, √(astromPrecision v.seeing (snrOf mags v) 0 ^ 2 + atm ^ 2) = errOf mags atm v := by
    intro v
    unfold astromPrecision errOf
    rw [sq_sqrt (by positivity)]
    congr 1
    ring
  have hsum : total (fun p : Visit × ℝ => 1 / (√(astromPrecision p.1.seeing p.2 0 ^ 2 + atm ^ 2) / (tan (p.1.zd * (π / 180)) * sin (p.1.pa * (π / 180)))) ^ 2)
        (kept.map (fun v => (v, snrOf mags v))) +
      total (fun p : Visit × ℝ => 1 / (√(astromPrecision p.1.seeing p.2 0 ^ 2 + atm ^ 2) / (tan (p.1.zd * (π / 180)) * cos (p.1.pa * (π / 180)))) ^ 2)
        (kept.map (fun v => (v, snrOf mags v))) = A := by
    rw [total_map, total_map, hA, ← total_add]
    apply total_congr
    intro v _
    simp only [herr]
    rw [div_pow, div_pow, div_pow, one_div_div, one_div_div, mul_pow, mul_pow, ← add_div, ← mul_add, sin_sq_add_cos_sq, mul_one]
  have hrun : dcrPrecision mags atm vs = if A = 0 then none else some (1 / √A) := by
    unfold dcrPrecision
    simp only
    rw [hl, hsum]
  have hA0 : 0 ≤ A := total_nonneg (fun _ _ => sq_nonneg _)
  rw [hrun]
  constructor
  · have hz : A = 0 ↔ ∀ v ∈ kept, tan (v.zd * (π / 180)) = 0 := by
      rw [hA, total_eq_zero (fun _ _ => sq_nonneg _)]
      apply forall₂_congr
      intro v hv
      rw [hk] at hv
      have h1 := errOf_pos mags atm v (hs v (List.mem_filter.mp hv).1)
      rw [sq_eq_zero_iff, div_eq_zero_iff, or_iff_left h1.ne']
    rw [← hz]
    constructor
    · intro h
      by_contra h1
      rw [if_neg h1] at h
      cases h
    · intro h
      rw [if_pos h]
  · intro r h
    by_cases hz : A = 0
    · rw [if_pos hz] at h
      cases h
    · rw [if_neg hz, Option.some.injEq] at h
      have hA1 : 0 < A := lt_of_le_of_ne hA0 (Ne.symm hz)
      subst h
      refine ⟨by have := sqrt_pos.mpr hA1; positivity, ?_⟩
      rw [div_pow, sq_sqrt hA0, one_pow, one_div_one_div]

/-! ## C228 -/

theorem weight_replicate (n : ℕ) (m : ℝ) : RealMetrics.weight (List.replicate n m) = n * (10 : ℝ) ^ (0.8 * m) := by
  simp [RealMetrics.weight]

theorem coadd_inj {a b : List ℝ} (ha : a ≠ []) (hb : b ≠ []) : RealMetrics.coadd a = RealMetrics.coadd b ↔ RealMetrics.weight a = RealMetrics.weight b := by
  constructor
  · intro h
    rw [← RealMetrics.pow_coadd ha, ← RealMetrics.pow_coadd hb, h]
  · exact RealMetrics.coadd_congr

/-- **C228.** The result is the number of visits of median depth that are missing: with so many
more the depth is that of visits on the meridian; and a negative result is the number that is
spare. -/
theorem optimal_spec (l : List (ℝ × ℝ)) (hne : l ≠ []) (n : ℕ) :
    (optimalM5 l = n ↔ RealMetrics.coadd (l.map Prod.fst ++ List.replicate n (Mo.median (l.map Prod.fst))) = RealMetrics.coadd (l.map Prod.snd)) ∧
      (optimalM5 l = -n ↔ RealMetrics.coadd (l.map Prod.fst) = RealMetrics.coadd (l.map Prod.snd ++ List.replicate n (Mo.median (l.map Prod.fst)))) := by
  have h1 : l.map Prod.fst ≠ [] := by simpa using hne
  have h2 : l.map Prod.snd ≠ [] := by simpa using hne
  have hp : (0 : ℝ) < (10 : ℝ) ^ (0.8 * Mo.median (l.map Prod.fst)) := rpow_pos_of_pos (by norm_num) _
  unfold optimalM5
  simp only
  rw [RealMetrics.pow_coadd h1, RealMetrics.pow_coadd h2]
  constructor
  · rw [coadd_inj (by simp [hne]) h2, RealMetrics.weight_append, weight_replicate, div_eq_iff hp.ne']
    constructor <;> intro h <;> linarith
  · rw [coadd_inj h1 (by simp [hne]), RealMetrics.weight_append, weight_replicate, div_eq_iff hp.ne']
    constructor <;> intro h <;> linarith

/-- The three forms have the same sign, that of the difference in depth, and the normalised
form is the percentage of the number of visits. -/
theorem optimal_sign (l : List (ℝ × ℝ)) (hne : l ≠ []) :
    (0 < optimalM5 l ↔ RealMetrics.coadd (l.map Prod.fst) < RealMetrics.coadd (l.map Prod.snd)) ∧ (0 < optimalM5Norm l ↔ 0 < optimalM5 l) ∧
      (0 < optimalM5Diff l ↔ 0 < optimalM5 l) ∧ (optimalM5 l = l.length → optimalM5Norm l = 100) := by
  have h1 : l.map Prod.fst ≠ [] := by simpa using hne
  have hp : (0 : ℝ) < (10 : ℝ) ^ (0.8 * Mo.median (l.map Prod.fst)) := rpow_pos_of_pos (by norm_num) _
  have hn : (0 : ℝ) < l.length := by
    have := List.length_pos_iff.mpr hne
    exact_mod_cast this
  have hs : 0 < optimalM5 l ↔ RealMetrics.coadd (l.map Prod.fst) < RealMetrics.coadd (l.map Prod.snd) := by
    unfold optimalM5
    simp only
    rw [div_pos_iff_of_pos_right hp, sub_pos, rpow_lt_rpow_left_iff (by norm_num)]
    constructor <;> intro h <;> linarith
  refine ⟨hs, ?_, ?_, ?_⟩
  · unfold optimalM5Norm
    rw [mul_pos_iff_of_pos_right (by norm_num), div_pos_iff_of_pos_right hn]
  · rw [hs]
    unfold optimalM5Diff
    rw [sub_pos]
  · intro h
    unfold optimalM5Norm
    rw [h, div_self hn.ne', one_mul]

/-- The weighted mean does not depend on the magnitude of the star, and is between the least and
the greatest value. -/
theorem snr_weighted_spec (m m' : ℝ) (l : List (ℝ × ℝ)) (hne : l ≠ []) : snrWeighted m l = snrWeighted m' l ∧
    ∀ a b : ℝ, (∀ p ∈ l, a ≤ p.1 ∧ p.1 ≤ b) → a ≤ snrWeighted m l ∧ snrWeighted m l ≤ b := by
  have hpos : ∀ m m5 : ℝ, 0 < m52snr (some 0.04) m m5 := by
    intro m m5
    rw [(m52snr_default _ _).1]
    have : (0 : ℝ) < (10 : ℝ) ^ (0.4 * (m5 - m)) := rpow_pos_of_pos (by norm_num) _
    linarith
  constructor
  · have hk : ∀ p ∈ l, m52snr (some 0.04) m p.2 = (10 : ℝ) ^ (0.4 * (m' - m)) * m52snr (some 0.04) m' p.2 := by
      intro p _
      rw [(m52snr_default _ _).1, (m52snr_default _ _).1]
      have : (10 : ℝ) ^ (0.4 * (p.2 - m)) = (10 : ℝ) ^ (0.4 * (m' - m)) * (10 : ℝ) ^ (0.4 * (p.2 - m')) := by
        rw [← rpow_add (by norm_num)]
        congr 1
        ring
      rw [this]
      ring
    have hc : (0 : ℝ) < (10 : ℝ) ^ (0.4 * (m' - m)) := rpow_pos_of_pos (by norm_num) _
    unfold snrWeighted average
    have e1 : total (fun p : ℝ × ℝ => p.1 * m52snr (some 0.04) m p.2) l =
        (10 : ℝ) ^ (0.4 * (m' - m)) * total (fun p : ℝ × ℝ => p.1 * m52snr (some 0.04) m' p.2) l := by
      rw [← total_mul]
      apply total_congr
      intro p hp
      rw [hk p hp]
      ring
    have e2 : total (fun p : ℝ × ℝ => m52snr (some 0.04) m p.2) l =
        (10 : ℝ) ^ (0.4 * (m' - m)) * total (fun p : ℝ × ℝ => m52snr (some 0.04) m' p.2) l := by
      rw [← total_mul]
      exact total_congr hk
    rw [e1, e2, mul_div_mul_left _ _ hc.ne']
  · intro a b h
    have hT : 0 < total (fun p : ℝ × ℝ => m52snr (some 0.04) m p.2) l := total_pos (fun p _ => hpos m p.2) hne
    unfold snrWeighted average
    constructor
    · rw [le_div_iff₀ hT, ← total_mul]
      apply total_le
      intro p hp
      exact mul_le_mul_of_nonneg_right (h p hp).1 (hpos m p.2).le
    · rw [div_le_iff₀ hT, ← total_mul]
      apply total_le
      intro p hp
      exact mul_le_mul_of_nonneg_right (h p hp).2 (hpos m p.2).le

/-! ## C229 -/

/-- The direction with given longitude and latitude, and the product of two directions. -/
noncomputable def direction (ra dec : ℝ) : ℝ × ℝ × ℝ := (cos dec * cos ra, cos dec * sin ra, sin dec)
def inner (u v : ℝ × ℝ × ℝ) : ℝ := u.1 * v.1 + u.2.1 * v.2.1 + u.2.2 * v.2.2

/-- **C229.** The distance is the angle between the two directions, in degrees from 0 to 180. -/
theorem radius_spec (ra dec raDeg decDeg : ℝ) :
    0 ≤ radius ra dec raDeg decDeg ∧ radius ra dec raDeg decDeg ≤ 180 ∧
      cos (radius ra dec raDeg decDeg * (π / 180)) = inner (direction ra dec) (direction (raDeg * (π / 180)) (decDeg * (π / 180))) := by
  unfold radius
  simp only
  set ra2 := raDeg * (π / 180)
  set dec2 := decDeg * (π / 180)
  have hpi := pi_pos
  have hdot : sin dec2 * sin dec + cos dec * cos dec2 * cos (ra2 - ra) = inner (direction ra dec) (direction ra2 dec2) := by
    unfold inner direction
    rw [cos_sub]
    ring
  have hb : (inner (direction ra dec) (direction ra2 dec2)) ^ 2 ≤ 1 := by
    have h1 : ∀ a b : ℝ, inner (direction a b) (direction a b) = 1 := by
      intro a b
      unfold inner direction
      have h2 := sin_sq_add_cos_sq a
      have h3 := sin_sq_add_cos_sq b
      have : cos b * cos a * (cos b * cos a) + cos b * sin a * (cos b * sin a) + sin b * sin b = cos b ^ 2 * (sin a ^ 2 + cos a ^ 2) + sin b ^ 2 := by ring
      simp only
      rw [this, h2]
      linarith
    have h4 : ∀ u v : ℝ × ℝ × ℝ, inner u v ^ 2 ≤ inner u u * inner v v := by
      intro u v
      unfold inner
      nlinarith [sq_nonneg (u.1 * v.2.1 - u.2.1 * v.1), sq_nonneg (u.1 * v.2.2 - u.2.2 * v.1), sq_nonneg (u.2.1 * v.2.2 - u.2.2 * v.2.1)]
    have := h4 (direction ra dec) (direction ra2 dec2)
    rw [h1, h1, one_mul] at this
    exact this
  have hb' : -1 ≤ inner (direction ra dec) (direction ra2 dec2) ∧ inner (direction ra dec) (direction ra2 dec2) ≤ 1 := by
    constructor <;> nlinarith
  rw [hdot]
  refine ⟨?_, ?_, ?_⟩
  · exact mul_nonneg (arccos_nonneg _) (by positivity)
  · have := mul_le_mul_of_nonneg_right (arccos_le_pi (inner (direction ra dec) (direction ra2 dec2))) (by positivity : (0 : ℝ) ≤ 180 / π)
    rw [mul_div_cancel₀ _ hpi.ne'] at this
    exact this
  · have e : arccos (inner (direction ra dec) (direction ra2 dec2)) * (180 / π) * (π / 180) = arccos (inner (direction ra dec) (direction ra2 dec2)) := by
      field_simp
    rw [e, cos_arccos hb'.1 hb'.2]

/-- The number in the unit of the metric: the angle between the directions is `radius` times the
size of a radian or of a degree. -/
def UnitIsRight : Prop :=
  ∀ ra dec raDeg decDeg, radiusUnits = "radians" →
    cos (radius ra dec raDeg decDeg) = inner (direction ra dec) (direction (raDeg * (π / 180)) (decDeg * (π / 180)))

/-- The unit of the metric is not right: it says radians. -/
theorem radius_units_false : ¬ UnitIsRight := by
  intro h
  have h1 := h 0 0 180 0 rfl
  have h2 := (radius_spec 0 0 180 0).2.2
  have e : radius 0 0 180 0 = 180 := by
    unfold radius
    have hpi := pi_pos
    have : (180 : ℝ) * (π / 180) = π := by field_simp
    simp only [this]
    simp
    field_simp
  rw [e] at h1
  have hin : inner (direction 0 0) (direction (180 * (π / 180)) (0 * (π / 180))) = -1 := by
    have : (180 : ℝ) * (π / 180) = π := by field_simp
    rw [this]
    simp [inner, direction]
  rw [hin, cos_eq_neg_one_iff] at h1
  obtain ⟨k, hk⟩ := h1
  have h3 := pi_gt_d2
  have h4 := pi_lt_d2
  norm_num at h3 h4
  have e2 : π * (1 + 2 * k) = 180 := by linarith
  have hk1 : (56 : ℝ) < 1 + 2 * k := by
    by_contra h5
    push Not at h5
    nlinarith
  have hk2 : (1 + 2 * k : ℝ) < 58 := by
    by_contra h5
    push Not at h5
    nlinarith
  have hk3 : (1 + 2 * k : ℤ) = 57 := by
    have a1 : (56 : ℤ) < 1 + 2 * k := by exact_mod_cast hk1
    have a2 : (1 + 2 * k : ℤ) < 58 := by exact_mod_cast hk2
    omega
  have hk4 : (1 + 2 * k : ℝ) = 57 := by exact_mod_cast hk3
  rw [hk4] at e2
  have := pi_gt_d4
  norm_num at this
  linarith

/-! ## Examples -/

example : errOf (fun _ => 20) 0 (visitAt 0 3) = 3 := errOf_visitAt 0 3 (by norm_num)

example : astromPrecision 0.8 5 0 = 0.16 := by
  unfold astromPrecision
  rw [show ((0.8 : ℝ) / 5) ^ 2 + 0 ^ 2 = 0.16 ^ 2 by norm_num]
  exact sqrt_sq (by norm_num)

/-- Errors 1 and factors 0.6 and 0.8: the sum of squares is one. -/
example : parallax (fun _ => 20) 0 [⟨"r", 20, 5, 0, 0.6, 0.8, 0, 0⟩] = some 1000 := by
  rw [parallax_eq, parallaxData_sum]
  have e : errOf (fun _ => 20) 0 ⟨"r", 20, 5, 0, 0.6, 0.8, 0, 0⟩ = 1 := by
    norm_num [errOf, snrOf]
  simp only [total_cons, total_nil, e]
  norm_num

/-- Two visits at the ends of ten years with error one: the value 1. -/
example : pmNorm 10 [(0, 1), (3652.5, 1)] = some 1 := by
  have h := pm_norm_best 10 [(0, 1), (0, 1)] (by norm_num) (by simp) (by simp)
  have e : bestDates 10 [(0, 1), (0, 1)] = [(0, 1), (3652.5, 1)] := by norm_num [bestDates]
  rw [e] at h
  exact h

/-- Opposite points have the greatest distance. -/
example : weightedR [(1, 1, 0), (1, -1, 0)] = 1 := by
  norm_num [weightedR, average]

example : degen [(1, 1, 0), (1, 1, 1)] = some (-1 / √2) := by
  norm_num [degen]

example : snrWeighted 20 [(2, 24), (4, 24)] = 3 := by
  rw [(snr_weighted_spec 20 24 _ (by simp)).1]
  unfold snrWeighted average
  simp only [total_cons, total_nil, m52snr_limit]
  norm_num

example : radius 0 0 90 0 = 90 := by
  unfold radius
  have : (90 : ℝ) * (π / 180) = π / 2 := by ring
  simp only [this]
  simp
  have := pi_pos
  field_simp
  norm_num

end Verif.Astro
