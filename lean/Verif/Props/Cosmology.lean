import Verif.Model.Cosmology
import Verif.Props.Astrometry
import Verif.Lemmas.NumpyMore
import Mathlib.Algebra.BigOperators.Intervals
import Mathlib.Analysis.Real.Pi.Bounds

/-!
# Cosmology summary metrics

Theorems C240 to C246.
-/

namespace Verif.Cosmo

open Real Astro

/-! ## C240 -/

theorem total_filter {α : Type*} (f : α → ℝ) (p : α → Bool) (l : List α) : total f (l.filter p) = total (fun a => if p a then f a else 0) l := by
  induction l with
  | nil => rfl
  | cons a l ih =>
    rw [total_cons, ← ih]
    by_cases h : p a
    · rw [List.filter_cons_of_pos h, total_cons, if_pos h]
    · rw [List.filter_cons_of_neg h, if_neg h, zero_add]

theorem total_range (f : ℕ → ℝ) (n : ℕ) : total f (List.range n) = ∑ l ∈ Finset.range n, f l := by
  induction n with
  | zero => rfl
  | succ n ih => rw [List.range_succ, total_append, ih, Finset.sum_range_succ, total_cons, total_nil, add_zero]

theorem total_range' (f : ℕ → ℝ) (a n : ℕ) : total f (List.range' a n) = ∑ l ∈ Finset.Ico a (a + n), f l := by
  induction n with
  | zero => simp
  | succ n ih =>
    rw [List.range'_concat, total_append, ih, ← add_assoc, Finset.sum_Ico_succ_top (by omega), total_cons, total_nil]
    simp

/-- **C240.** The sum of (2l+1) C_l over the multipoles from `lmin` to `lmax`, both included. -/
theorem power_spec (lmin lmax : ℝ) (cl : List ℝ) :
    power lmin lmax cl = ∑ l ∈ Finset.range cl.length, if lmin ≤ (l : ℝ) ∧ (l : ℝ) ≤ lmax then (2 * (l : ℝ) + 1) * (cl[l]?).getD 0 else 0 := by
  unfold power
  rw [total_filter, total_range]
  apply Finset.sum_congr rfl
  intro l _
  by_cases h : lmin ≤ (l : ℝ) ∧ (l : ℝ) ≤ lmax
  · rw [if_pos h, if_pos (by simp [h.1, h.2]), mul_comm]
  · rw [if_neg h, if_neg]
    simp only [Bool.and_eq_true, decide_eq_true_eq]
    tauto

/-- Neighbouring ranges add. -/
theorem power_split (a b c : ℕ) (cl : List ℝ) (hab : a ≤ b + 1) (hbc : b ≤ c) : power a b cl + power (b + 1) c cl = power a c cl := by
  rw [power_spec, power_spec, power_spec, ← Finset.sum_add_distrib]
  apply Finset.sum_congr rfl
  intro l _
  have h1 : ((a : ℝ) ≤ l ∧ (l : ℝ) ≤ b) ↔ a ≤ l ∧ l ≤ b := by norm_cast
  have h2 : ((b : ℝ) + 1 ≤ l ∧ (l : ℝ) ≤ c) ↔ b + 1 ≤ l ∧ l ≤ c := by norm_cast
  have h3 : ((a : ℝ) ≤ l ∧ (l : ℝ) ≤ c) ↔ a ≤ l ∧ l ≤ c := by norm_cast
  simp only [h1, h2, h3]
  by_cases h4 : a ≤ l ∧ l ≤ b
  · rw [if_pos h4, if_neg (by omega), if_pos (by omega), add_zero]
  · rw [if_neg h4, zero_add]
    by_cases h5 : b + 1 ≤ l ∧ l ≤ c
    · rw [if_pos h5, if_pos (by omega)]
    · rw [if_neg h5, if_neg (by omega)]

/-- What the class says: the flag removes the monopole. -/
def MonopoleFlag : Prop := ∀ (M : Type) (rmMono rmDip : M → M) (ana : M → List ℝ) (lmin lmax : ℝ) (m : M),
  totalPower rmMono rmDip ana true false lmin lmax m = power lmin lmax (ana (rmMono m))

/-- The flag has no effect; the spectrum is that of the map, or of the map without dipole. -/
theorem totalPower_spec {M : Type*} (rmMono rmDip : M → M) (ana : M → List ℝ) (mono dip : Bool) (lmin lmax : ℝ) (m : M) :
    totalPower rmMono rmDip ana mono dip lmin lmax m = power lmin lmax (ana (if dip then rmDip m else m)) := by
  unfold totalPower
  cases dip <;> rfl

theorem monopole_false : ¬ MonopoleFlag := by
  intro h
  have h1 := h ℝ (fun _ => 0) id (fun x => [x]) 0 0 1
  rw [totalPower_spec, power_spec, power_spec] at h1
  norm_num at h1

/-! ## C241 -/

/-- The power of a model: multipoles from `lmin` up to, not including, `lmax`. -/
noncomputable def modelPower (lmin : ℕ) (b : Bin) : ℝ := ∑ l ∈ Finset.Ico lmin b.lmax, (2 * (l : ℝ) + 1) * b.cell l

/-- Its Gaussian variance. -/
noncomputable def variance (lmin : ℕ) (b : Bin) : ℝ := 2 / b.fsky * ∑ l ∈ Finset.Ico lmin b.lmax, (2 * (l : ℝ) + 1) * b.cell l ^ 2

theorem ells_sum (f : ℕ → ℝ) (lmin : ℕ) (b : Bin) : total f (ells lmin b) = ∑ l ∈ Finset.Ico lmin b.lmax, f l := by
  unfold ells
  rw [total_range']
  by_cases h : lmin ≤ b.lmax
  · rw [Nat.add_sub_cancel' h]
  · have h1 : b.lmax - lmin = 0 := by omega
    rw [h1, Finset.Ico_eq_empty (by omega), Finset.Ico_eq_empty (by omega)]

theorem modPower_eq (lmin : ℕ) (b : Bin) : modPower lmin b = modelPower lmin b := by
  unfold modPower modelPower
  rw [ells_sum]
  exact Finset.sum_congr rfl (fun l _ => mul_comm _ _)

theorem varPower_eq (lmin : ℕ) (b : Bin) : varPower lmin b = variance lmin b := by
  unfold varPower variance
  rw [ells_sum, Finset.mul_sum]
  apply Finset.sum_congr rfl
  intro l _
  have h : (2 * (l : ℝ) + 1) ≠ 0 := by positivity
  field_simp

/-- A bin with multipoles, a positive spectrum and some sky. -/
def Good (lmin : ℕ) (b : Bin) : Prop := lmin < b.lmax ∧ (∀ l, 0 < b.cell l) ∧ 0 < b.fsky

theorem Good.model {lmin : ℕ} {b : Bin} (h : Good lmin b) : 0 < modelPower lmin b := by
  apply Finset.sum_pos
  · intro l _
    have := h.2.1 l
    positivity
  · exact ⟨lmin, Finset.mem_Ico.mpr ⟨le_refl _, h.1⟩⟩

theorem Good.variance {lmin : ℕ} {b : Bin} (h : Good lmin b) : 0 < variance lmin b := by
  unfold Cosmo.variance
  have := h.2.2
  apply mul_pos (by positivity)
  apply Finset.sum_pos
  · intro l _
    have := h.2.1 l
    positivity
  · exact ⟨lmin, Finset.mem_Ico.mpr ⟨le_refl _, h.1⟩⟩

theorem ftt_pos {lmin : ℕ} {s : ℝ} {bs : List Bin} (hs : 0 < s) (hne : bs ≠ []) (hb : ∀ b ∈ bs, Good lmin b) : 0 < ftt lmin s bs := by
  unfold ftt
  apply total_pos _ hne
  intro b h
  have h1 := (hb b h).model
  have h2 := (hb b h).variance
  rw [modPower_eq, varPower_eq]
  positivity

/-- Squared distance of the powers from those for the square `f` of sigma8, in units of the error. -/
noncomputable def chi2 (lmin : ℕ) (mult s : ℝ) (bs : List Bin) (f : ℝ) : ℝ :=
  total (fun b => (modelPower lmin b + mult * b.spurious - f * (modelPower lmin b / s)) ^ 2 / variance lmin b) bs

/-- **C241.** The fit is the least squares solution: any other value is worse by the square of the
difference over the error. -/
theorem fit_least (lmin : ℕ) (mult s : ℝ) (bs : List Bin) (hs : 0 < s) (hne : bs ≠ []) (hb : ∀ b ∈ bs, Good lmin b) (f : ℝ) :
    chi2 lmin mult s bs f = chi2 lmin mult s bs (fit lmin mult s bs) + ((f - fit lmin mult s bs) / fitError lmin s bs) ^ 2 := by
  have hF := ftt_pos hs hne hb
  have he : ∀ x, chi2 lmin mult s bs x = total (fun b => obsPower lmin mult b ^ 2 / varPower lmin b) bs - 2 * x * fot lmin mult s bs + x ^ 2 * ftt lmin s bs := by
    intro x
    unfold chi2 fot ftt
    rw [← total_mul, ← total_mul, ← total_sub, ← total_add]
    apply total_congr
    intro b h
    have h2 := (hb b h).variance.ne'
    rw [varPower_eq]
    unfold obsPower
    rw [modPower_eq]
    field_simp
    ring
  have herr : (fitError lmin s bs) ^ 2 = (ftt lmin s bs)⁻¹ := by
    unfold fitError
    rw [← rpow_natCast, ← rpow_mul hF.le]
    norm_num [rpow_neg_one]
  rw [he, he, div_pow, herr]
  unfold fit
  field_simp
  ring

theorem fot_eq (lmin : ℕ) (mult s : ℝ) (bs : List Bin) (hs : 0 < s) :
    fot lmin mult s bs = s * ftt lmin s bs + mult * total (fun b => modelPower lmin b / s * b.spurious / variance lmin b) bs := by
  unfold fot ftt
  rw [← total_mul, ← total_mul, ← total_add]
  apply total_congr
  intro b _
  unfold obsPower
  rw [modPower_eq, varPower_eq]
  by_cases h : variance lmin b = 0
  · rw [h]
    simp
  · field_simp

/-- Without spurious power there is no bias; with it the bias is positive, and converted or not it
has the same sign. -/
theorem bias_sign (lmin : ℕ) (mult s : ℝ) (bs : List Bin) (hs : 0 < s) (hm : 0 < mult) (hne : bs ≠ []) (hb : ∀ b ∈ bs, Good lmin b) (conv : Bool) :
    ((∀ b ∈ bs, b.spurious = 0) → sigma8Bias conv lmin mult s bs = 0) ∧
      ((∀ b ∈ bs, 0 ≤ b.spurious) → (∃ b ∈ bs, 0 < b.spurious) → 0 < sigma8Bias conv lmin mult s bs) := by
  have hF := ftt_pos hs hne hb
  have hE : 0 < fitError lmin s bs := rpow_pos_of_pos hF _
  have hfit : fit lmin mult s bs = s + mult * total (fun b => modelPower lmin b / s * b.spurious / variance lmin b) bs / ftt lmin s bs := by
    unfold fit
    rw [fot_eq _ _ _ _ hs]
    field_simp
  constructor
  · intro h0
    have hz : total (fun b => modelPower lmin b / s * b.spurious / variance lmin b) bs = 0 := by
      rw [total_congr (g := fun _ => 0) (fun b hb' => by rw [h0 b hb']; ring), total_const, zero_mul]
    rw [hz, mul_zero, zero_div, add_zero] at hfit
    unfold sigma8Bias
    cases conv <;> simp [hfit]
  · intro h0 h1
    have hp : 0 < total (fun b => modelPower lmin b / s * b.spurious / variance lmin b) bs := by
      have hnn : ∀ b ∈ bs, 0 ≤ modelPower lmin b / s * b.spurious / variance lmin b := by
        intro b hb'
        have a1 := (hb b hb').model
        have a2 := (hb b hb').variance
        have a3 := h0 b hb'
        positivity
      apply lt_of_le_of_ne (total_nonneg hnn)
      intro h2
      obtain ⟨b, hb', hpos⟩ := h1
      have := (total_eq_zero hnn).mp h2.symm b hb'
      have a1 := (hb b hb').model
      have a2 := (hb b hb').variance
      have : 0 < modelPower lmin b / s * b.spurious / variance lmin b := by positivity
      linarith
    have hgt : s < fit lmin mult s bs := by
      rw [hfit]
      have : 0 < mult * total (fun b => modelPower lmin b / s * b.spurious / variance lmin b) bs / ftt lmin s bs := by positivity
      linarith
    have hfp : 0 < fit lmin mult s bs := by linarith
    unfold sigma8Bias
    cases conv
    · simp only [Bool.not_false, if_true]
      exact div_pos (by linarith) hE
    · simp only [Bool.not_true, Bool.false_eq_true, if_false]
      apply div_pos
      · have := rpow_lt_rpow hs.le hgt (by norm_num : (0 : ℝ) < 0.5)
        linarith
      · have : 0 < fit lmin mult s bs ^ (0.5 : ℝ) := rpow_pos_of_pos hfp _
        positivity

/-- The converted bias is the other one times a factor near one. -/
theorem bias_convert (lmin : ℕ) (mult s : ℝ) (bs : List Bin) (hs : 0 < s) (hf : 0 < fit lmin mult s bs) (hE : 0 < fitError lmin s bs) :
    sigma8Bias true lmin mult s bs = sigma8Bias false lmin mult s bs * (2 * √(fit lmin mult s bs) / (√(fit lmin mult s bs) + √s)) := by
  unfold sigma8Bias
  simp only [Bool.not_true, Bool.false_eq_true, if_false, Bool.not_false, if_true]
  have hr : ∀ x : ℝ, x ^ (0.5 : ℝ) = √x := by
    intro x
    rw [sqrt_eq_rpow]
    norm_num
  rw [hr, hr]
  set f := fit lmin mult s bs
  set e := fitError lmin s bs
  have h1 : 0 < √f := sqrt_pos.mpr hf
  have h2 : 0 < √s := sqrt_pos.mpr hs
  have h3 : √f ^ 2 = f := sq_sqrt hf.le
  have h4 : √s ^ 2 = s := sq_sqrt hs.le
  have h5 : f - s = (√f - √s) * (√f + √s) := by nlinarith
  rw [h5]
  have h6 : √f + √s ≠ 0 := by positivity
  have h7 : (0.5 * e * √f / f : ℝ) = 0.5 * e / √f := by
    field_simp
    rw [h3]
  rw [h7]
  field_simp
  norm_num
  ring

/-- With `c` times the sky the error is smaller by the root of `c`. -/
theorem error_sky (lmin : ℕ) (s c : ℝ) (bs : List Bin) (hc : 0 < c) (hs : 0 < s) (hne : bs ≠ []) (hb : ∀ b ∈ bs, Good lmin b) :
    fitError lmin s (bs.map (fun b => { b with fsky := c * b.fsky })) = fitError lmin s bs / √c := by
  have hF := ftt_pos hs hne hb
  have e : ftt lmin s (bs.map (fun b => { b with fsky := c * b.fsky })) = c * ftt lmin s bs := by
    unfold ftt
    rw [total_map, ← total_mul]
    apply total_congr
    intro b h
    have h1 : modPower lmin { b with fsky := c * b.fsky } = modPower lmin b := rfl
    have h2 : varPower lmin { b with fsky := c * b.fsky } = varPower lmin b / c := by
      rw [varPower_eq, varPower_eq]
      unfold variance
      have := (hb b h).2.2.ne'
      field_simp
    have h3 : varPower lmin b ≠ 0 := by
      rw [varPower_eq]
      exact (hb b h).variance.ne'
    rw [h1, h2]
    field_simp
  unfold fitError
  rw [e, mul_rpow hc.le hF.le, div_eq_mul_inv, mul_comm]
  congr 1
  rw [rpow_neg hc.le, sqrt_eq_rpow]
  norm_num

/-- What the comparison of the powers needs: a map that has the spectrum of the model has its power. -/
def SameRange : Prop := ∀ (lmin : ℕ) (b : Bin) (cl : List ℝ), (∀ l, l < cl.length → cl[l]? = some (b.cell l)) → lmin ≤ b.lmax → b.lmax < cl.length →
  power lmin b.lmax cl = modPower lmin b

/-- Such a map has more power, by that of the greatest multipole. -/
theorem range_excess (lmin : ℕ) (b : Bin) (cl : List ℝ) (hcl : ∀ l, l < cl.length → cl[l]? = some (b.cell l)) (h1 : lmin ≤ b.lmax) (h2 : b.lmax < cl.length) :
    power lmin b.lmax cl = modPower lmin b + (2 * (b.lmax : ℝ) + 1) * b.cell b.lmax := by
  rw [power_spec, modPower_eq]
  unfold modelPower
  rw [← Finset.sum_Ico_succ_top h1 (fun l => (2 * (l : ℝ) + 1) * b.cell l)]
  have hsub : Finset.Ico lmin (b.lmax + 1) ⊆ Finset.range cl.length := by
    intro l hl
    rw [Finset.mem_Ico] at hl
    rw [Finset.mem_range]
    omega
  rw [← Finset.sum_subset hsub]
  · apply Finset.sum_congr rfl
    intro l hl
    rw [Finset.mem_Ico] at hl
    rw [if_pos ⟨by exact_mod_cast hl.1, by exact_mod_cast (by omega : l ≤ b.lmax)⟩, hcl l (by omega)]
    rfl
  · intro l _ hl
    rw [Finset.mem_Ico] at hl
    rw [if_neg]
    rintro ⟨a1, a2⟩
    exact hl ⟨by exact_mod_cast a1, by have : l ≤ b.lmax := by exact_mod_cast a2
                                       omega⟩

theorem range_false : ¬ SameRange := by
  intro h
  have hc : ∀ l, l < ([1, 1] : List ℝ).length → ([1, 1] : List ℝ)[l]? = some ((⟨1, fun _ => 1, 0, 1⟩ : Bin).cell l) := by
    intro l hl
    match l, hl with
    | 0, _ => rfl
    | 1, _ => rfl
  have h1 := h 0 ⟨1, fun _ => 1, 0, 1⟩ [1, 1] hc (by norm_num) (by norm_num)
  rw [range_excess 0 ⟨1, fun _ => 1, 0, 1⟩ [1, 1] hc (by norm_num) (by norm_num)] at h1
  norm_num at h1

/-- What the comment says: a fraction of the sky, so one for all of it. -/
def FullSky : Prop := skyFraction (4 * π * (180 / π) ^ 2) = 1

/-- The sky has less than 42000 square degrees. -/
theorem full_sky_false : ¬ FullSky ∧ skyFraction (4 * π * (180 / π) ^ 2) < 0.99 := by
  have h : skyFraction (4 * π * (180 / π) ^ 2) < 0.99 := by
    unfold skyFraction
    have hp := pi_gt_d2
    have e : 4 * π * (180 / π) ^ 2 = 129600 / π := by
      field_simp
      norm_num
    rw [e, div_div, div_lt_iff₀ (by positivity)]
    nlinarith
  refine ⟨?_, h⟩
  intro h1
  unfold FullSky at h1
  rw [h1] at h
  norm_num at h

/-! ## C242 -/

/-- What the class says: a figure of merit for the years 1, 3, 6 and 10. -/
def SimpleDefined : Prop := ∀ (bad : ℝ) (year : ℤ) (data : List ℝ), year ∈ [1, 3, 6, 10] → (∃ x ∈ data, 0 < x) → ∃ r, simpleFoM bad year data = .val r

/-- **C242.** It never gives one: the bad value, or an exception exactly in those years. -/
theorem simple_never (bad : ℝ) (year : ℤ) (data : List ℝ) :
    ((year ∈ [1, 3, 6, 10] ∧ ∃ x ∈ data, 0 < x) → simpleFoM bad year data = .error "AttributeError") ∧
      (¬ (year ∈ [1, 3, 6, 10] ∧ ∃ x ∈ data, 0 < x) → simpleFoM bad year data = .val bad) := by
  have hy : year ∈ [1, 3, 6, 10] ↔ (year = 1 ∨ year = 3 ∨ year = 6 ∨ year = 10) := by simp
  have hg : (data.filter (fun x => decide (x > 0))).length = 0 ↔ ¬ ∃ x ∈ data, 0 < x := by
    rw [List.length_eq_zero_iff, List.filter_eq_nil_iff]
    simp
  unfold simpleFoM
  simp only [hy, hg]
  constructor
  · rintro ⟨h1, h2⟩
    rw [if_neg (not_not.mpr h2), if_pos h1]
  · intro h
    by_cases h2 : ∃ x ∈ data, 0 < x
    · rw [if_neg (not_not.mpr h2), if_neg (fun h1 => h ⟨h1, h2⟩)]
    · rw [if_pos h2]

theorem simple_false : ¬ SimpleDefined := by
  intro h
  obtain ⟨r, hr⟩ := h 0 10 [1] (by simp) ⟨1, by simp, one_pos⟩
  rw [(simple_never 0 10 [1]).1 ⟨by simp, 1, by simp, one_pos⟩] at hr
  cases hr

/-- The grid of year 6 is not increasing in area, as a spline on a grid needs. -/
theorem grid_false : ¬ ∀ year ∈ [1, 3, 6, 10], (simpleAreas year).Pairwise (· < ·) := by decide

theorem grid_partial : ∀ year ∈ [1, 3, 10], (simpleAreas year).Pairwise (· < ·) := by decide

/-! ## C243 -/

/-- What the class says: the model of the year. -/
def YearNamed : Prop := ∀ (D : Type) (model : List (ℕ × D)) (d : ℕ → D), (∀ k, model.lookup k = if 1 ≤ k ∧ k ≤ 10 then some (d k) else none) →
  ∀ year, 1 ≤ year → year ≤ 10 → yearModel model year = .val (d year)

/-- **C243.** The model of the next year is used, and year ten, the default, is an error. -/
theorem year_next {D : Type} (model : List (ℕ × D)) (d : ℕ → D) (h : ∀ k, model.lookup k = if 1 ≤ k ∧ k ≤ 10 then some (d k) else none) :
    (∀ year, year < 10 → yearModel model year = .val (d (year + 1))) ∧ yearModel model 10 = .error "KeyError" := by
  constructor
  · intro year hy
    unfold yearModel
    rw [h, if_pos (by omega)]
  · unfold yearModel
    rw [h, if_neg (by omega)]

theorem year_false : ¬ YearNamed := by
  intro h
  have hm : ∀ k, ((List.range 10).map (fun i => (i + 1, i + 1))).lookup k = if 1 ≤ k ∧ k ≤ 10 then some k else none := by
    intro k
    by_cases hk : k ≤ 10
    · match k, hk with
      | 0, _ | 1, _ | 2, _ | 3, _ | 4, _ | 5, _ | 6, _ | 7, _ | 8, _ | 9, _ | 10, _ => decide
    · rw [if_neg (by omega), List.lookup_eq_none_iff]
      intro p hp
      obtain ⟨i, hi, rfl⟩ := List.mem_map.mp hp
      rw [List.mem_range] at hi
      simp only [bne_iff_ne, ne_eq]
      omega
  have h1 := h ℕ _ _ hm 10 (by norm_num) (by norm_num)
  rw [(year_next _ _ hm).2] at h1
  cases h1

theorem lineFit_length (ps : List (ℝ × ℝ)) : (lineFit ps).length = ps.length := by simp [lineFit]

theorem lineFit_sum (ps : List (ℝ × ℝ)) : (lineFit ps).sum = (ps.map Prod.snd).sum := by
  by_cases hne : ps = []
  · subst hne
    rfl
  have hn : (ps.length : ℝ) ≠ 0 := by simpa using hne
  unfold lineFit
  simp only
  set my := total Prod.snd ps / (ps.length : ℝ) with hmy
  set mx := total Prod.fst ps / (ps.length : ℝ) with hmx
  set slope := total (fun p : ℝ × ℝ => (p.1 - mx) * (p.2 - my)) ps / total (fun p : ℝ × ℝ => (p.1 - mx) ^ 2) ps
  have e : (ps.map (fun p => my + slope * (p.1 - mx))).sum = total (fun p => my + slope * (p.1 - mx)) ps := rfl
  have ex : mx * (ps.length : ℝ) = total Prod.fst ps := div_mul_cancel₀ _ hn
  have ey : my * (ps.length : ℝ) = total Prod.snd ps := div_mul_cancel₀ _ hn
  have e2 : total (fun a : ℝ × ℝ => a.1) ps = total Prod.fst ps := rfl
  rw [e, total_add, total_const, total_mul, total_sub, total_const, e2]
  rw [ex, ey, sub_self, mul_zero, add_zero]
  rfl

theorem sum_zipWith_add (a b : List ℝ) (h : a.length = b.length) : (List.zipWith (· + ·) a b).sum = a.sum + b.sum := by
  induction a generalizing b with
  | nil =>
    match b, h with
    | [], _ => simp
  | cons x a ih =>
    match b, h with
    | y :: b, h =>
      simp only [List.zipWith_cons_cons, List.sum_cons]
      rw [ih b (by simpa using h)]
      ring

theorem clBias_sum (quad : ℝ → ℝ) (zs : List (ℝ × ℝ)) : (clBias quad zs).sum = total (fun z => quad z.1 * (z.2 / 0.02)) zs := by
  unfold clBias
  rw [lineFit_sum, List.map_map]
  rfl

theorem totalBias_sum (quad : ℝ → ℝ) (nz : ℕ) (bands : List Band) (h : ∀ b ∈ bands, b.bins.length = nz) :
    (totalBias quad nz bands).length = nz ∧
      (totalBias quad nz bands).sum = total (fun b => total (fun z => quad z.1 * (|z.2| * b.rms / 0.02)) b.bins) bands := by
  have key : ∀ (bands : List Band) (acc : List ℝ), (∀ b ∈ bands, b.bins.length = nz) → acc.length = nz →
      let r := bands.foldl (fun acc b => List.zipWith (· + ·) acc (clBias quad (b.bins.map (fun z => (z.1, |z.2| * b.rms))))) acc
      r.length = nz ∧ r.sum = acc.sum + total (fun b => total (fun z => quad z.1 * (|z.2| * b.rms / 0.02)) b.bins) bands := by
    intro bands
    induction bands with
    | nil =>
      intro acc _ ha
      simp [ha]
    | cons b bands ih =>
      intro acc hb ha
      have hl : (clBias quad (b.bins.map (fun z => (z.1, |z.2| * b.rms)))).length = nz := by
        unfold clBias
        rw [lineFit_length, List.length_map, List.length_map]
        exact hb b (List.mem_cons_self ..)
      have := ih (List.zipWith (· + ·) acc (clBias quad (b.bins.map (fun z => (z.1, |z.2| * b.rms))))) (fun c hc => hb c (List.mem_cons_of_mem _ hc)) (by
        rw [List.length_zipWith, ha, hl, min_self])
      simp only [List.foldl_cons] at this ⊢
      refine ⟨this.1, ?_⟩
      rw [this.2, sum_zipWith_add _ _ (by rw [ha, hl]), clBias_sum, total_map, total_cons]
      ring
  have := key bands (List.replicate nz 0) h (by simp)
  refine ⟨this.1, ?_⟩
  have e := this.2
  rw [List.sum_replicate, smul_zero, zero_add] at e
  exact e

/-- There is one pair of ratios for each bin, with a fixed proportion; the sum over the bins is that of
the bias of all bands and bins over the requirement. -/
theorem ratios_spec (quad : ℝ → ℝ) (nz : ℕ) (bands : List Band) (h : ∀ b ∈ bands, b.bins.length = nz) :
    (ratios quad nz bands).length = nz ∧ (∀ r ∈ ratios quad nz bands, 3 * r.2 = 13 * r.1) ∧
      0.003 * ((ratios quad nz bands).map Prod.snd).sum = total (fun b => total (fun z => quad z.1 * (|z.2| * b.rms / 0.02)) b.bins) bands := by
  obtain ⟨h1, h2⟩ := totalBias_sum quad nz bands h
  unfold ratios
  refine ⟨by simpa using h1, ?_, ?_⟩
  · intro r hr
    obtain ⟨c, _, rfl⟩ := List.mem_map.mp hr
    simp only
    ring
  · rw [List.map_map, ← h2, ← List.sum_map_mul_left]
    congr 1
    conv_rhs => rw [← List.map_id (totalBias quad nz bands)]
    apply List.map_congr_left
    intro c _
    simp only [Function.comp, id]
    ring

/-! ## C244 -/

theorem sort_map (f : ℝ → ℝ) (hf : ∀ x y, x ≤ y → f x ≤ f y) (xs : List ℝ) : Np.sort (xs.map f) = (Np.sort xs).map f := by
  have h1 : ((Np.sort xs).map f).Perm (xs.map f) := (Np.sort_perm xs).map f
  rw [Np.sort_eq_of_perm h1.symm]
  apply Np.sort_eq_self
  rw [List.pairwise_map]
  exact (Np.sort_sorted xs).imp (fun h => hf _ _ h)

theorem median_scale (c : ℝ) (hc : 0 < c) (xs : List ℝ) : Area.median (xs.map (c * ·)) = (Area.median xs).map (c * ·) := by
  have hs := sort_map (c * ·) (fun x y h => by nlinarith) xs
  unfold Area.median
  simp only [hs, List.length_map, List.getElem?_map]
  cases h1 : (Np.sort xs)[((Np.sort xs).length - 1) / 2]? with
  | none => simp
  | some a =>
    cases h2 : (Np.sort xs)[(Np.sort xs).length / 2]? with
    | none => simp
    | some b =>
      simp only [Option.map_some]
      congr 1
      ring

theorem mad_scale (c : ℝ) (hc : 0 < c) (xs : List ℝ) : mad (xs.map (c * ·)) = (mad xs).map (c * ·) := by
  unfold mad
  rw [median_scale c hc]
  cases h : Area.median xs with
  | none => rfl
  | some m =>
    simp only [Option.map_some]
    rw [← median_scale c hc, List.map_map, List.map_map]
    congr 1
    apply List.map_congr_left
    intro x _
    simp only [Function.comp]
    rw [← mul_sub, abs_mul, abs_of_pos hc]

theorem scatter_scale (c : ℝ) (hc : 0 < c) (xs : List ℝ) : scatter (xs.map (c * ·)) = scatter xs := by
  unfold scatter
  rw [mad_scale c hc, median_scale c hc]
  cases mad xs with
  | none => rfl
  | some a =>
    cases Area.median xs with
    | none => rfl
    | some m =>
      simp only [Option.map_some]
      rw [mul_div_mul_left _ _ hc.ne']

/-- The positive values of a region. -/
noncomputable def values (north : Bool) (ps : List Pix) : List ℝ :=
  ((ps.filter (fun p => p.north == north)).filterMap Pix.v).filter (fun x => decide (0 < x))

/-- **C244.** The regions are all, north and south; others are an error. Only positive values count. -/
theorem region_spec (ps : List Pix) : regionValues "north" ps = .val (values true ps) ∧ regionValues "south" ps = .val (values false ps) ∧
    regionValues "all" ps = .val ((ps.filterMap Pix.v).filter (fun x => decide (0 < x))) ∧
    ∀ r, r ≠ "all" → r ≠ "north" → r ≠ "south" → regionValues r ps = .error "ValueError" := by
  refine ⟨?_, ?_, ?_, ?_⟩
  · simp [regionValues, values]
  · simp [regionValues, values]
  · simp [regionValues]
  · intro r h1 h2 h3
    simp [regionValues, h1, h2, h3]

theorem stripiness_eq (ps : List Pix) : stripiness ps = match scatter (values true ps), scatter (values false ps) with
    | some n, some s => if s = 0 then none else some (n / s - 1)
    | _, _ => none := by
  unfold stripiness
  rw [(region_spec ps).1, (region_spec ps).2.1]
  rfl

theorem values_scale (c : ℝ) (hc : 0 < c) (north : Bool) (ps : List Pix) :
    values north (ps.map (fun p => ⟨p.v.map (c * ·), p.north⟩)) = (values north ps).map (c * ·) := by
  unfold values
  induction ps with
  | nil => rfl
  | cons p ps ih =>
    obtain ⟨v, n⟩ := p
    simp only [List.map_cons]
    by_cases hn : n == north
    · rw [List.filter_cons_of_pos (by simpa using hn), List.filter_cons_of_pos (by simpa using hn)]
      cases v with
      | none => simpa using ih
      | some x =>
        simp only [Option.map_some, List.filterMap_cons]
        by_cases hx : 0 < x
        · rw [List.filter_cons_of_pos (by simpa using mul_pos hc hx), List.filter_cons_of_pos (by simpa using hx), List.map_cons, ih]
        · have hx' : ¬ 0 < c * x := by
            intro h
            exact hx ((mul_pos_iff_of_pos_left hc).mp h)
          rw [List.filter_cons_of_neg (by simpa using hx'), List.filter_cons_of_neg (by simpa using hx), ih]
    · rw [List.filter_cons_of_neg (by simpa using hn), List.filter_cons_of_neg (by simpa using hn), ih]

/-- The statistic does not depend on the unit of time. -/
theorem stripiness_scale (c : ℝ) (hc : 0 < c) (ps : List Pix) : stripiness (ps.map (fun p => ⟨p.v.map (c * ·), p.north⟩)) = stripiness ps := by
  rw [stripiness_eq, stripiness_eq, values_scale c hc, values_scale c hc, scatter_scale c hc, scatter_scale c hc]

theorem values_swap (north : Bool) (ps : List Pix) : values north (ps.map (fun p => ⟨p.v, !p.north⟩)) = values (!north) ps := by
  unfold values
  induction ps with
  | nil => rfl
  | cons p ps ih =>
    obtain ⟨v, n⟩ := p
    simp only [List.map_cons]
    by_cases hn : n = !north
    · subst hn
      rw [List.filter_cons_of_pos (by simp), List.filter_cons_of_pos (by simp)]
      cases v with
      | none => simpa using ih
      | some x =>
        simp only [List.filterMap_cons]
        by_cases hx : 0 < x
        · rw [List.filter_cons_of_pos (by simpa using hx), List.filter_cons_of_pos (by simpa using hx), ih]
        · rw [List.filter_cons_of_neg (by simpa using hx), List.filter_cons_of_neg (by simpa using hx), ih]
    · have hn' : n = north := by
        cases n <;> cases north <;> simp_all
      subst hn'
      rw [List.filter_cons_of_neg (by simp), List.filter_cons_of_neg (by simp), ih]

/-- For north and south exchanged one plus the statistic is inverted. -/
theorem stripiness_swap (ps : List Pix) (t t' : ℝ) (h : stripiness ps = some t) (h' : stripiness (ps.map (fun p => ⟨p.v, !p.north⟩)) = some t') :
    (1 + t) * (1 + t') = 1 := by
  rw [stripiness_eq] at h h'
  rw [values_swap, values_swap] at h'
  simp only [Bool.not_true, Bool.not_false] at h'
  cases hn : scatter (values true ps) with
  | none =>
    rw [hn] at h
    cases h
  | some n =>
    cases hs : scatter (values false ps) with
    | none =>
      rw [hn, hs] at h
      cases h
    | some s =>
      rw [hn, hs] at h h'
      simp only at h h'
      by_cases h1 : s = 0
      · rw [if_pos h1] at h
        cases h
      · by_cases h2 : n = 0
        · rw [if_pos h2] at h'
          cases h'
        · rw [if_neg h1, Option.some.injEq] at h
          rw [if_neg h2, Option.some.injEq] at h'
          rw [← h, ← h']
          field_simp
          ring

/-- The limit of the decision falls with the root of the year. -/
theorem stripes_spec (year : ℕ) (ps : List Pix) (t : ℝ) (h : stripiness ps = some t) : stripes year ps = false ↔ |t| < 0.7 / √(year : ℝ) := by
  unfold stripes
  rw [h]
  have : |0.7 / √(year : ℝ)| = 0.7 / √(year : ℝ) := abs_of_nonneg (by positivity)
  simp [this]

theorem median_const (c : ℝ) (xs : List ℝ) (hne : xs ≠ []) (h : ∀ x ∈ xs, x = c) : Area.median xs = some c := by
  have hs : ∀ x ∈ Np.sort xs, x = c := fun x hx => h x ((Np.sort_perm xs).mem_iff.mp hx)
  have hl : (Np.sort xs).length ≠ 0 := by
    rw [(Np.sort_perm xs).length_eq]
    simpa using hne
  unfold Area.median
  simp only
  rw [List.getElem?_eq_getElem (by omega : ((Np.sort xs).length - 1) / 2 < (Np.sort xs).length),
    List.getElem?_eq_getElem (by omega : (Np.sort xs).length / 2 < (Np.sort xs).length)]
  simp only
  rw [hs _ (List.getElem_mem _), hs _ (List.getElem_mem _)]
  congr 1
  ring

/-- What the class says: maps without rolling features have no stripes. -/
def UniformNoStripes : Prop := ∀ (year : ℕ) (ps : List Pix) (c : ℝ), 0 < c → values true ps ≠ [] → values false ps ≠ [] → (∀ p ∈ ps, p.v = some c) → stripes year ps = false

/-- If the exposure time is the same everywhere in the south, in particular everywhere, stripes are found. -/
theorem stripes_const (year : ℕ) (ps : List Pix) (c : ℝ) (hne : values false ps ≠ []) (h : ∀ x ∈ values false ps, x = c) : stripes year ps = true := by
  have hm := median_const c _ hne h
  have hmad : mad (values false ps) = some 0 := by
    unfold mad
    rw [hm]
    simp only
    apply median_const 0 _ (by simpa using hne)
    intro x hx
    obtain ⟨y, hy, rfl⟩ := List.mem_map.mp hx
    rw [h y hy, sub_self, abs_zero]
  have hs : scatter (values false ps) = some 0 := by
    unfold scatter
    rw [hmad, hm]
    simp
  have : stripiness ps = none := by
    rw [stripiness_eq, hs]
    cases scatter (values true ps) with
    | none => rfl
    | some n => simp
  unfold stripes
  rw [this]

theorem uniform_false : ¬ UniformNoStripes := by
  intro h
  have hv : values false [⟨some 1, true⟩, ⟨some 1, false⟩] = [1] := by
    simp [values]
  have hv' : values true [⟨some 1, true⟩, ⟨some 1, false⟩] = [1] := by
    simp [values]
  have h1 := h 1 [⟨some 1, true⟩, ⟨some 1, false⟩] 1 one_pos (by rw [hv']; simp) (by rw [hv]; simp) (by simp)
  rw [stripes_const 1 _ 1 (by rw [hv]; simp) (by rw [hv]; simp)] at h1
  cases h1

/-! ## C245 -/

theorem expand_length (vs : List ℝ) (ls : List ℕ) : (expand vs ls).length = vs.length := by
  induction vs generalizing ls with
  | nil => rfl
  | cons v vs ih =>
    unfold expand
    by_cases h : v > 0.1
    · rw [if_pos h]
      cases ls with
      | nil => simp [ih]
      | cons l ls => simp [ih]
    · rw [if_neg h]
      simp [ih]

/-- The pixels above the cut have the labels in order, the others zero. -/
theorem expand_spec (vs : List ℝ) (ls : List ℕ) (h : ls.length = vs.countP (fun v => decide (0.1 < v))) :
    ((vs.zip (expand vs ls)).filter (fun p => decide (0.1 < p.1))).map Prod.snd = ls ∧ ∀ p ∈ vs.zip (expand vs ls), p.1 ≤ 0.1 → p.2 = 0 := by
  induction vs generalizing ls with
  | nil =>
    simp only [List.countP_nil, List.length_eq_zero_iff] at h
    subst h
    simp
  | cons v vs ih =>
    by_cases hv : v > 0.1
    · rw [List.countP_cons, if_pos (decide_eq_true hv)] at h
      match ls, h with
      | l :: ls, h =>
        obtain ⟨h1, h2⟩ := ih ls (by simpa using h)
        have e : expand (v :: vs) (l :: ls) = l :: expand vs ls := by
          conv_lhs => unfold expand
          rw [if_pos hv]
        rw [e]
        simp only [List.zip_cons_cons]
        rw [List.filter_cons_of_pos (by simpa using hv)]
        refine ⟨by simp [h1], ?_⟩
        intro p hp
        rcases List.mem_cons.mp hp with rfl | hp
        · intro h3
          exact absurd hv (not_lt.mpr h3)
        · exact h2 p hp
    · rw [List.countP_cons, if_neg (by simpa using hv)] at h
      obtain ⟨h1, h2⟩ := ih ls h
      have e : expand (v :: vs) ls = 0 :: expand vs ls := by
        conv_lhs => unfold expand
        rw [if_neg hv]
      rw [e]
      simp only [List.zip_cons_cons]
      rw [List.filter_cons_of_neg (by simpa using hv)]
      refine ⟨h1, ?_⟩
      intro p hp
      rcases List.mem_cons.mp hp with rfl | hp
      · intro _
        rfl
      · exact h2 p hp

/-- **C245.** The fraction of a label is that among the labels, so the fractions of two labels add to one. -/
theorem areaFrac_spec (vs : List ℝ) (ls : List ℕ) (h : ls.length = vs.countP (fun v => decide (0.1 < v))) (i : ℕ) :
    areaFrac vs ls i = (ls.count i : ℝ) / (ls.length : ℝ) := by
  have h1 := (expand_spec vs ls h).1
  unfold areaFrac
  have e1 : (vs.zip (expand vs ls)).countP (fun p => decide (p.2 = i) && decide (p.1 > 0.1)) = ls.count i := by
    conv_rhs => rw [← h1]
    rw [List.count, List.countP_map, List.countP_filter]
    apply List.countP_congr
    intro p _
    simp [Function.comp]
  rw [e1, h]

theorem areaFrac_sum (vs : List ℝ) (ls : List ℕ) (h : ls.length = vs.countP (fun v => decide (0.1 < v))) (hne : ls ≠ []) (h2 : ∀ l ∈ ls, l = 1 ∨ l = 2) :
    areaFrac vs ls 1 + areaFrac vs ls 2 = 1 := by
  rw [areaFrac_spec vs ls h, areaFrac_spec vs ls h, ← add_div, div_eq_one_iff_eq (by simpa using hne)]
  have : ls.count 1 + ls.count 2 = ls.length := by
    clear h hne
    induction ls with
    | nil => rfl
    | cons l ls ih =>
      have := ih (fun x hx => h2 x (List.mem_cons_of_mem _ hx))
      rcases h2 l (List.mem_cons_self ..) with rfl | rfl
      · simp
        omega
      · simp
        omega
  exact_mod_cast this

/-- Without stripes the result is one; otherwise it is that of the better region, and at most one if no
region is better than the whole. -/
theorem uniformArea_spec (fom : List ℝ → ℝ) (cluster : List ℝ → List ℕ) (mask : ℝ) (year : ℕ) (north : List Bool) (riz depths : List ℝ) :
    let ps := List.zipWith (fun v n => (⟨some v, n⟩ : Pix)) riz north
    (stripes year ps = false → uniformArea fom cluster mask year north riz depths = 1) ∧
    (stripes year ps = true → ∃ a b : List ℝ, uniformArea fom cluster mask year north riz depths = max (fom a) (fom b) / fom depths ∧
      a = keepNot 2 depths (expand riz (cluster riz)) mask ∧ b = keepNot 1 depths (expand riz (cluster riz)) mask ∧
      (0 < fom depths → fom a ≤ fom depths → fom b ≤ fom depths → uniformArea fom cluster mask year north riz depths ≤ 1)) := by
  intro ps
  constructor
  · intro h
    unfold uniformArea
    rw [if_neg (by rw [h]; simp)]
  · intro h
    have e : uniformArea fom cluster mask year north riz depths =
        max (fom (keepNot 2 depths (expand riz (cluster riz)) mask)) (fom (keepNot 1 depths (expand riz (cluster riz)) mask)) / fom depths := by
      unfold uniformArea
      rw [if_pos h]
    refine ⟨_, _, e, rfl, rfl, ?_⟩
    intro h1 h2 h3
    rw [e, div_le_one h1]
    exact max_le h2 h3

/-- A pixel is masked in the region of the other label; pixels below the cut are in both. -/
theorem keepNot_spec (other : ℕ) (depths : List ℝ) (labels : List ℕ) (mask : ℝ) (i : ℕ) (d : ℝ) (l : ℕ) (hd : depths[i]? = some d) (hl : labels[i]? = some l) :
    (keepNot other depths labels mask)[i]? = some (if l = other then mask else d) := by
  unfold keepNot
  rw [List.getElem?_zipWith, hd, hl]

/-- What two regions are: no pixel is in both. -/
def Disjoint : Prop := ∀ (riz depths : List ℝ) (labels : List ℕ) (i : ℕ), labels.length = riz.countP (fun v => decide (0.1 < v)) → (∀ l ∈ labels, l = 1 ∨ l = 2) →
  depths.length = riz.length → i < riz.length →
  (keepNot 2 depths (expand riz labels) 0)[i]? = some 0 ∨ (keepNot 1 depths (expand riz labels) 0)[i]? = some 0

theorem disjoint_false : ¬ Disjoint := by
  intro h
  have h1 := h [0] [26] [] 0 (by norm_num) (by simp) rfl (by simp)
  norm_num [keepNot, expand] at h1

theorem disjoint_partial (riz depths : List ℝ) (labels : List ℕ) (i : ℕ) (hl : labels.length = riz.countP (fun v => decide (0.1 < v)))
    (h12 : ∀ l ∈ labels, l = 1 ∨ l = 2) (hd : depths.length = riz.length) (hi : i < riz.length) (hcut : 0.1 < riz[i]) :
    (keepNot 2 depths (expand riz labels) 0)[i]? = some 0 ∨ (keepNot 1 depths (expand riz labels) 0)[i]? = some 0 := by
  have hle : i < (expand riz labels).length := by
    rw [expand_length]
    exact hi
  have hmem : (expand riz labels)[i] ∈ labels := by
    have hm := (expand_spec riz labels hl).1
    generalize expand riz labels = es at hm hle ⊢
    rw [← hm]
    apply List.mem_map.mpr
    refine ⟨(riz[i], es[i]), ?_, rfl⟩
    rw [List.mem_filter]
    refine ⟨?_, by simpa using hcut⟩
    rw [List.mem_iff_getElem]
    exact ⟨i, by rw [List.length_zip]; omega, by simp⟩
  rw [keepNot_spec 2 depths _ 0 i depths[i] (expand riz labels)[i] (List.getElem?_eq_getElem _) (List.getElem?_eq_getElem hle),
    keepNot_spec 1 depths _ 0 i depths[i] (expand riz labels)[i] (List.getElem?_eq_getElem _) (List.getElem?_eq_getElem hle)]
  rcases h12 _ hmem with h | h
  · right
    rw [h]
    simp
  · left
    rw [h]
    simp

/-! ## C246 -/

/-- What a class is for: objects can be made. -/
def Constructible : Prop := ∃ kwargs : List String, dropoutsInit kwargs = .val ()

/-- **C246.** The dropout metrics cannot be made, with any keywords. -/
theorem dropouts_error (kwargs : List String) : dropoutsInit kwargs = .error "TypeError" := by
  unfold dropoutsInit baseInit
  rw [if_neg]
  intro h
  have := h "percentile" (by simp)
  simp at this

theorem dropouts_false : ¬ Constructible := by
  rintro ⟨k, hk⟩
  rw [dropouts_error] at hk
  cases hk

/-! ## Examples -/

example : power 1 2 [5, 1, 2, 7] = 13 := by
  rw [power_spec]
  norm_num [Finset.sum_range_succ]

example : sigma8Bias true 1 0.1 0.64 [⟨2, fun _ => 1, 0, 1⟩] = 0 :=
  (bias_sign 1 0.1 0.64 [⟨2, fun _ => 1, 0, 1⟩] (by norm_num) (by norm_num) (by simp) (by simp [Good]) true).1 (by simp)

example : expand [0.5, 0, 3] [1, 2] = [1, 0, 2] := by
  norm_num [expand]

end Verif.Cosmo
