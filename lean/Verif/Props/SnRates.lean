import Mathlib.Data.List.Induction
import Mathlib.LinearAlgebra.Matrix.Block
import Mathlib.Tactic.Linarith
import Mathlib.Tactic.Ring
import Mathlib.Tactic.NormNum
import Mathlib.Tactic.FieldSimp
import Mathlib.Tactic.LinearCombination
import Verif.Model.SnN
import Verif.Lemmas.NumpyMore
import Verif.Props.SnEff

/-! Properties of the numbers of supernovae, the rates, the Fisher matrix, the cached files, the points of a light curve and
the metric of lensed supernovae. -/

namespace Verif.SnN

open Verif.Np

/-! ## Bins of redshift -/

theorem arange_length (a b d : ℝ) : (arange a b d).length = ⌈(b - a) / d⌉₊ := by simp [arange]

theorem arange_get (a b d : ℝ) (i : Nat) (h : i < ⌈(b - a) / d⌉₊) : (arange a b d)[i]? = some (a + i * d) := by
  simp [arange, h]

theorem mids_length : ∀ l : List ℝ, (mids l).length = l.length - 1
  | [] => rfl
  | [_] => rfl
  | _ :: b :: l => by rw [mids, List.length_cons, mids_length (b :: l)]; simp

theorem diffs_length : ∀ l : List ℝ, (diffs l).length = l.length - 1
  | [] => rfl
  | [_] => rfl
  | _ :: b :: l => by rw [diffs, List.length_cons, diffs_length (b :: l)]; simp

theorem mids_get : ∀ (l : List ℝ) (i : Nat) (x y : ℝ), l[i]? = some x → l[i + 1]? = some y → (mids l)[i]? = some ((x + y) / 2)
  | [], _, _, _, h, _ => by simp at h
  | [_], i, _, _, _, h => by simp at h
  | a :: b :: l, 0, x, y, h1, h2 => by
    simp at h1 h2; subst h1; subst h2
    rw [mids, List.getElem?_cons_zero, Option.some.injEq]; ring
  | a :: b :: l, i + 1, x, y, h1, h2 => by
    rw [mids, List.getElem?_cons_succ]
    exact mids_get (b :: l) i x y (by simpa using h1) (by simpa using h2)

theorem diffs_get : ∀ (l : List ℝ) (i : Nat) (x y : ℝ), l[i]? = some x → l[i + 1]? = some y → (diffs l)[i]? = some (y - x)
  | [], _, _, _, h, _ => by simp at h
  | [_], i, _, _, _, h => by simp at h
  | a :: b :: l, 0, x, y, h1, h2 => by
    simp at h1 h2; subst h1; subst h2
    rw [diffs, List.getElem?_cons_zero]
  | a :: b :: l, i + 1, x, y, h1, h2 => by
    rw [diffs, List.getElem?_cons_succ]
    exact diffs_get (b :: l) i x y (by simpa using h1) (by simpa using h2)

/-- **C361** Bin number `i`: the redshift is the middle of the bin, and the number of supernovae is the rate there, times
the area, the volume between the edges of the bin and the duration in years, divided by `1 + z`. -/
theorem snRate_bin (zmin zmax dz area omega : ℝ) (rate dur vol : ℝ → ℝ) (i : Nat) (h : i + 1 < ⌈(zmax + dz - zmin) / dz⌉₊) :
    (snRate zmin zmax dz area omega rate dur vol)[i]? =
      some (zmin + (i + 1 / 2) * dz,
        rate (zmin + (i + 1 / 2) * dz) * (area * omega) * (vol (zmin + (i + 1) * dz) - vol (zmin + i * dz)) *
          (dur (zmin + (i + 1 / 2) * dz) / 365.25) / (1 + (zmin + (i + 1 / 2) * dz))) := by
  have h1 := arange_get zmin (zmax + dz) dz i (by omega)
  have h2 := arange_get zmin (zmax + dz) dz (i + 1) h
  have hm := mids_get _ _ _ _ h1 h2
  have he : (zmin + i * dz + (zmin + ((i + 1 : ℕ) : ℝ) * dz)) / 2 = zmin + (i + 1 / 2) * dz := by push_cast; ring
  rw [he] at hm
  have hd := diffs_get ((arange zmin (zmax + dz) dz).map vol) i (vol (zmin + i * dz)) (vol (zmin + ((i + 1 : ℕ) : ℝ) * dz))
    (by rw [List.getElem?_map, h1]; rfl) (by rw [List.getElem?_map, h2]; rfl)
  rw [snRate, List.getElem?_zip_eq_some]
  refine ⟨hm, ?_⟩
  rw [List.getElem?_zipWith, hm, hd]
  push_cast
  rfl

/-- **C361** The number of bins. -/
theorem snRate_length (zmin zmax dz area omega : ℝ) (rate dur vol : ℝ → ℝ) :
    (snRate zmin zmax dz area omega rate dur vol).length = ⌈(zmax + dz - zmin) / dz⌉₊ - 1 := by
  simp [snRate, mids_length, diffs_length, arange_length]

/-- **C361** The bins reach `zmax` and end less than one bin after it. -/
theorem snRate_reach (zmin zmax dz : ℝ) (hdz : 0 < dz) (hz : zmin < zmax) :
    zmax ≤ zmin + ((⌈(zmax + dz - zmin) / dz⌉₊ - 1 : ℕ) : ℝ) * dz ∧
    zmin + ((⌈(zmax + dz - zmin) / dz⌉₊ - 1 : ℕ) : ℝ) * dz < zmax + dz := by
  have h1 : (zmax + dz - zmin) / dz ≤ (⌈(zmax + dz - zmin) / dz⌉₊ : ℝ) := Nat.le_ceil _
  have h2 : (⌈(zmax + dz - zmin) / dz⌉₊ : ℝ) < (zmax + dz - zmin) / dz + 1 :=
    Nat.ceil_lt_add_one (div_nonneg (by linarith) hdz.le)
  have hpos : 1 ≤ ⌈(zmax + dz - zmin) / dz⌉₊ := Nat.one_le_ceil_iff.mpr (div_pos (by linarith) hdz)
  rw [Nat.cast_sub hpos, Nat.cast_one]
  rw [div_le_iff₀ hdz] at h1
  have h3 : ((zmax + dz - zmin) / dz) * dz = zmax + dz - zmin := div_mul_cancel₀ _ hdz.ne'
  constructor
  · nlinarith
  · nlinarith [mul_lt_mul_of_pos_right h2 hdz]

/-- **C361** Numbers of supernovae are not negative, if the rate and the duration are not and the volume grows. -/
theorem snRate_nonneg (zmin zmax dz area omega : ℝ) (rate dur vol : ℝ → ℝ) (hdz : 0 < dz) (hz : 0 ≤ zmin) (ha : 0 ≤ area)
    (ho : 0 ≤ omega) (hr : ∀ z, 0 ≤ z → 0 ≤ rate z) (hd : ∀ z, 0 ≤ dur z) (hv : ∀ x y, x ≤ y → vol x ≤ vol y) :
    ∀ p ∈ snRate zmin zmax dz area omega rate dur vol, 0 ≤ p.2 := by
  intro p hp
  obtain ⟨i, hi, rfl⟩ := List.mem_iff_getElem.mp hp
  have hl := hi
  rw [snRate_length] at hl
  have hb := snRate_bin zmin zmax dz area omega rate dur vol i (by omega)
  rw [List.getElem?_eq_getElem hi, Option.some.injEq] at hb
  rw [hb]
  simp only
  have hi0 : (0 : ℝ) ≤ i := Nat.cast_nonneg i
  have h1 : 0 ≤ zmin + (i + 1 / 2) * dz := by positivity
  have h2 := hr _ h1
  have h3 := hd (zmin + (i + 1 / 2) * dz)
  have h4 : 0 ≤ vol (zmin + (i + 1) * dz) - vol (zmin + i * dz) := by
    have := hv (zmin + i * dz) (zmin + (i + 1) * dz) (by nlinarith)
    linarith
  positivity

/-- **C361** Twice the area, twice the supernovae. -/
theorem snRate_area (zmin zmax dz area omega c : ℝ) (rate dur vol : ℝ → ℝ) :
    snRate zmin zmax dz (c * area) omega rate dur vol = (snRate zmin zmax dz area omega rate dur vol).map (fun p => (p.1, c * p.2)) := by
  apply List.ext_getElem?
  intro i
  rw [List.getElem?_map]
  by_cases h : i + 1 < ⌈(zmax + dz - zmin) / dz⌉₊
  · rw [snRate_bin _ _ _ _ _ _ _ _ _ h, snRate_bin _ _ _ _ _ _ _ _ _ h, Option.map_some, Option.some.injEq, Prod.mk.injEq]
    refine ⟨rfl, ?_⟩
    ring
  · rw [List.getElem?_eq_none (by rw [snRate_length]; omega), List.getElem?_eq_none (by rw [snRate_length]; omega)]
    rfl

/-- **C361** The duration less the edges of the season is never negative, and it is `duration − (1 + z) (max − min)` days
in years if that is positive. -/
theorem edgeDuration_spec (d rfmin rfmax z : ℝ) :
    edgeDuration d rfmin rfmax z = max 0 (d - (1 + z) * (rfmax - rfmin)) / 365.25 := by
  unfold edgeDuration
  have h : d / 365.25 - (1 + z) * (rfmax - rfmin) / 365.25 = (d - (1 + z) * (rfmax - rfmin)) / 365.25 := by ring
  simp only [h]
  split_ifs with h1
  · have : d - (1 + z) * (rfmax - rfmin) ≤ 0 := by
      rw [div_le_iff₀ (by norm_num)] at h1; linarith
    rw [max_eq_left this, zero_div]
  · have : 0 < d - (1 + z) * (rfmax - rfmin) := by
      rw [not_le, lt_div_iff₀ (by norm_num)] at h1; linarith
    rw [max_eq_right this.le]

/-- **C361** `nsn_from_rate` (lines 1037-1057) interpolates these numbers at the redshifts of the study. The first of them,
`zmin`, lies below the middle of the first bin, so that no supernova is expected there. -/
theorem expected_at_zmin (zmin zmax dz area omega : ℝ) (rate dur vol : ℝ → ℝ) (hdz : 0 < dz) :
    interp0 (snRate zmin zmax dz area omega rate dur vol) zmin = 0 := by
  unfold interp0
  split
  · rename_i a b ha hb
    rw [if_pos]
    left
    rw [List.head?_eq_getElem?] at ha
    have hl := (List.getElem?_eq_some_iff.mp ha).1
    rw [snRate_length] at hl
    rw [snRate_bin _ _ _ _ _ _ _ _ 0 (by omega), Option.some.injEq] at ha
    rw [← ha]
    simp only
    push_cast
    linarith
  · rfl

/-- **C361** Bins given by the caller: the product of line 724 works for two edges at most. -/
theorem given_bins (nb : Nat) (h : 1 ≤ nb) : shapesOk true nb = true ↔ nb ≤ 2 := by
  simp [shapesOk, broadcasts]
  omega

/-- **C361** It is false that redshift bins can be given. -/
theorem given_bins_false : ¬ ∀ nb, 2 ≤ nb → shapesOk true nb = true := by
  intro h
  have := (given_bins 3 (by omega)).mp (h 3 (by omega))
  omega

/-- **C361** Bins made from `zmin`, `zmax` and `dz` always fit. -/
theorem made_bins (nb : Nat) : shapesOk false nb = true := by simp [shapesOk, broadcasts]

example : (snRate 0 1 0.5 1 1 (fun _ => 1) (fun _ => 365.25) (fun z => z))[0]? = some (1 / 4, 2 / 5) := by
  rw [snRate_bin _ _ _ _ _ _ _ _ 0 (by rw [show ((1 : ℝ) + 0.5 - 0) / 0.5 = ((3 : ℕ) : ℝ) by norm_num, Nat.ceil_natCast]; norm_num)]
  norm_num

/-! ## The number of supernovae -/

/-- **C360** The number of supernovae is the sum over the bins of efficiency times number. -/
theorem getNsn_sum (eff dur rate vol : ℝ → ℝ) (area omega zmin zmax zstep : ℝ) :
    getNsn eff dur rate vol area omega zmin zmax zstep =
      ((snRate zmin (zmax + zstep) zstep area omega rate dur vol).map (fun p => eff p.1 * p.2)).sum := by
  rw [getNsn, cum_total]

/-- **C360** The last bin that is counted lies wholly above the redshift limit: its lower edge is not below `zmax`, and its
upper edge is less than two steps above it. -/
theorem getNsn_last_bin (zmin zmax zstep : ℝ) (hs : 0 < zstep) (hz : zmin ≤ zmax) :
    let n := ⌈((zmax + zstep) + zstep - zmin) / zstep⌉₊
    2 ≤ n ∧ zmax ≤ zmin + ((n - 2 : ℕ) : ℝ) * zstep ∧ zmin + ((n - 1 : ℕ) : ℝ) * zstep < zmax + 2 * zstep := by
  intro n
  have h0 : (2 : ℝ) ≤ ((zmax + zstep) + zstep - zmin) / zstep := by
    rw [le_div_iff₀ hs]; linarith
  have h1 : ((zmax + zstep) + zstep - zmin) / zstep ≤ (n : ℝ) := Nat.le_ceil _
  have hn : 2 ≤ n := by
    have : (2 : ℝ) ≤ n := le_trans h0 h1
    exact_mod_cast this
  have h2 : (n : ℝ) < ((zmax + zstep) + zstep - zmin) / zstep + 1 := Nat.ceil_lt_add_one (by linarith)
  have h3 : (((zmax + zstep) + zstep - zmin) / zstep) * zstep = (zmax + zstep) + zstep - zmin := div_mul_cancel₀ _ hs.ne'
  refine ⟨hn, ?_, ?_⟩
  · rw [Nat.cast_sub hn]
    push_cast
    nlinarith [mul_le_mul_of_nonneg_right h1 hs.le]
  · rw [Nat.cast_sub (by omega)]
    push_cast
    nlinarith [mul_lt_mul_of_pos_right h2 hs]

/-- **C360** The number is not negative, and not more than without selection. -/
theorem getNsn_bounds (eff dur rate vol : ℝ → ℝ) (area omega zmin zmax zstep : ℝ) (hdz : 0 < zstep) (hz : 0 ≤ zmin) (ha : 0 ≤ area)
    (ho : 0 ≤ omega) (hr : ∀ z, 0 ≤ z → 0 ≤ rate z) (hd : ∀ z, 0 ≤ dur z) (hv : ∀ x y, x ≤ y → vol x ≤ vol y)
    (he : ∀ z, 0 ≤ eff z ∧ eff z ≤ 1) :
    0 ≤ getNsn eff dur rate vol area omega zmin zmax zstep ∧
    getNsn eff dur rate vol area omega zmin zmax zstep ≤ ((snRate zmin (zmax + zstep) zstep area omega rate dur vol).map Prod.snd).sum := by
  have hn := snRate_nonneg zmin (zmax + zstep) zstep area omega rate dur vol hdz hz ha ho hr hd hv
  rw [getNsn_sum]
  generalize snRate zmin (zmax + zstep) zstep area omega rate dur vol = l at hn
  constructor
  · apply List.sum_nonneg
    intro x hx
    obtain ⟨p, hp, rfl⟩ := List.mem_map.mp hx
    exact mul_nonneg (he p.1).1 (hn p hp)
  · apply List.sum_le_sum
    intro p hp
    have := mul_le_mul_of_nonneg_right (he p.1).2 (hn p hp)
    linarith

/-- **C360** The result of `run`: the sum over the seasons of positive redshift limit, and the median of these limits; the
bad value if there is no such season. -/
theorem finalRow_none (rows : List (ℝ × ℝ)) : finalRow rows = none ↔ ∀ r ∈ rows, r.1 ≤ 0 := by
  have hm : ∀ xs : List ℝ, Area.median xs = none ↔ xs = [] := by
    intro xs
    constructor
    · intro h
      by_contra hne
      have hl : 0 < (sort xs).length := by rw [(sort_perm xs).length_eq]; exact List.length_pos_iff.mpr hne
      unfold Area.median at h
      simp only at h
      rw [List.getElem?_eq_getElem (by omega), List.getElem?_eq_getElem (by omega)] at h
      simp at h
    · rintro rfl; rfl
  have h1 : finalRow rows = none ↔ Area.median ((rows.filter (fun r => decide (0 < r.1))).map Prod.fst) = none := by
    unfold finalRow
    simp only
    split
    · rename_i h; simp [h]
    · rename_i z h; simp [h]
  rw [h1, hm, List.map_eq_nil_iff, List.filter_eq_nil_iff]
  simp

/-- **C360** The first number of the result. -/
theorem finalRow_sum (rows : List (ℝ × ℝ)) (n z : ℝ) (h : finalRow rows = some (n, z)) :
    n = ((rows.filter (fun r => decide (0 < r.1))).map Prod.snd).sum ∧
    Area.median ((rows.filter (fun r => decide (0 < r.1))).map Prod.fst) = some z := by
  unfold finalRow at h
  simp only at h
  split at h
  · cases h
  · rename_i z' hz
    rw [Option.some.injEq, Prod.mk.injEq] at h
    exact ⟨h.1.symm, by rw [hz, h.2]⟩

/-- **C360** A season whose mean efficiency for the second kind of supernova is at most 0.02 counts −1 supernova. -/
theorem nsnOf_low (effis : List ℝ) (n : ℝ) (h : mean effis ≤ 0.02) : nsnOf effis n = -1 := by
  rw [nsnOf, if_neg (not_lt.mpr h)]

/-- **C360** It is false that the number of supernovae of a point of the sky is never negative. -/
theorem n_sn_false : ¬ ∀ (seasons : List (ℝ × List ℝ × ℝ)) (n z : ℝ), (∀ s ∈ seasons, 0 ≤ s.2.2) →
    finalRow (seasons.map (fun s => (s.1, nsnOf s.2.1 s.2.2))) = some (n, z) → 0 ≤ n := by
  intro h
  have hf : finalRow [((0.3 : ℝ), (-1 : ℝ))] = some (-1, 0.3) := by
    norm_num [finalRow, Area.median, sort]
  have := h [(0.3, [0], 5)] (-1) 0.3 (by simp) (by
    rw [List.map_cons, List.map_nil]
    simp only
    rw [nsnOf_low [0] 5 (by norm_num [mean])]
    exact hf)
  norm_num at this

/-- **C360** If every season of positive limit has a mean efficiency above 0.02, the number is the sum of the numbers of
the seasons. -/
theorem n_sn_partial (seasons : List (ℝ × List ℝ × ℝ)) (n z : ℝ) (he : ∀ s ∈ seasons, 0 < s.1 → 0.02 < mean s.2.1)
    (h : finalRow (seasons.map (fun s => (s.1, nsnOf s.2.1 s.2.2))) = some (n, z)) :
    n = ((seasons.filter (fun s => decide (0 < s.1))).map (fun s => s.2.2)).sum := by
  rw [(finalRow_sum _ _ _ h).1, List.filter_map, List.map_map]
  congr 1
  apply List.map_congr_left
  intro s hs
  rw [List.mem_filter] at hs
  simp only [Function.comp, nsnOf]
  rw [if_pos (he s hs.1 (by simpa using hs.2))]

example : finalRow [(0.3, 5), (-1, 7), (0.5, 2)] = some (7, 0.4) := by
  norm_num [finalRow, Area.median, sort, List.insertionSort, List.orderedInsert]

/-! ## Rates -/

/-- **C362** The rate of Perrett: positive, growing with the redshift, `0.17e-4` today. -/
theorem perrett_spec : (perrett 0).1 = 0.17e-4 ∧ (∀ z, 0 ≤ z → 0 < (perrett z).1) ∧
    (∀ z z', 0 ≤ z → z < z' → (perrett z).1 < (perrett z').1) := by
  refine ⟨by simp [perrett], ?_, ?_⟩
  · intro z hz
    have : (0 : ℝ) < (1 + z) ^ (2.11 : ℝ) := Real.rpow_pos_of_pos (by linarith) _
    unfold perrett
    simp only
    positivity
  · intro z z' hz h
    have : (1 + z) ^ (2.11 : ℝ) < (1 + z') ^ (2.11 : ℝ) := Real.rpow_lt_rpow (by linarith) (by linarith) (by norm_num)
    unfold perrett
    simp only
    nlinarith

/-- **C362** Its error is the propagated error of the two parameters: the square is
`((1+z)^2.11 · 0.03e-4)² + (rate · ln(1+z) · 0.28)²`. -/
theorem perrett_err (z : ℝ) (hz : 0 ≤ z) :
    (perrett z).2 ^ 2 = ((1 + z) ^ (2.11 : ℝ) * 0.03e-4) ^ 2 + ((perrett z).1 * Real.log (1 + z) * 0.28) ^ 2 := by
  have h1 : (0 : ℝ) ≤ 1 + z := by linarith
  have h2 : (1 + z) ^ (2 * 2.11 : ℝ) = ((1 + z) ^ (2.11 : ℝ)) ^ 2 := by
    rw [mul_comm, Real.rpow_mul h1, Real.rpow_two]
  show (((1 + z) ^ (2 * 2.11 : ℝ) * (0.03e-4 : ℝ) ^ (2 : ℝ) + ((perrett z).1 * Real.log (1 + z) * 0.28) ^ (2 : ℝ)) ^ (0.5 : ℝ)) ^ 2 = _
  rw [Real.rpow_two, Real.rpow_two, h2]
  have hx : (0 : ℝ) ≤ ((1 + z) ^ (2.11 : ℝ)) ^ 2 * (0.03e-4 : ℝ) ^ 2 + ((perrett z).1 * Real.log (1 + z) * 0.28) ^ 2 := by positivity
  rw [show (0.5 : ℝ) = 1 / 2 by norm_num, ← Real.sqrt_eq_rpow, Real.sq_sqrt hx]
  ring

/-- **C362** The rates of Ripoche and Dilday grow up to redshift one and are constant from there on. -/
theorem capped_rates : (∀ z, 1 ≤ z → ripoche z = ripoche 1 ∧ dilday z = dilday 1) ∧
    (∀ z z', 0 ≤ z → z < z' → z' ≤ 1 → (ripoche z).1 < (ripoche z').1 ∧ (dilday z).1 < (dilday z').1) ∧
    (∀ z, 0 ≤ z → 0 < (ripoche z).1 ∧ 0 < (dilday z).1) := by
  refine ⟨?_, ?_, ?_⟩
  · intro z hz
    simp [ripoche, dilday, min_eq_right hz]
  · intro z z' h0 h1 h2
    have e1 : min z 1 = z := min_eq_left (by linarith)
    have e2 : min z' 1 = z' := min_eq_left h2
    have p1 : ((1 + z) / 1.5) ^ (2.14 : ℝ) < ((1 + z') / 1.5) ^ (2.14 : ℝ) :=
      Real.rpow_lt_rpow (by positivity) (by apply div_lt_div_of_pos_right <;> linarith) (by norm_num)
    have p2 : (1 + z) ^ (1.5 : ℝ) < (1 + z') ^ (1.5 : ℝ) := Real.rpow_lt_rpow (by linarith) (by linarith) (by norm_num)
    unfold ripoche dilday
    simp only [e1, e2]
    constructor <;> nlinarith
  · intro z hz
    have hm : 0 ≤ min z 1 := le_min hz (by norm_num)
    have p1 : (0 : ℝ) < ((1 + min z 1) / 1.5) ^ (2.14 : ℝ) := Real.rpow_pos_of_pos (by positivity) _
    have p2 : (0 : ℝ) < (1 + min z 1) ^ (1.5 : ℝ) := Real.rpow_pos_of_pos (by positivity) _
    unfold ripoche dilday
    simp only
    constructor <;> positivity

/-- **C362** There is a rate for exactly the three names of the documentation. -/
theorem snRateOf_known (name : String) (z : ℝ) : (snRateOf name z).isSome = true ↔ name = "Ripoche" ∨ name = "Perrett" ∨ name = "Dilday" := by
  unfold snRateOf
  split_ifs with h1 h2 h3 <;> simp_all

/-- **C362** Each name has its own rate: today they are those of the three publications. -/
theorem snRateOf_names : (snRateOf "Dilday" 0).map Prod.fst = some 2.6e-5 ∧ (snRateOf "Perrett" 0).map Prod.fst = some 0.17e-4 ∧
    (snRateOf "Ripoche" 0.5).map Prod.fst = some (1.53e-4 * 0.343) := by
  have e1 : snRateOf "Dilday" 0 = some (dilday 0) := by simp [snRateOf]
  have e2 : snRateOf "Perrett" 0 = some (perrett 0) := by simp [snRateOf]
  have e3 : snRateOf "Ripoche" 0.5 = some (ripoche 0.5) := by simp [snRateOf]
  rw [e1, e2, e3]
  refine ⟨?_, ?_, ?_⟩
  · simp [dilday]
  · simp [perrett]
  · have : min (0.5 : ℝ) 1 = 0.5 := by norm_num
    simp only [Option.map_some, ripoche, this]
    norm_num

example : (dilday 3).1 = 2.6e-5 * 2 ^ (1.5 : ℝ) := by
  rw [(capped_rates.1 3 (by norm_num)).2]; norm_num [dilday]

/-! ## The Fisher matrix -/

theorem fisherMat_eq (f : Fisher) : fisherMat f =
    !![f.xx, f.xs, f.xd, f.xc; f.xs, f.ss, f.sd, f.sc; f.xd, f.sd, f.dd, f.dc; f.xc, f.sc, f.dc, f.cc] := by
  ext i j
  fin_cases i <;> fin_cases j <;> simp [fisherMat]

theorem fisher_det (f : Fisher) : (fisherMat f).det = detM f := by
  rw [fisherMat_eq, Matrix.det_succ_row_zero]
  simp [Fin.sum_univ_succ, Matrix.det_fin_three, Fin.succAbove, detM, det3]
  ring

theorem fisher_cofactor (f : Fisher) : (fisherMat f).adjugate 3 3 =
    -f.xd * f.ss * f.xd + f.xs * f.sd * f.xd + f.xd * f.xs * f.sd - f.xx * f.sd * f.sd - f.xs * f.xs * f.dd + f.xx * f.ss * f.dd := by
  rw [fisherMat_eq, Matrix.adjugate_fin_succ_eq_det_submatrix, Matrix.det_fin_three]
  simp [Fin.succAbove]
  ring

/-- **C363** The variance of the colour is the last entry on the diagonal of the inverse of the symmetric Fisher matrix. -/
theorem varColor_spec (f : Fisher) (h : (fisherMat f).det ≠ 0) : varColor f = (fisherMat f)⁻¹ 3 3 := by
  rw [Matrix.inv_def, Matrix.smul_apply, fisher_cofactor, Ring.inverse_eq_inv', smul_eq_mul, fisher_det, varColor]
  rw [fisher_det] at h
  field_simp

/-- **C363** In other words: if `x` solves the equations of the Fisher matrix with the last unit vector as right side, its
last entry is the variance of the colour. -/
theorem varColor_solves (f : Fisher) (x0 x1 x2 x3 : ℝ) (h : detM f ≠ 0)
    (e0 : f.xx * x0 + f.xs * x1 + f.xd * x2 + f.xc * x3 = 0) (e1 : f.xs * x0 + f.ss * x1 + f.sd * x2 + f.sc * x3 = 0)
    (e2 : f.xd * x0 + f.sd * x1 + f.dd * x2 + f.dc * x3 = 0) (e3 : f.xc * x0 + f.sc * x1 + f.dc * x2 + f.cc * x3 = 1) :
    varColor f = x3 := by
  have hmul : (fisherMat f).mulVec ![x0, x1, x2, x3] = ![0, 0, 0, 1] := by
    rw [fisherMat_eq]
    ext i
    fin_cases i <;> simp [Matrix.mulVec, dotProduct, Fin.sum_univ_succ] <;> linarith
  have hd : (fisherMat f).det ≠ 0 := by rw [fisher_det]; exact h
  have hu : IsUnit (fisherMat f).det := isUnit_iff_ne_zero.mpr hd
  rw [varColor_spec f hd]
  have h2 : (fisherMat f)⁻¹.mulVec ((fisherMat f).mulVec ![x0, x1, x2, x3]) = ![x0, x1, x2, x3] := by
    rw [Matrix.mulVec_mulVec, Matrix.nonsing_inv_mul _ hu, Matrix.one_mulVec]
  rw [hmul] at h2
  have h3 := congrFun h2 3
  simpa [Matrix.mulVec, dotProduct, Fin.sum_univ_succ] using h3

/-- **C363** The variances of several supernovae come from one large matrix. If each Fisher matrix has an inverse, each
variance is that of the supernova alone, `var_color`. -/
theorem sigmas_eq {n : Nat} (fs : Fin n → Fisher) (h : ∀ v, detM (fs v) ≠ 0) : sigmas fs = some (fun v => varColor (fs v)) := by
  have hd : ∀ v, IsUnit (fisherMat (fs v)).det := fun v => by rw [fisher_det]; exact isUnit_iff_ne_zero.mpr (h v)
  have hdet : (Matrix.blockDiagonal (fun v => fisherMat (fs v))).det ≠ 0 := by
    rw [Matrix.det_blockDiagonal, Finset.prod_ne_zero_iff]
    intro v _
    rw [fisher_det]; exact h v
  have hinv : (Matrix.blockDiagonal (fun v => fisherMat (fs v)))⁻¹ = Matrix.blockDiagonal (fun v => (fisherMat (fs v))⁻¹) := by
    apply Matrix.inv_eq_right_inv
    rw [← Matrix.blockDiagonal_mul, ← Matrix.blockDiagonal_one]
    congr 1
    funext v
    exact Matrix.mul_nonsing_inv _ (hd v)
  unfold sigmas
  simp only
  rw [if_neg hdet, hinv]
  congr 1
  funext v
  rw [Matrix.blockDiagonal_apply_eq, varColor_spec]
  rw [fisher_det]; exact h v

/-- **C363** One supernova whose Fisher matrix has no inverse is enough to stop the metric. -/
theorem sigmas_none {n : Nat} (fs : Fin n → Fisher) : sigmas fs = none ↔ ∃ v, detM (fs v) = 0 := by
  constructor
  · intro h
    by_contra hc
    push Not at hc
    rw [sigmas_eq fs hc] at h
    cases h
  · rintro ⟨v, hv⟩
    unfold sigmas
    simp only
    rw [if_pos]
    rw [Matrix.det_blockDiagonal]
    exact Finset.prod_eq_zero (Finset.mem_univ v) (by rw [fisher_det]; exact hv)

example : varColor ⟨2, 0, 0, 0, 3, 0, 0, 5, 0, 7⟩ = 1 / 7 := by norm_num [varColor, detM, det3]

example : varColor ⟨2, 0, 0, 1, 1, 0, 0, 1, 0, 1⟩ = 2 := by norm_num [varColor, detM, det3]

/-! ## The cached files -/

/-- **C364** The cache holds what the file of its name holds. -/
def CacheOk {α : Type} (read : String → α) (s : Cache α) : Prop := ∀ n d, s = some (n, d) → d = read n

theorem loadCached_ok {α : Type} (read : String → α) (s : Cache α) (name : String) (h : CacheOk read s) :
    (loadCached read s name).1.1 = read name ∧ (loadCached read s name).2 = some (name, read name) ∧
    CacheOk read (loadCached read s name).2 := by
  have key : (loadCached read s name).1.1 = read name ∧ (loadCached read s name).2 = some (name, read name) := by
    unfold loadCached
    split
    · rename_i n d
      have := h n d rfl
      split_ifs with hn
      · subst hn; subst this; exact ⟨rfl, rfl⟩
      · exact ⟨rfl, rfl⟩
    · exact ⟨rfl, rfl⟩
  refine ⟨key.1, key.2, ?_⟩
  rw [key.2]
  intro n d hs
  rw [Option.some.injEq, Prod.mk.injEq] at hs
  rw [← hs.1, ← hs.2]

/-- **C364** Whatever files were asked for before, every call gives the data of the file it names. -/
theorem loadAll_data {α : Type} (read : String → α) : ∀ (names : List String) (s : Cache α), CacheOk read s →
    (loadAll read s names).map Prod.fst = names.map read
  | [], _, _ => rfl
  | n :: l, s, h => by
    obtain ⟨h1, _, h3⟩ := loadCached_ok read s n h
    rw [loadAll, List.map_cons, h1, loadAll_data read l _ h3, List.map_cons]

/-- **C364** From a fresh start, a call reads its file exactly if it is the first or the call before named another file. -/
theorem loadAll_reads {α : Type} (read : String → α) : ∀ (names : List String) (last : Option String),
    (loadAll read (last.map (fun n => (n, read n))) names).map Prod.snd =
      List.zipWith (fun (p : Option String) n => decide (p ≠ some n)) (last :: names.map some) names
  | [], _ => rfl
  | n :: l, last => by
    have hok : CacheOk read (last.map (fun n => (n, read n))) := by
      intro m d hm
      cases last with
      | none => cases hm
      | some x =>
        rw [Option.map_some, Option.some.injEq, Prod.mk.injEq] at hm
        rw [← hm.1, ← hm.2]
    obtain ⟨_, h2, _⟩ := loadCached_ok read _ n hok
    rw [loadAll, List.map_cons, h2]
    have ih := loadAll_reads read l (some n)
    rw [Option.map_some] at ih
    rw [ih, List.map_cons, List.zipWith_cons_cons]
    congr 1
    unfold loadCached
    cases last with
    | none => simp
    | some x =>
      simp only [Option.map_some]
      by_cases hx : x = n
      · simp [hx]
      · simp [hx]

example : (loadAll (fun s => s.length) none ["a", "a", "bb", "a"]) = [(1, true), (1, false), (2, true), (1, true)] := by decide

/-! ## The points of a light curve -/

/-- **C365** A visit gives a point of the light curve of a supernova exactly if its rest-frame phase and the rest-frame
wavelength of its band are in range and the flux is positive enough. -/
theorem flagged_iff (rfmin rfmax blue red mjd t0 z wl flux : ℝ) (hz : 0 < 1 + z) :
    flagged rfmin rfmax blue red (phase mjd t0 z) wl z flux = true ↔
      (t0 + rfmin * (1 + z) ≤ mjd ∧ mjd ≤ t0 + rfmax * (1 + z)) ∧ (blue * (1 + z) < wl ∧ wl < red * (1 + z)) ∧ 1e-10 < flux := by
  unfold flagged phase
  simp only [Bool.and_eq_true, decide_eq_true_eq]
  rw [le_div_iff₀ hz, div_le_iff₀ hz, lt_div_iff₀ hz, div_lt_iff₀ hz]
  constructor
  · rintro ⟨⟨⟨⟨h1, h2⟩, h3⟩, h4⟩, h5⟩
    exact ⟨⟨by linarith, by linarith⟩, ⟨h3, h4⟩, h5⟩
  · rintro ⟨⟨h1, h2⟩, ⟨h3, h4⟩, h5⟩
    exact ⟨⟨⟨⟨by linarith, by linarith⟩, h3⟩, h4⟩, h5⟩

theorem flat_row {α β : Type} (fr : List Bool) (a : List α) (b : List β) (ha : a.length = fr.length) (hb : b.length = fr.length) :
    ((fr.zip (a.zip b)).filter Prod.fst).map Prod.snd
      = (((fr.zip a).filter Prod.fst).map Prod.snd).zip (((fr.zip b).filter Prod.fst).map Prod.snd) := by
  induction fr generalizing a b with
  | nil => simp
  | cons f fr ih =>
    match a, b, ha, hb with
    | x :: a, y :: b, ha, hb =>
      have := ih a b (by simpa using ha) (by simpa using hb)
      cases f
      · simpa using this
      · simpa using this

theorem flat_row_length {α : Type} (fr : List Bool) (a : List α) (ha : a.length = fr.length) :
    (((fr.zip a).filter Prod.fst).map Prod.snd).length = (fr.filter id).length := by
  induction fr generalizing a with
  | nil => simp
  | cons f fr ih =>
    match a, ha with
    | x :: a, ha =>
      have := ih a (by simpa using ha)
      rw [List.length_map] at this ⊢
      cases f
      · simpa using this
      · simpa using this

theorem zip_row_zip {α β : Type} (a : List α) (b : List β) (a' : List α) (b' : List β) (h : a.length = b.length) :
    (a ++ a').zip (b ++ b') = a.zip b ++ a'.zip b' := List.zip_append h

/-- **C365** The columns of the table agree: the entry of one array and the entry of another in the same row of the table
come from the same supernova and the same visit. -/
theorem flat_zip {α β : Type} : ∀ (flag : List (List Bool)) (A : List (List α)) (B : List (List β)),
    List.Forall₂ (fun f a => a.length = f.length) flag A → List.Forall₂ (fun f b => b.length = f.length) flag B →
    flat flag (List.zipWith List.zip A B) = (flat flag A).zip (flat flag B)
  | _, [], _, h1, _ => by cases h1; simp [flat]
  | fr :: flag, a :: A, b :: B, .cons ha hA, .cons hb hB => by
    have ih := flat_zip flag A B hA hB
    unfold flat at ih ⊢
    rw [List.zipWith_cons_cons, List.zipWith_cons_cons, List.zipWith_cons_cons, List.zipWith_cons_cons, List.flatten_cons, List.flatten_cons,
      List.flatten_cons, ih, List.zip_append, flat_row _ _ _ ha hb]
    rw [flat_row_length _ _ ha, flat_row_length _ _ hb]

/-- **C365** The redshift and the day of maximum of a point, found with `argwhere`, are those of its supernova: as if the
value of the supernova were written at each of its visits. -/
theorem byRow_flat {α : Type} : ∀ (flag : List (List Bool)) (vals : List α), flag.length = vals.length →
    byRow flag vals = flat flag (List.zipWith (fun fr v => List.replicate fr.length v) flag vals)
  | [], [], _ => rfl
  | fr :: flag, v :: vals, h => by
    have ih := byRow_flat flag vals (by simpa using h)
    unfold byRow flat at ih ⊢
    rw [List.zipWith_cons_cons, List.zipWith_cons_cons, List.zipWith_cons_cons, List.flatten_cons, List.flatten_cons, ih]
    congr 1
    clear ih h
    induction fr with
    | nil => rfl
    | cons f fr ih =>
      cases f
      · simpa [List.replicate_succ] using ih
      · simpa [List.replicate_succ] using ih

/-- **C365** A column of the visits, tiled over the supernovae: supernova `i` and visit `j` get the value of visit `j`. -/
theorem tile_get {α : Type} (n : Nat) (arr : List α) (i j : Nat) (hi : i < n) : (tile n arr)[i]?.bind (fun r => r[j]?) = arr[j]? := by
  simp [tile, hi]

example : flat [[true, false], [true, true]] [["a", "b"], ["c", "d"]] = ["a", "c", "d"] ∧
    byRow [[true, false], [true, true]] [1, 2] = [1, 2, 2] := by decide

/-! ## Lensed supernovae -/

/-- **C366** The number of lensed supernovae: nothing for no area or no season; it grows with both in proportion; each day
more between the visits takes it down by the factor `exp 0.37`. -/
theorem nLensed_spec (area cadence len : ℝ) :
    (∀ c, nLensed (c * area) cadence len = c * nLensed area cadence len) ∧
    (∀ c, nLensed area cadence (c * len) = c * nLensed area cadence len) ∧
    nLensed area (cadence + 1) len * Real.exp 0.37 = nLensed area cadence len ∧
    nLensed 20000 0 2.5 * 2.15 = 45.7 := by
  have he : Real.exp (0.37 * cadence) ≠ 0 := (Real.exp_pos _).ne'
  refine ⟨fun c => ?_, fun c => ?_, ?_, ?_⟩
  · unfold nLensed; ring
  · unfold nLensed; ring
  · unfold nLensed
    have : Real.exp (0.37 * (cadence + 1)) = Real.exp (0.37 * cadence) * Real.exp 0.37 := by
      rw [← Real.exp_add]; congr 1; ring
    rw [this]
    have h2 : Real.exp (0.37 : ℝ) ≠ 0 := (Real.exp_pos _).ne'
    field_simp
  · unfold nLensed; rw [mul_zero, Real.exp_zero]; norm_num

/-- **C366** A longer gap between the visits never gives more. -/
theorem nLensed_anti (area len c c' : ℝ) (ha : 0 ≤ area) (hl : 0 ≤ len) (h : c ≤ c') : nLensed area c' len ≤ nLensed area c len := by
  unfold nLensed
  have : Real.exp (0.37 * c) ≤ Real.exp (0.37 * c') := Real.exp_le_exp.mpr (by linarith)
  apply div_le_div_of_nonneg_left
  · positivity
  · have := Real.exp_pos (0.37 * c); positivity
  · linarith

/-- **C366** A season of too few visits or too few filters adds nothing. -/
theorem seasonLensed_skip (area : ℝ) (mo mf : Nat) (g : List NightRow) (h : g.length < mo ∨ (g.map NightRow.band).toFinset.card < mf) :
    seasonLensed area mo mf g = some 0 := by
  rw [seasonLensed, if_pos]
  rwa [← List.card_toFinset]

/-- **C366** A season is spoilt — its number is not a number — exactly if it has enough visits and filters, but no two
neighbouring visits further apart than 0.4 days. -/
theorem seasonLensed_none (area : ℝ) (mo mf : Nat) (g : List NightRow) (hmo : 1 ≤ mo) : seasonLensed area mo mf g = none ↔
    (mo ≤ g.length ∧ mf ≤ (g.map NightRow.band).toFinset.card ∧
      ∀ (i : ℕ) (x y : ℝ), (g.map NightRow.mjd)[i]? = some x → (g.map NightRow.mjd)[i + 1]? = some y → y - x ≤ 0.4) := by
  have hm : ∀ xs : List ℝ, Area.median xs = none ↔ xs = [] := by
    intro xs
    constructor
    · intro h
      by_contra hne
      have hl : 0 < (sort xs).length := by rw [(sort_perm xs).length_eq]; exact List.length_pos_iff.mpr hne
      unfold Area.median at h
      simp only at h
      rw [List.getElem?_eq_getElem (by omega), List.getElem?_eq_getElem (by omega)] at h
      simp at h
    · rintro rfl; rfl
  have hdiff : (diffs (g.map NightRow.mjd)).filter (fun d => decide (0.4 < d)) = [] ↔
      ∀ (i : ℕ) (x y : ℝ), (g.map NightRow.mjd)[i]? = some x → (g.map NightRow.mjd)[i + 1]? = some y → y - x ≤ 0.4 := by
    rw [List.filter_eq_nil_iff]
    constructor
    · intro h i x y hx hy
      have := h (y - x) (List.mem_of_getElem? (diffs_get _ i x y hx hy))
      simpa using this
    · intro h d hd
      obtain ⟨i, hi, rfl⟩ := List.mem_iff_getElem.mp hd
      have hl := hi
      rw [diffs_length] at hl
      have hx := List.getElem?_eq_getElem (l := g.map NightRow.mjd) (i := i) (by omega)
      have hy := List.getElem?_eq_getElem (l := g.map NightRow.mjd) (i := i + 1) (by omega)
      have h1 := diffs_get _ i _ _ hx hy
      rw [List.getElem?_eq_getElem hi, Option.some.injEq] at h1
      have := h i _ _ hx hy
      rw [h1]
      simpa using this
  unfold seasonLensed
  simp only
  rw [← List.card_toFinset]
  split_ifs with hs
  · constructor
    · intro h; cases h
    · rintro ⟨h1, h2, _⟩; omega
  · have hs1 : mo ≤ g.length ∧ mf ≤ (g.map NightRow.band).toFinset.card := by
      constructor <;> (by_contra hc; exact hs (by omega))
    have hne : g ≠ [] := by rintro rfl; simp at hs1; omega
    have hd : g.head? = some (g.head hne) := List.head?_eq_some_head hne
    have hl : g.getLast? = some (g.getLast hne) := List.getLast?_eq_some_getLast hne
    rw [← hdiff, hd, hl]
    constructor
    · intro h
      refine ⟨hs1.1, hs1.2, ?_⟩
      rw [← hm]
      cases hmed : Area.median ((diffs (g.map NightRow.mjd)).filter (fun d => decide (0.4 < d))) with
      | none => rfl
      | some c => rw [hmed] at h; cases h
    · rintro ⟨_, _, h3⟩
      rw [(hm _).mpr h3]

theorem sumOpt_none : ∀ l : List (Option ℝ), sumOpt l = none ↔ none ∈ l
  | [] => by simp [sumOpt]
  | x :: l => by
    have ih := sumOpt_none l
    rw [sumOpt, List.mem_cons, ← ih]
    cases x with
    | none => simp [addOpt]
    | some a => cases h : sumOpt l <;> simp [addOpt]

theorem sumOpt_some : ∀ (l : List (Option ℝ)) (v : ℝ), sumOpt l = some v → v = (l.map (fun x => x.getD 0)).sum
  | [], v, h => by simp [sumOpt] at h; simp [h]
  | x :: l, v, h => by
    rw [sumOpt] at h
    cases x with
    | none => simp [addOpt] at h
    | some a =>
      cases hl : sumOpt l with
      | none => rw [hl] at h; simp [addOpt] at h
      | some b =>
        rw [hl] at h
        simp only [addOpt, Option.some.injEq] at h
        rw [← h, List.map_cons, List.sum_cons, ← sumOpt_some l b hl]; rfl

/-- **C366** The metric: the sum over the seasons — all that occur, each once, or the ones asked for — of the deep visits
of the season; one spoilt season spoils the sum. -/
theorem lensedRun_num (badval area ebv : ℝ) (ax m5min : Char → ℝ) (mo mf : Nat) (wanted : List Int) (rows : List NightRow) (v : ℝ)
    (h : lensedRun badval area ebv ax m5min mo mf wanted rows = .num v) :
    let deep := rows.filter (fun r => decide (m5min r.band < r.m5 - ax r.band * ebv))
    let loop := if wanted = [-1] then (deep.map (fun r => ⌊r.season⌋)).dedup else wanted
    v = (loop.map (fun s => (seasonLensed area mo mf (deep.filter (fun r => decide (⌊r.season⌋ = s)))).getD 0)).sum := by
  intro deep loop
  unfold lensedRun at h
  simp only at h
  split_ifs at h with h1 h2
  all_goals
    split at h
    · rename_i w hw
      cases h
      rw [sumOpt_some _ _ hw, List.map_map]
      simp_all [loop, deep, Function.comp_def]
    · cases h

/-- **C366** Two sorts of nothing: no visit gives zero, and visits of which none is deep enough give the bad value of all
metrics. -/
theorem lensedRun_nothing (badval area ebv : ℝ) (ax m5min : Char → ℝ) (mo mf : Nat) (wanted : List Int) :
    lensedRun badval area ebv ax m5min mo mf wanted [] = .badVal 0 ∧
    ∀ rows, rows ≠ [] → (∀ r ∈ rows, r.m5 - ax r.band * ebv ≤ m5min r.band) →
      lensedRun badval area ebv ax m5min mo mf wanted rows = .badVal badval := by
  refine ⟨by simp [lensedRun], fun rows hne h => ?_⟩
  unfold lensedRun
  rw [if_neg hne]
  simp only
  rw [if_pos]
  rw [List.filter_eq_nil_iff]
  intro r hr
  have := h r hr
  simpa using this

/-- **C366** It is false that a point of the sky without a single deep visit has no lensed supernovae (value zero). -/
theorem lensed_zero_false : ¬ ∀ (rows : List NightRow), (∀ r ∈ rows, r.m5 ≤ 30) →
    lensedRun (-666) 1 0 (fun _ => 0) (fun _ => 30) 5 4 [-1] rows = .badVal 0 := by
  intro h
  have h1 := h [⟨'r', 0, 24, 0⟩] (by simp; norm_num)
  have h2 := (lensedRun_nothing (-666) 1 0 (fun _ => 0) (fun _ => 30) 5 4 [-1]).2 [⟨'r', 0, 24, 0⟩] (by simp) (by simp; norm_num)
  rw [h2] at h1
  simp only [SlOut.badVal.injEq] at h1
  norm_num at h1

/-- **C366** It is false that visits in enough filters always give a number: all five in one night do not. -/
theorem lensed_nan_false : ¬ ∀ (rows : List NightRow), lensedRun (-666) 1 0 (fun _ => 0) (fun _ => 20) 5 4 [-1] rows ≠ .nan := by
  intro h
  let rows : List NightRow := [⟨'g', 0, 24, 0⟩, ⟨'r', 0.01, 24, 0⟩, ⟨'i', 0.02, 24, 0⟩, ⟨'z', 0.03, 24, 0⟩, ⟨'y', 0.04, 24, 0⟩]
  apply h rows
  have hdeep : rows.filter (fun r => decide ((fun _ => 20 : Char → ℝ) r.band < r.m5 - (fun _ => 0 : Char → ℝ) r.band * 0)) = rows := by
    rw [List.filter_eq_self]
    intro r hr
    simp only [rows, List.mem_cons, List.not_mem_nil, or_false] at hr
    rcases hr with rfl | rfl | rfl | rfl | rfl <;> norm_num
  have hs : rows.filter (fun r => decide (⌊r.season⌋ = 0)) = rows := by
    rw [List.filter_eq_self]
    intro r hr
    simp only [rows, List.mem_cons, List.not_mem_nil, or_false] at hr
    rcases hr with rfl | rfl | rfl | rfl | rfl <;> simp
  have hl : (rows.map (fun r => ⌊r.season⌋)).dedup = [0] := by
    simp [rows]
  have hn : seasonLensed 1 5 4 rows = none := by
    rw [seasonLensed_none _ _ _ _ (by norm_num)]
    refine ⟨by simp [rows], by simp [rows], ?_⟩
    intro i x y hx hy
    match i with
    | 0 => simp [rows] at hx hy; subst hx; subst hy; norm_num
    | 1 => simp [rows] at hx hy; subst hx; subst hy; norm_num
    | 2 => simp [rows] at hx hy; subst hx; subst hy; norm_num
    | 3 => simp [rows] at hx hy; subst hx; subst hy; norm_num
    | i + 4 => simp [rows] at hy
  unfold lensedRun
  rw [if_neg (by simp [rows])]
  simp only
  rw [hdeep, if_neg (by simp [rows]), if_pos trivial, hl, List.map_cons, List.map_nil, hs, hn]
  rfl

example : nLensed 20000 0 2.5 = 45.7 / 2.15 := by
  unfold nLensed; rw [mul_zero, Real.exp_zero]; norm_num

end Verif.SnN
