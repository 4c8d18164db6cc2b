import Mathlib.Tactic.NormNum
import Mathlib.Tactic.Linarith
import Mathlib.Tactic.Ring
import Mathlib.Tactic.FieldSimp
import Mathlib.Tactic.Positivity
import Mathlib.Algebra.Order.Floor.Ring
import Mathlib.Algebra.Order.BigOperators.Group.List
import Mathlib.Data.Rat.Floor
import Mathlib.Data.List.Sort
import Mathlib.Data.List.Flatten
import Verif.Model.Eso

/-!
# Templates of the sky, visibility of fields, and a slicer for images: properties
-/

namespace Verif.Eso

/-! ## C467: visibility of a field, fast version -/

section
variable {K : Type*} [Field K] [LinearOrder K] [IsStrictOrderedRing K] [FloorRing K]

omit [IsStrictOrderedRing K] in
private theorem mem_arange (a b d t : K) : t ∈ arange a b d ↔ ∃ i : ℕ, (i : ℤ) < ⌈(b - a) / d⌉ ∧ t = a + (i : K) * d := by
  unfold arange
  rw [List.mem_map]
  constructor
  · rintro ⟨i, hi, e⟩
    rw [List.mem_range] at hi
    exact ⟨i, by omega, e.symm⟩
  · rintro ⟨i, hi, e⟩
    exact ⟨i, List.mem_range.mpr (by omega), e.symm⟩

/-- **C467 (part).** The dates that are given are exactly the sampled ones at which the target is high and the sun is low, in order, and the time is
the sampling interval for each. -/
theorem visibleFast_partial (alt sun : K → K) (start stop minAlt sunLimit rate : K) (hr : 0 < rate) :
    (visibleFast alt sun start stop minAlt sunLimit rate).1 = rate * ((visibleFast alt sun start stop minAlt sunLimit rate).2.length : K) ∧
      (visibleFast alt sun start stop minAlt sunLimit rate).2.Pairwise (· < ·) ∧
      ∀ t, t ∈ (visibleFast alt sun start stop minAlt sunLimit rate).2 ↔
        (∃ i : ℕ, t = start + (i : K) * rate ∧ t < stop + rate / 2) ∧ minAlt ≤ alt t ∧ sun t ≤ sunLimit := by
  refine ⟨mul_comm _ _, ?_, ?_⟩
  · simp only [visibleFast]
    apply List.Pairwise.sublist ((List.filter_sublist).trans List.filter_sublist)
    unfold arange
    rw [List.pairwise_map]
    refine List.pairwise_lt_range.imp ?_
    intro i j hij
    have : (i : K) < (j : K) := by exact_mod_cast hij
    nlinarith
  · intro t
    simp only [visibleFast]
    rw [List.mem_filter, List.mem_filter, mem_arange]
    simp only [decide_eq_true_eq]
    constructor
    · rintro ⟨⟨⟨i, hi, e⟩, h1⟩, h2⟩
      refine ⟨⟨i, e, ?_⟩, h1, h2⟩
      rw [Int.lt_ceil, lt_div_iff₀ hr] at hi
      rw [e]
      have hi' : (i : K) * rate < stop + rate / 2 - start := by exact_mod_cast hi
      linarith
    · rintro ⟨⟨i, e, h⟩, h1, h2⟩
      refine ⟨⟨⟨i, ?_, e⟩, h1⟩, h2⟩
      rw [Int.lt_ceil, lt_div_iff₀ hr]
      rw [e] at h
      have : (i : K) * rate < stop + rate / 2 - start := by linarith
      exact_mod_cast this

/-- A stricter limit never gives more time. -/
theorem visibleFast_mono (alt sun : K → K) (start stop a a' s s' rate : K) (hr : 0 < rate) (ha : a ≤ a') (hs : s' ≤ s) :
    (visibleFast alt sun start stop a' s' rate).1 ≤ (visibleFast alt sun start stop a s rate).1 := by
  simp only [visibleFast]
  apply mul_le_mul_of_nonneg_right _ hr.le
  rw [List.filter_filter, List.filter_filter, ← List.countP_eq_length_filter, ← List.countP_eq_length_filter]
  have : List.countP (fun t => decide (sun t ≤ s') && decide (a' ≤ alt t)) (arange start (stop + rate / 2) rate) ≤
      List.countP (fun t => decide (sun t ≤ s) && decide (a ≤ alt t)) (arange start (stop + rate / 2) rate) := by
    apply List.countP_mono_left
    intro t _ h
    simp only [Bool.and_eq_true, decide_eq_true_eq] at h ⊢
    exact ⟨h.1.trans hs, ha.trans h.2⟩
  exact_mod_cast this

/-- With a whole number of sampling intervals between the dates, a target that is always visible is visible for one interval more than the time there
is. -/
theorem visibleFast_always (alt sun : K → K) (start minAlt sunLimit rate : K) (n : ℕ) (hr : 0 < rate) (h1 : ∀ t, minAlt ≤ alt t) (h2 : ∀ t, sun t ≤ sunLimit) :
    (visibleFast alt sun start (start + (n : K) * rate) minAlt sunLimit rate).1 = ((start + (n : K) * rate) - start) + rate := by
  simp only [visibleFast, arange]
  have hc : ⌈(start + (n : K) * rate + rate / 2 - start) / rate⌉ = (n : ℤ) + 1 := by
    have e : (start + (n : K) * rate + rate / 2 - start) / rate = (n : K) + 1 / 2 := by
      field_simp
      ring
    rw [e, Int.ceil_eq_iff]
    push_cast
    constructor <;> linarith
  rw [hc, List.filter_eq_self.mpr (by simp [h2]), List.filter_eq_self.mpr (by simp [h1])]
  rw [List.length_map, List.length_range]
  have : ((n : ℤ) + 1).toNat = n + 1 := by omega
  rw [this]
  push_cast
  ring

end

theorem visibleFast_total_false :
    ¬ ∀ (alt sun : ℚ → ℚ) (start stop minAlt sunLimit rate : ℚ), 0 < rate → start < stop →
      (visibleFast alt sun start stop minAlt sunLimit rate).1 ≤ stop - start := by
  intro h
  have := h (fun _ => 90) (fun _ => -90) 0 (0 + ((1 : ℕ) : ℚ) * 1) 30 18 1 (by norm_num) (by norm_num)
  rw [visibleFast_always _ _ _ _ _ _ _ (by norm_num) (by norm_num) (by norm_num)] at this
  norm_num at this

example : visibleFast (fun t : ℚ => 20 * t) (fun t => -10 * t + 30) 0 4 20 10 1 = (3, [2, 3, 4]) := by decide +kernel

/-! ## C468: visibility of a field per night -/

section
variable {K : Type*} [Field K] [LinearOrder K] [FloorRing K]

/-- The number of samples of a date at which the sun is low and the target is high. -/
def goodSamples (alt sun : K → K) (minAlt sunLimit rate d : K) : ℕ :=
  ((List.range ⌈1 / rate⌉.toNat).filter (fun i : ℕ => decide (sun (d + (i : K) * rate) < sunLimit) && decide (minAlt ≤ alt (d + (i : K) * rate)))).length

private theorem samples_eq (rate d : K) : (arange 0 1 rate).map (fun i => d + i) = (List.range ⌈1 / rate⌉.toNat).map (fun i : ℕ => d + (i : K) * rate) := by
  unfold arange
  rw [List.map_map]
  simp [Function.comp_def]

private theorem night_ok (alt sun : K → K) (minAlt sunLimit rate d : K)
    (h : ∃ i : ℕ, (i : ℤ) < ⌈1 / rate⌉ ∧ sun (d + (i : K) * rate) < sunLimit) :
    visibleNight alt sun minAlt sunLimit rate d = .ok (rate * (goodSamples alt sun minAlt sunLimit rate d : K)) := by
  unfold visibleNight
  simp only [samples_eq]
  obtain ⟨i, hi, hs⟩ := h
  rw [if_neg]
  · have : ((((List.range ⌈1 / rate⌉.toNat).map (fun i : ℕ => d + (i : K) * rate)).filter (fun t => decide (sun t < sunLimit))).filter
        (fun t => decide (minAlt ≤ alt t))).length = goodSamples alt sun minAlt sunLimit rate d := by
      rw [List.filter_filter, List.filter_map, List.length_map]
      unfold goodSamples
      congr 2
      funext i
      simp only [Function.comp]
      exact Bool.and_comm _ _
    by_cases he : (((List.range ⌈1 / rate⌉.toNat).map (fun i : ℕ => d + (i : K) * rate)).filter (fun t => decide (sun t < sunLimit))).filter
        (fun t => decide (minAlt ≤ alt t)) = []
    · rw [if_pos he]
      rw [he] at this
      rw [← this]
      simp
    · rw [if_neg he, this]
  · apply List.ne_nil_of_mem (a := d + (i : K) * rate)
    rw [List.mem_filter]
    exact ⟨List.mem_map.mpr ⟨i, List.mem_range.mpr (by omega), rfl⟩, by simpa using hs⟩

private theorem night_err (alt sun : K → K) (minAlt sunLimit rate d : K)
    (h : ∀ i : ℕ, (i : ℤ) < ⌈1 / rate⌉ → sunLimit ≤ sun (d + (i : K) * rate)) :
    visibleNight alt sun minAlt sunLimit rate d = .error .value := by
  unfold visibleNight
  simp only [samples_eq]
  rw [if_pos]
  rw [List.filter_eq_nil_iff]
  intro t ht
  obtain ⟨i, hi, e⟩ := List.mem_map.mp ht
  rw [List.mem_range] at hi
  have := h i (by omega)
  rw [e] at this
  simpa using this

private theorem foldl_add (g : K → K) : ∀ (l : List K) (a : K), (l.map g).foldl (· + ·) a = a + (l.map g).sum
  | [], a => by simp
  | x :: l, a => by simp [foldl_add g l, add_assoc]

/-- **C468 (part).** If on every date there is a sample with the sun below the limit: for each date the hours of the samples with the sun low and the
target high, and in total as many days. -/
theorem visible_partial (alt sun : K → K) (start stop minAlt sunLimit rate : K)
    (h : ∀ d ∈ arange start stop 1, ∃ i : ℕ, (i : ℤ) < ⌈1 / rate⌉ ∧ sun (d + (i : K) * rate) < sunLimit) :
    ∃ total hrs, visible alt sun start stop minAlt sunLimit rate = .ok (total, hrs) ∧
      hrs = (arange start stop 1).map (fun d => 24 * rate * (goodSamples alt sun minAlt sunLimit rate d : K)) ∧ hrs.sum = 24 * total := by
  have key : ∀ ds : List K, (∀ d ∈ ds, ∃ i : ℕ, (i : ℤ) < ⌈1 / rate⌉ ∧ sun (d + (i : K) * rate) < sunLimit) →
      visibleNights alt sun minAlt sunLimit rate ds = .ok (ds.map (fun d => rate * (goodSamples alt sun minAlt sunLimit rate d : K))) := by
    intro ds
    induction ds with
    | nil => intro _; rfl
    | cons d ds ih =>
      intro hd
      rw [visibleNights, night_ok alt sun minAlt sunLimit rate d (hd d (by simp)), ih (fun x hx => hd x (by simp [hx]))]
      rfl
  refine ⟨_, _, by rw [visible, key _ h], ?_, ?_⟩
  · rw [List.map_map]
    apply List.map_congr_left
    intro d _
    simp only [Function.comp]
    ring
  · rw [foldl_add, zero_add, List.sum_map_mul_right, mul_comm]
    simp [Function.comp_def]

/-- On a date on which the sun is never below the limit, the largest altitude of no samples is asked for, although it is not used: an error. -/
theorem visible_error (alt sun : K → K) (start stop minAlt sunLimit rate d : K) (hd : d ∈ arange start stop 1)
    (h : ∀ i : ℕ, (i : ℤ) < ⌈1 / rate⌉ → sunLimit ≤ sun (d + (i : K) * rate)) :
    visible alt sun start stop minAlt sunLimit rate = .error .value := by
  have hnight : ∀ x, (∃ v, visibleNight alt sun minAlt sunLimit rate x = .ok v) ∨ visibleNight alt sun minAlt sunLimit rate x = .error .value := by
    intro x
    unfold visibleNight
    simp only
    split
    · exact Or.inr rfl
    · exact Or.inl ⟨_, rfl⟩
  have key : ∀ ds : List K, d ∈ ds → visibleNights alt sun minAlt sunLimit rate ds = .error .value := by
    intro ds
    induction ds with
    | nil => intro hm; simp at hm
    | cons x ds ih =>
      intro hm
      rw [visibleNights]
      rcases List.mem_cons.mp hm with rfl | hm
      · rw [night_err alt sun minAlt sunLimit rate d h]
      · rcases hnight x with ⟨v, e⟩ | e
        · rw [e, ih hm]
        · rw [e]
  rw [visible, key _ hd]

end

/-- So it is not true that every field has a time of visibility: where the sun does not set, the time is not zero but an error. -/
theorem visible_total_false :
    ¬ ∀ (alt sun : ℚ → ℚ) (start stop minAlt sunLimit rate : ℚ), 0 < rate → ∃ r, visible alt sun start stop minAlt sunLimit rate = .ok r := by
  intro h
  obtain ⟨r, hr⟩ := h (fun _ => 50) (fun _ => 0) 0 1 30 (-18) (1 / 2) (by norm_num)
  rw [visible_error _ _ _ _ _ _ _ 0 (by decide +kernel) (fun i _ => by norm_num)] at hr
  simp at hr

example : visible (fun t : ℚ => 40 * t) (fun _ => -30) 0 2 30 (-18) (1 / 4) = .ok (5 / 4, [6, 24]) := by decide +kernel

/-! ## C469: merged magnitudes -/

private theorem foldl_flux (g : ℝ → ℝ) : ∀ (l : List ℝ) (a : ℝ), l.foldl (fun acc m => acc + g m) a = a + (l.map g).sum
  | [], a => by simp
  | x :: l, a => by simp [foldl_flux g l, add_assoc]

private theorem sum_flux (z : ℝ) : ∀ ms : List ℝ, (ms.map (fun m => if m = 0 then 0 else (10 : ℝ) ^ (-0.4 * (m - z)))).sum =
    (10 : ℝ) ^ (0.4 * z) * ((ms.filter (fun m => decide (m ≠ 0))).map (fun m => (10 : ℝ) ^ (-0.4 * m))).sum
  | [] => by simp
  | m :: ms => by
    by_cases h : m = 0
    · simp only [h, List.map_cons, List.sum_cons, if_true, zero_add, sum_flux z ms, ne_eq, not_true_eq_false, decide_false, Bool.false_eq_true,
        not_false_eq_true, List.filter_cons_of_neg]
    · rw [List.filter_cons_of_pos (by simpa using h)]
      simp only [List.map_cons, List.sum_cons, if_neg h, sum_flux z ms, mul_add]
      congr 1
      rw [← Real.rpow_add (by norm_num)]
      congr 1
      ring

private theorem flux_pos (ms : List ℝ) (h : ms ≠ []) : 0 < (ms.map (fun m => (10 : ℝ) ^ (-0.4 * m))).sum := by
  apply List.sum_pos
  · intro x hx
    obtain ⟨m, _, e⟩ := List.mem_map.mp hx
    rw [← e]; positivity
  · simpa using h

/-- **C469.** Whatever the zero point, the merged magnitude is that of the sum of the fluxes of the components that have a magnitude. -/
theorem merged_eq (z : ℝ) (ms : List ℝ) (h : ∃ m ∈ ms, m ≠ 0) :
    merged z ms = -2.5 * Real.logb 10 ((ms.filter (fun m => decide (m ≠ 0))).map (fun m => (10 : ℝ) ^ (-0.4 * m))).sum := by
  have hne : ms.filter (fun m => decide (m ≠ 0)) ≠ [] := by
    obtain ⟨m, hm, h0⟩ := h
    exact List.ne_nil_of_mem (List.mem_filter.mpr ⟨hm, by simpa using h0⟩)
  unfold merged
  rw [foldl_flux, zero_add, sum_flux, Real.logb_mul (by positivity) (flux_pos _ hne).ne', Real.logb_rpow (by norm_num) (by norm_num)]
  ring

/-- It is not fainter than any of them. -/
theorem merged_le (z : ℝ) (ms : List ℝ) (m : ℝ) (hm : m ∈ ms) (h0 : m ≠ 0) : merged z ms ≤ m := by
  rw [merged_eq z ms ⟨m, hm, h0⟩]
  have hmem : m ∈ ms.filter (fun m => decide (m ≠ 0)) := List.mem_filter.mpr ⟨hm, by simpa using h0⟩
  have hle : (10 : ℝ) ^ (-0.4 * m) ≤ ((ms.filter (fun m => decide (m ≠ 0))).map (fun m => (10 : ℝ) ^ (-0.4 * m))).sum := by
    apply List.single_le_sum
    · intro x hx
      obtain ⟨y, _, e⟩ := List.mem_map.mp hx
      rw [← e]; positivity
    · exact List.mem_map.mpr ⟨m, hmem, rfl⟩
  have := Real.logb_le_logb_of_le (by norm_num : (1 : ℝ) < 10) (by positivity) hle
  rw [Real.logb_rpow (by norm_num) (by norm_num)] at this
  linarith

/-- One component alone keeps its magnitude. -/
theorem merged_one (z m : ℝ) (h0 : m ≠ 0) : merged z [0, m, 0] = m := by
  rw [merged_eq z _ ⟨m, by simp, h0⟩]
  rw [List.filter_cons_of_neg (by simp), List.filter_cons_of_pos (by simpa using h0), List.filter_cons_of_neg (by simp), List.filter_nil]
  simp only [List.map_cons, List.map_nil, List.sum_cons, List.sum_nil, add_zero]
  rw [Real.logb_rpow (by norm_num) (by norm_num)]
  ring

/-- Two equal components are brighter by the magnitude of a factor of two. -/
theorem merged_two (z m : ℝ) (h0 : m ≠ 0) : merged z [m, m] = m - 2.5 * Real.logb 10 2 := by
  rw [merged_eq z _ ⟨m, by simp, h0⟩, List.filter_eq_self.mpr (by intro a ha; simp at ha; simpa [ha] using h0)]
  simp only [List.map_cons, List.map_nil, List.sum_cons, List.sum_nil, add_zero]
  rw [← two_mul, Real.logb_mul (by norm_num) (by positivity), Real.logb_rpow (by norm_num) (by norm_num)]
  ring

example : merged 3.56 [0, 21, 0] = 21 := merged_one _ _ (by norm_num)

/-! ## C470: splitting into files -/

section
variable {α : Type*}

private theorem cut_mono (n k i : ℕ) : cut n k i ≤ cut n k (i + 1) := by
  unfold cut
  exact Nat.div_le_div_right (Nat.mul_le_mul_right _ (by omega))

private theorem parts_take (rows : List α) (k : ℕ) : ∀ m, ((List.range m).map (part rows k)).flatten = rows.take (cut rows.length k m)
  | 0 => by simp [cut]
  | m + 1 => by
    rw [List.range_succ, List.map_append, List.flatten_append, parts_take rows k m]
    simp only [List.map_cons, List.map_nil, List.flatten_cons, List.flatten_nil, List.append_nil, part]
    have h := cut_mono rows.length k m
    have : rows.take (cut rows.length k m) = (rows.take (cut rows.length k (m + 1))).take (cut rows.length k m) := by
      rw [List.take_take, min_eq_left h]
    rw [this, List.take_append_drop]

/-- **C470.** The files together hold all rows, in order, -/
theorem parts_flatten (rows : List α) (k : ℕ) (hk : 0 < k) : ((List.range k).map (part rows k)).flatten = rows := by
  rw [parts_take, cut, Nat.mul_div_cancel_left _ hk, List.take_length]

/-- and the numbers of rows differ by at most one. -/
theorem parts_balanced (rows : List α) (k i : ℕ) (hk : 0 < k) (hi : i < k) :
    (part rows k i).length = rows.length / k ∨ (part rows k i).length = rows.length / k + 1 := by
  have h1 : cut rows.length k (i + 1) ≤ rows.length := by
    unfold cut
    calc (i + 1) * rows.length / k ≤ k * rows.length / k := Nat.div_le_div_right (Nat.mul_le_mul_right _ (by omega))
      _ = rows.length := Nat.mul_div_cancel_left _ hk
  have hlen : (part rows k i).length = cut rows.length k (i + 1) - cut rows.length k i := by
    simp only [part, List.length_drop, List.length_take, min_eq_left h1]
  rw [hlen]
  unfold cut
  have e : (i + 1) * rows.length = i * rows.length + rows.length := by ring
  rw [e]
  rw [Nat.add_div hk]
  generalize i * rows.length / k = p
  generalize rows.length / k = q
  split <;> omega

/-- Reading the files back, sorted by their names, gives the rows as they were: five files of the moon, three of the zodiacal light. -/
theorem load_files (rows : List α) : load (files "moonSpectra_" rows 5) = rows ∧ load (files "zodiacalSpectra_" rows 3) = rows := by
  have aux : ∀ stem k, (files stem rows k).Pairwise (fun a b => decide (a.1 ≤ b.1) = true) → 0 < k → load (files stem rows k) = rows := by
    intro stem k hp hk
    unfold load
    rw [List.mergeSort_of_pairwise hp]
    unfold files
    rw [List.map_map]
    exact parts_flatten rows k hk
  have names : ∀ stem k, ((List.range k).map (fun i => stem ++ toString i ++ ".npz")).Pairwise (fun a b => decide (a ≤ b) = true) →
      (files stem rows k).Pairwise (fun a b => decide (a.1 ≤ b.1) = true) := by
    intro stem k h
    unfold files
    rw [List.pairwise_map] at h ⊢
    exact h
  exact ⟨aux _ 5 (names _ 5 (by decide +kernel)) (by norm_num), aux _ 3 (names _ 3 (by decide +kernel)) (by norm_num)⟩

end

/-- With eleven files the order would be lost. -/
theorem load_eleven_false : ¬ ∀ rows : List ℕ, load (files "moonSpectra_" rows 11) = rows := by
  intro h
  have hl := h (List.range 11)
  set F := files "moonSpectra_" (List.range 11) 11 with hF
  set T : List (String × List ℕ) := [0, 1, 10, 2, 3, 4, 5, 6, 7, 8, 9].map (fun i => ("moonSpectra_" ++ toString i ++ ".npz", [i])) with hT
  have hFT : F.Perm T := by decide +kernel
  have htotal : ∀ a b : String × List ℕ, (decide (a.1 ≤ b.1) || decide (b.1 ≤ a.1)) = true := by
    intro a b
    simpa using String.le_total a.1 b.1
  have htrans : ∀ a b c : String × List ℕ, decide (a.1 ≤ b.1) = true → decide (b.1 ≤ c.1) = true → decide (a.1 ≤ c.1) = true := by
    intro a b c h1 h2
    simp only [decide_eq_true_eq] at *
    exact String.le_trans h1 h2
  have hs := List.pairwise_mergeSort htrans htotal F
  have hTs : T.Pairwise (fun a b => decide (a.1 ≤ b.1) = true) := by decide +kernel
  have huniq : ∀ a ∈ T, ∀ b ∈ T, a.1 = b.1 → a = b := by decide +kernel
  have e : F.mergeSort (fun a b => decide (a.1 ≤ b.1)) = T := by
    have hp : (F.mergeSort (fun a b => decide (a.1 ≤ b.1))).Perm T := (List.mergeSort_perm F _).trans hFT
    refine hp.eq_of_pairwise ?_ hs hTs
    intro a b ha hb h1 h2
    simp only [decide_eq_true_eq] at h1 h2
    exact huniq a (hp.mem_iff.mp ha) b hb (String.le_antisymm h1 h2)
  rw [load, e] at hl
  revert hl
  decide +kernel

example : part [10, 11, 12, 13, 14, 15, 16] 3 1 = [12, 13] := by decide

/-! ## C471: the index of a template -/

section
variable {K : Type*} [LinearOrder K]

private theorem flatMap_get {α β γ : Type*} (f : α → β → γ) (ys : List β) : ∀ (xs : List α) (i j : ℕ) (x : α) (y : β), xs[i]? = some x → ys[j]? = some y →
    (xs.flatMap (fun a => ys.map (f a)))[i * ys.length + j]? = some (f x y)
  | [], i, j, x, y, hx, _ => by simp at hx
  | a :: xs, 0, j, x, y, hx, hy => by
    have hj : j < ys.length := (List.getElem?_eq_some_iff.mp hy).1
    simp only [List.getElem?_cons_zero, Option.some.injEq] at hx
    subst hx
    rw [List.flatMap_cons, Nat.zero_mul, Nat.zero_add, List.getElem?_append_left (by simpa using hj), List.getElem?_map, hy]
    rfl
  | a :: xs, i + 1, j, x, y, hx, hy => by
    rw [List.flatMap_cons, List.getElem?_append_right (by rw [List.length_map]; nlinarith)]
    rw [show (i + 1) * ys.length + j - (ys.map (f a)).length = i * ys.length + j by rw [List.length_map, Nat.succ_mul]; omega]
    exact flatMap_get f ys xs i j x y (by simpa using hx) hy

/-- **C471.** In the sorted table of the zodiacal light, the template of airmass `i` and pixel `j` is where the reader looks for it. -/
theorem zodi_index (ams : List K) (nhp : ℕ) (hams : ams.Pairwise (· < ·)) (S : List (K × ℕ)) (hp : S.Perm (zodiRows ams nhp))
    (hs : S.Pairwise (fun x y => ¬ lt2 y x)) (i j : ℕ) (a : K) (ha : ams[i]? = some a) (hj : j < nhp) :
    S[i * nhp + j]? = some (a, j) := by
  set T := ams.flatMap (fun a => (List.range nhp).map (fun h => (a, h))) with hT
  have hTp : T.Perm (zodiRows ams nhp) := by
    rw [List.perm_ext_iff_of_nodup]
    · intro x
      simp only [hT, zodiRows, List.mem_flatMap, List.mem_map]
      constructor
      · rintro ⟨a, ha, h, hh, e⟩; exact ⟨h, hh, a, ha, e⟩
      · rintro ⟨h, hh, a, ha, e⟩; exact ⟨a, ha, h, hh, e⟩
    · rw [hT, List.nodup_flatMap]
      refine ⟨fun a _ => List.nodup_range.map (fun x y h => (Prod.mk.inj h).2), (hams.imp ?_)⟩
      intro a b hab x hx hy
      obtain ⟨h, _, rfl⟩ := List.mem_map.mp hx
      obtain ⟨k, _, e⟩ := List.mem_map.mp hy
      exact hab.ne' (Prod.mk.inj e).1
    · rw [zodiRows, List.nodup_flatMap]
      refine ⟨fun h _ => (hams.imp (fun hab => hab.ne)).map _ (fun x y h => by simpa using h), (List.pairwise_lt_range.imp ?_)⟩
      intro h k hk x hx hy
      obtain ⟨a, _, rfl⟩ := List.mem_map.mp hx
      obtain ⟨b, _, e⟩ := List.mem_map.mp hy
      exact hk.ne' (Prod.mk.inj e).2
  have hTs : T.Pairwise (fun x y => ¬ lt2 y x) := by
    rw [hT, List.pairwise_flatMap]
    refine ⟨?_, ?_⟩
    · intro a _
      rw [List.pairwise_map]
      refine List.pairwise_lt_range.imp ?_
      rintro h k hk (h1 | ⟨_, h2⟩)
      · exact lt_irrefl _ h1
      · omega
    · refine hams.imp ?_
      intro a b hab x hx y hy
      obtain ⟨h, _, rfl⟩ := List.mem_map.mp hx
      obtain ⟨k, _, rfl⟩ := List.mem_map.mp hy
      rintro (h1 | ⟨h1, _⟩)
      · exact lt_asymm hab h1
      · exact absurd h1 hab.ne'
  have e : S = T := by
    refine (hp.trans hTp.symm).eq_of_pairwise ?_ hs hTs
    rintro ⟨a, h⟩ ⟨b, k⟩ _ _ h1 h2
    simp only [lt2, not_or, not_and, not_lt] at h1 h2
    have hab : a = b := le_antisymm h1.1 h2.1
    subst hab
    have : h = k := le_antisymm (h1.2 rfl) (h2.2 rfl)
    rw [this]
  rw [e, hT]
  have := flatMap_get (fun (a : K) (h : ℕ) => (a, h)) (List.range nhp) ams i j a j ha (by simp [hj])
  simpa using this

/-- The same for the moon: separation `i`, altitude `j` and pixel number `k` of those that are used. -/
theorem moon_index (seps alts : List K) (hps : List ℕ) (h1 : seps.Pairwise (· < ·)) (h2 : alts.Pairwise (· < ·)) (h3 : hps.Pairwise (· < ·))
    (S : List (K × K × ℕ)) (hp : S.Perm (moonRows seps alts hps)) (hs : S.Pairwise (fun x y => ¬ lt3 y x)) (i j k : ℕ) (s a : K) (h : ℕ)
    (hi : seps[i]? = some s) (hj : alts[j]? = some a) (hk : hps[k]? = some h) :
    S[i * hps.length * alts.length + j * hps.length + k]? = some (s, a, h) := by
  set T := moonRows seps alts hps with hT
  have hTs : T.Pairwise (fun x y => ¬ lt3 y x) := by
    rw [hT, moonRows, List.pairwise_flatMap]
    refine ⟨?_, ?_⟩
    · intro s _
      rw [List.pairwise_flatMap]
      refine ⟨?_, ?_⟩
      · intro a _
        rw [List.pairwise_map]
        refine h3.imp ?_
        rintro h k hk (h1 | ⟨_, h1 | ⟨_, h1⟩⟩)
        · exact lt_irrefl _ h1
        · exact lt_irrefl _ h1
        · exact absurd h1 (by simpa using hk.le)
      · refine h2.imp ?_
        intro a b hab x hx y hy
        obtain ⟨h, _, rfl⟩ := List.mem_map.mp hx
        obtain ⟨k, _, rfl⟩ := List.mem_map.mp hy
        rintro (h1 | ⟨_, h1 | ⟨h1, _⟩⟩)
        · exact lt_irrefl _ h1
        · exact lt_asymm hab h1
        · exact absurd h1 hab.ne'
    · refine h1.imp ?_
      intro s t hst x hx y hy
      obtain ⟨a, _, hx⟩ := List.mem_flatMap.mp hx
      obtain ⟨b, _, hy⟩ := List.mem_flatMap.mp hy
      obtain ⟨h, _, rfl⟩ := List.mem_map.mp hx
      obtain ⟨k, _, rfl⟩ := List.mem_map.mp hy
      rintro (h1 | ⟨h1, _⟩)
      · exact lt_asymm hst h1
      · exact absurd h1 hst.ne'
  have e : S = T := by
    refine hp.eq_of_pairwise ?_ hs hTs
    rintro ⟨s, a, h⟩ ⟨t, b, k⟩ _ _ h1 h2
    simp only [lt3, not_or, not_and, not_lt] at h1 h2
    have hst : s = t := le_antisymm h1.1 h2.1
    subst hst
    have h1' := h1.2 rfl
    have h2' := h2.2 rfl
    have hab : a = b := le_antisymm h1'.1 h2'.1
    subst hab
    have : h = k := le_antisymm (h1'.2 rfl) (h2'.2 rfl)
    rw [this]
  have inner : (alts.flatMap (fun a => hps.map (fun h => (a, h))))[j * hps.length + k]? = some (a, h) :=
    flatMap_get (fun (a : K) (h : ℕ) => (a, h)) hps alts j k a h hj hk
  have hT2 : T = seps.flatMap (fun s => (alts.flatMap (fun a => hps.map (fun h => (a, h)))).map (fun p => (s, p))) := by
    rw [hT, moonRows]
    congr 1
    funext s
    rw [List.map_flatMap]
    congr 1
    funext a
    rw [List.map_map]
    rfl
  have hlen : (alts.flatMap (fun a => hps.map (fun h => (a, h)))).length = alts.length * hps.length := by
    simp [List.length_flatMap]
  rw [e, hT2, show i * hps.length * alts.length + j * hps.length + k = i * (alts.flatMap (fun a => hps.map (fun h => (a, h)))).length + (j * hps.length + k) by
    rw [hlen]; ring]
  exact flatMap_get (fun (s : K) (p : K × ℕ) => (s, p)) _ seps i (j * hps.length + k) s (a, h) hi inner

end

example : zodiRows [(1 : ℤ), 2] 2 = [(1, 0), (2, 0), (1, 1), (2, 1)] := by decide

/-! ## C472: the templates that are written and read -/

/-- **C472 (stated as it is).** A regenerated table of the airglow cannot be read; those of all other components can. -/
theorem templates_read (comp : String) (f w : List String) (hf : written comp = some f) (hw : wanted comp = some w) :
    readDims f w = if comp = "Airglow" then .error .value else .ok () := by
  unfold written at hf
  unfold wanted at hw
  by_cases h1 : comp = "Airglow"
  · rw [if_pos h1] at hf hw ⊢
    cases hf; cases hw
    decide
  · rw [if_neg h1] at hf hw ⊢
    split_ifs at hf hw
    all_goals (cases hf; cases hw; decide)

/-- The zodiacal light at an ecliptic latitude is the one that was made for the opposite latitude. -/
theorem zodi_latitude {K : Type*} [Field K] (lat : K) : zodiLat (zodiTheta lat) = -lat := by
  unfold zodiLat zodiTheta
  ring

theorem zodi_latitude_false : ¬ ∀ lat : ℚ, zodiLat (zodiTheta lat) = lat := by
  intro h
  have := h 30
  norm_num [zodiLat, zodiTheta] at this

example : written "Zodiacal" = some ["airmass", "hpid", "spectra", "mags"] := by decide

/-! ## C473: measurements of the sky -/

/-- **C473 (part).** The rows are the pairs of an observation in the filter and on the date with that identifier, and its star. -/
theorem allSky_rows (stars : List SkyStar) (obs : List SkyObs) (dates : List (ℤ × ℚ)) (n : ℤ) (filt : String) (s : SkyStar) (o : SkyObs) :
    (s, o) ∈ (allSky stars obs dates n filt).1 ↔ s ∈ stars ∧ o ∈ obs ∧ o.starId = s.id ∧ o.filter = filt ∧ o.dateId = n := by
  have ht : trunc (n : ℚ) = n := by unfold trunc; split <;> simp
  unfold allSky
  simp only [List.mem_flatMap, List.mem_map, List.mem_filter, Bool.and_eq_true, decide_eq_true_eq, Prod.mk.injEq, ht]
  constructor
  · rintro ⟨o', ho, s', ⟨hs, ⟨h1, h2⟩, h3⟩, rfl, rfl⟩
    exact ⟨hs, ho, h1, h2, h3⟩
  · rintro ⟨hs, ho, h1, h2, h3⟩
    exact ⟨o, ho, s, ⟨hs, ⟨h1, h2⟩, h3⟩, rfl, rfl⟩

/-- The time is that of the date with the identifier, and nothing if there is none. -/
theorem allSky_mjd (stars : List SkyStar) (obs : List SkyObs) (dates : List (ℤ × ℚ)) (n : ℤ) (filt : String) (hd : (dates.map Prod.fst).Nodup) :
    (∀ t, (allSky stars obs dates n filt).2 = some t ↔ (n, t) ∈ dates) ∧
      ((allSky stars obs dates n filt).2 = none ↔ n ∉ dates.map Prod.fst) := by
  have ht : trunc (n : ℚ) = n := by unfold trunc; split <;> simp
  unfold allSky
  simp only [ht]
  have key : ∀ l : List (ℤ × ℚ), (l.map Prod.fst).Nodup →
      (∀ t, ((l.filter (fun d => decide (d.1 = n))).head?).map Prod.snd = some t ↔ (n, t) ∈ l) ∧
      (((l.filter (fun d => decide (d.1 = n))).head?).map Prod.snd = none ↔ n ∉ l.map Prod.fst) := by
    intro l hl
    induction l with
    | nil => simp
    | cons p l ih =>
      obtain ⟨m, u⟩ := p
      rw [List.map_cons, List.nodup_cons] at hl
      by_cases hm : m = n
      · subst hm
        have hno : ∀ t, (m, t) ∉ l := fun t ht => hl.1 (List.mem_map.mpr ⟨_, ht, rfl⟩)
        constructor
        · intro t
          simp [hno, eq_comm]
        · simp
      · obtain ⟨i1, i2⟩ := ih hl.2
        have hm' : ¬ n = m := fun h => hm h.symm
        rw [List.filter_cons_of_neg (by simpa using hm)]
        constructor
        · intro t
          rw [i1 t]
          simp [hm']
        · rw [i2]
          simp [hm']
  exact key dates hd

/-- The argument is documented as a date: the date of an observation does not find it. -/
theorem allSky_date_false :
    ¬ ∀ (stars : List SkyStar) (obs : List SkyObs) (dates : List (ℤ × ℚ)) (n : ℤ) (mjd : ℚ) (filt : String), (n, mjd) ∈ dates →
      (allSky stars obs dates mjd filt).2 = some mjd := by
  intro h
  have := h [] [] [(1, 55000)] 1 55000 "R" (by simp)
  revert this
  decide +kernel

/-- The measurements less than a day from the time, if they are wanted clean those that are all positive. -/
theorem diode_rows (env : Option String) (a : String) (table : String → List Diode) (mid : ℚ) (clean : Bool) :
    ∃ data, diode env (some a) table mid clean = .ok data ∧ data.Sublist (table a) ∧
      ∀ d, d ∈ data ↔ d ∈ table a ∧ |d.mjd - mid| < 1 ∧ (clean = true → 0 < d.r ∧ 0 < d.y ∧ 0 < d.z) := by
  cases clean with
  | false =>
    refine ⟨_, rfl, List.filter_sublist, ?_⟩
    intro d
    rw [if_neg (by simp), List.mem_filter, abs_lt]
    simp only [Bool.and_eq_true, decide_eq_true_eq, Bool.false_eq_true, false_imp_iff, and_true]
    constructor
    · rintro ⟨h, h1, h2⟩; exact ⟨h, by linarith, by linarith⟩
    · rintro ⟨h, h1, h2⟩; exact ⟨h, by linarith, by linarith⟩
  | true =>
    refine ⟨_, rfl, (List.filter_sublist).trans List.filter_sublist, ?_⟩
    intro d
    rw [if_pos rfl, List.mem_filter, List.mem_filter, abs_lt]
    simp only [Bool.and_eq_true, decide_eq_true_eq, true_imp_iff]
    constructor
    · rintro ⟨⟨h, h1, h2⟩, ⟨h3, h4⟩, h5⟩; exact ⟨h, ⟨by linarith, by linarith⟩, h3, h5, h4⟩
    · rintro ⟨h, ⟨h1, h2⟩, h3, h4, h5⟩; exact ⟨⟨h, by linarith, by linarith⟩, ⟨h3, h5⟩, h4⟩

/-- Without an address and without a variable of an older package in the environment it is an error. -/
theorem diode_default (table : String → List Diode) (mid : ℚ) (clean : Bool) : diode none none table mid clean = .error .type := rfl

example : diode none (some "a") (fun _ => [⟨10, 1, 1, 1⟩, ⟨10, 0, 1, 1⟩, ⟨12, 1, 1, 1⟩]) (21 / 2) true = .ok [⟨10, 1, 1, 1⟩] := by decide +kernel

/-! ## C474: images with corners -/

/-- **C474.** If the radius is at least the distance of any point of an image from its first corner, the images at a point are exactly those that
contain it, each once. -/
theorem images_spec {K : Type*} [LinearOrder K] (n : ℕ) (dist : ℕ → K) (radius : K) (near : List ℕ) (inside : ℕ → Bool)
    (hn : near.Nodup) (hm : ∀ i, i ∈ near ↔ i < n ∧ dist i ≤ radius) (hr : ∀ i < n, inside i = true → dist i ≤ radius) :
    (imagesAt near inside).Nodup ∧ ∀ i, i ∈ imagesAt near inside ↔ i < n ∧ inside i = true := by
  have key : ∀ (l acc : List ℕ), l.foldl (fun acc i => if inside i then acc ++ [i] else acc) acc = acc ++ l.filter inside := by
    intro l
    induction l with
    | nil => simp
    | cons x l ih =>
      intro acc
      rw [List.foldl_cons, ih]
      by_cases hx : inside x = true
      · simp [hx]
      · simp [hx]
  unfold imagesAt
  rw [key, List.nil_append]
  refine ⟨hn.filter _, ?_⟩
  intro i
  rw [List.mem_filter, hm]
  constructor
  · rintro ⟨⟨h, _⟩, h2⟩; exact ⟨h, h2⟩
  · rintro ⟨h, h2⟩; exact ⟨⟨h, hr i h h2⟩, h2⟩

/-- With a smaller radius images are missed, but none is wrong. -/
theorem images_sound (near : List ℕ) (inside : ℕ → Bool) (i : ℕ) (h : i ∈ imagesAt near inside) : i ∈ near ∧ inside i = true := by
  have key : ∀ (l acc : List ℕ), l.foldl (fun acc i => if inside i then acc ++ [i] else acc) acc = acc ++ l.filter inside := by
    intro l
    induction l with
    | nil => simp
    | cons x l ih =>
      intro acc
      rw [List.foldl_cons, ih]
      by_cases hx : inside x = true
      · simp [hx]
      · simp [hx]
  unfold imagesAt at h
  rw [key, List.nil_append, List.mem_filter] at h
  exact h

example : imagesAt [4, 2, 7] (fun i => decide (i < 5)) = [4, 2] := by decide

end Verif.Eso
