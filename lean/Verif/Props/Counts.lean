import Mathlib.Tactic.Linarith
import Mathlib.Tactic.Ring
import Mathlib.Tactic.FieldSimp
import Mathlib.Tactic.Push
import Mathlib.Tactic.Positivity
import Mathlib.Algebra.Order.BigOperators.Group.List
import Mathlib.Data.Rat.Floor
import Verif.Model.SimpleMetrics

/-! # C42, C70: counting metrics -/

namespace Verif.Metrics

variable {K : Type*} [Field K] [LinearOrder K]

section Explim
variable [FloorRing K] [IsStrictOrderedRing K]

theorem roundHE_nearest (x : K) : |x - roundHE x| ≤ 1 / 2 := by
  have h1 := Int.floor_le x
  have h2 := Int.lt_floor_add_one x
  unfold roundHE
  rw [abs_le]
  split
  · constructor <;> linarith
  · split
    · push_cast; constructor <;> linarith
    · split
      · constructor <;> linarith
      · push_cast; constructor <;> linarith

theorem roundHE_eq {x : K} (n : ℤ) (h1 : (n : K) - 1 / 2 < x) (h2 : x < n + 1 / 2) : roundHE x = n := by
  have h := abs_le.mp (roundHE_nearest x)
  have h3 : ((roundHE x - n : ℤ) : K) < ((1 : ℤ) : K) := by push_cast; linarith
  have h4 : ((-1 : ℤ) : K) < ((roundHE x - n : ℤ) : K) := by push_cast; linarith
  have h3 := Int.cast_lt.mp h3
  have h4 := Int.cast_lt.mp h4
  omega

theorem roundHE_zero : roundHE (0 : K) = 0 := roundHE_eq 0 (by norm_num) (by norm_num)

theorem explim_cons (minExp expected e : K) (l : List K) :
    countExplim minExp expected (e :: l) = (if e < minExp then 0 else roundHE (e / expected)) + countExplim minExp expected l := by
  unfold countExplim
  simp only [List.map_cons, List.sum_cons]
  split
  · rw [roundHE_zero]
  · rfl

/-- **C42.** CountExplim differs from the exposure time of the accepted visits, in units of
the expected exposure, by at most half a visit per accepted visit. -/
theorem count_explim_time (minExp expected : K) (exps : List K) :
    |(countExplim minExp expected exps : K) - ((exps.filter (fun e => decide (minExp ≤ e))).map (· / expected)).sum| ≤
      ((exps.countP (fun e => decide (minExp ≤ e)) : ℕ) : K) / 2 := by
  induction exps with
  | nil => simp [countExplim]
  | cons e l ih =>
    rw [explim_cons]
    by_cases h : e < minExp
    · rw [if_pos h, List.filter_cons_of_neg (by simpa using h), List.countP_cons_of_neg (by simpa using h), zero_add]
      exact ih
    · have h' : minExp ≤ e := not_lt.mp h
      rw [if_neg h, List.filter_cons_of_pos (by simpa using h'), List.countP_cons_of_pos (by simpa using h'), List.map_cons, List.sum_cons]
      have hr := abs_le.mp (roundHE_nearest (e / expected))
      have hi := abs_le.mp ih
      rw [abs_le]
      push_cast
      constructor <;> linarith [hr.1, hr.2, hi.1, hi.2]

/-- **C42**, partial: CountExplim is the number of visits of at least `min_exp` if that is
more than half the expected exposure and no visit is as long as one and a half. -/
theorem count_explim_partial (minExp expected : K) (exps : List K) (he : 0 < expected) (hm : expected / 2 < minExp)
    (hl : ∀ e ∈ exps, e < 3 / 2 * expected) :
    countExplim minExp expected exps = (exps.countP (fun e => decide (minExp ≤ e)) : ℕ) := by
  induction exps with
  | nil => simp [countExplim]
  | cons e l ih =>
    rw [explim_cons, ih (fun x hx => hl x (List.mem_cons_of_mem _ hx))]
    by_cases h : e < minExp
    · rw [if_pos h, List.countP_cons_of_neg (by simpa using h), zero_add]
    · have h' : minExp ≤ e := not_lt.mp h
      have hlt := hl e List.mem_cons_self
      rw [if_neg h, List.countP_cons_of_pos (by simpa using h')]
      rw [roundHE_eq 1 (by rw [lt_div_iff₀ he]; push_cast; linarith) (by rw [div_lt_iff₀ he]; push_cast; linarith)]
      push_cast
      ring

/-- **C42.** Visits that are accepted but shorter than half the expected exposure count as
nothing, however many there are. -/
theorem count_explim_short (minExp expected : K) (exps : List K) (he : 0 < expected)
    (hl : ∀ e ∈ exps, minExp ≤ e ∧ 0 ≤ e ∧ e < expected / 2) : countExplim minExp expected exps = 0 := by
  induction exps with
  | nil => simp [countExplim]
  | cons e l ih =>
    obtain ⟨h1, h2, h3⟩ := hl e List.mem_cons_self
    rw [explim_cons, ih (fun x hx => hl x (List.mem_cons_of_mem _ hx)), if_neg (not_lt.mpr h1),
      roundHE_eq 0 (by rw [lt_div_iff₀ he]; push_cast; linarith) (by rw [div_lt_iff₀ he]; push_cast; linarith)]
    rfl

/-- Full statement: every visit of at least `min_exp` counts at least once. -/
def ExplimCounts : Prop :=
  ∀ (minExp expected : ℚ) (exps : List ℚ), 0 < minExp → minExp ≤ expected →
    ((exps.countP (fun e => decide (minExp ≤ e)) : ℕ) : ℤ) ≤ countExplim minExp expected exps

theorem explim_counts_false : ¬ ExplimCounts := by
  intro h
  have := h 10 30 [12] (by norm_num) (by norm_num)
  revert this
  decide +kernel

example : countExplim (20 : ℚ) 30 [29, 31, 60, 15, 30] = 5 ∧ countExplim (10 : ℚ) 30 [12, 14, 11] = 0 := by decide +kernel

end Explim

section Frac
variable [IsStrictOrderedRing K]

/-- **C42.** The fractions are those of the counts, in [0, scale]; they are refused exactly
for empty data. -/
theorem frac_bounds (cutoff scale : K) (data : List K) (hs : 0 ≤ scale) :
    (data = [] → fracAbove cutoff scale data = none ∧ fracBelow cutoff scale data = none) ∧
    (data ≠ [] → ∃ a b, fracAbove cutoff scale data = some a ∧ fracBelow cutoff scale data = some b ∧
      0 ≤ a ∧ a ≤ scale ∧ 0 ≤ b ∧ b ≤ scale ∧
      (a = scale ↔ scale = 0 ∨ ∀ x ∈ data, cutoff ≤ x) ∧ (b = scale ↔ scale = 0 ∨ ∀ x ∈ data, x ≤ cutoff)) := by
  constructor
  · rintro rfl
    exact ⟨rfl, rfl⟩
  · intro hne
    have hpos : 0 < data.length := List.length_pos_iff.mpr hne
    have hn : (0 : K) < (data.length : K) := by exact_mod_cast hpos
    have key : ∀ p : K → Bool, 0 ≤ (data.countP p : K) / (data.length : K) * scale ∧ (data.countP p : K) / (data.length : K) * scale ≤ scale ∧
        ((data.countP p : K) / (data.length : K) * scale = scale ↔ scale = 0 ∨ ∀ x ∈ data, p x = true) := by
      intro p
      have hle : (data.countP p : K) ≤ (data.length : K) := by exact_mod_cast List.countP_le_length
      have hd : (data.countP p : K) / (data.length : K) ≤ 1 := by rw [div_le_one hn]; exact hle
      refine ⟨by positivity, by nlinarith, ?_⟩
      constructor
      · intro h
        by_cases h0 : scale = 0
        · exact Or.inl h0
        · right
          have : (data.countP p : K) / (data.length : K) = 1 := by
            have := mul_right_cancel₀ h0 (h.trans (one_mul scale).symm)
            exact this
          rw [div_eq_one_iff_eq hn.ne'] at this
          exact List.countP_eq_length.mp (by exact_mod_cast this)
      · rintro (h | h)
        · simp [h]
        · rw [List.countP_eq_length.mpr h, div_self hn.ne', one_mul]
    obtain ⟨h1, h2, h3⟩ := key (fun x => decide (cutoff ≤ x))
    obtain ⟨h4, h5, h6⟩ := key (fun x => decide (x ≤ cutoff))
    refine ⟨_, _, by unfold fracAbove; rw [if_neg hpos.ne'], by unfold fracBelow; rw [if_neg hpos.ne'], h1, h2, h4, h5, ?_, ?_⟩
    · simpa using h3
    · simpa using h6

omit [Field K] [IsStrictOrderedRing K] in
theorem countP_le_ge (cutoff : K) (data : List K) :
    data.countP (fun x => decide (cutoff ≤ x)) + data.countP (fun x => decide (x ≤ cutoff)) = data.length + data.count cutoff := by
  induction data with
  | nil => rfl
  | cons x l ih =>
    simp only [List.countP_cons, List.count_cons, List.length_cons, beq_iff_eq, decide_eq_true_eq]
    rcases lt_trichotomy x cutoff with h | h | h
    · rw [if_neg (not_le.mpr h), if_pos h.le, if_neg h.ne]; omega
    · subst h; rw [if_pos (le_refl _), if_pos rfl]; omega
    · rw [if_pos h.le, if_neg (not_le.mpr h), if_neg h.ne']; omega

/-- **C42.** Values equal to the cutoff are in both fractions, and nothing else is. -/
theorem frac_sum (cutoff : K) (data : List K) (hne : data ≠ []) :
    ∃ a b, fracAbove cutoff 1 data = some a ∧ fracBelow cutoff 1 data = some b ∧
      a + b = 1 + (data.count cutoff : K) / (data.length : K) := by
  have hpos : 0 < data.length := List.length_pos_iff.mpr hne
  have hn : (0 : K) < (data.length : K) := by exact_mod_cast hpos
  refine ⟨_, _, by unfold fracAbove; rw [if_neg hpos.ne'], by unfold fracBelow; rw [if_neg hpos.ne'], ?_⟩
  have h : (data.countP (fun x => decide (cutoff ≤ x)) : K) + (data.countP (fun x => decide (x ≤ cutoff)) : K) =
      (data.length : K) + (data.count cutoff : K) := by exact_mod_cast countP_le_ge cutoff data
  rw [mul_one, mul_one, ← add_div, h, add_div, div_self hn.ne']

/-- MaxPercent is in (0, 100], and 100 exactly if all values are equal. -/
theorem max_percent_spec (data : List K) (hne : data ≠ []) :
    ∃ p, maxPercent data = some p ∧ 0 < p ∧ p ≤ 100 ∧ (p = 100 ↔ ∀ x ∈ data, ∀ y ∈ data, x = y) := by
  have hpos : 0 < data.length := List.length_pos_iff.mpr hne
  have hn : (0 : K) < (data.length : K) := by exact_mod_cast hpos
  obtain ⟨m, hm⟩ : ∃ m, data.max? = some m := by
    cases h : data.max? with
    | none => rw [List.max?_eq_none_iff] at h; exact absurd h hne
    | some m => exact ⟨m, rfl⟩
  have hm' := (List.max?_eq_some_iff.mp hm).1
  refine ⟨_, by unfold maxPercent; rw [hm], ?_, ?_, ?_⟩
  · have : 0 < data.countP (fun x => decide (x = m)) := List.countP_pos_iff.mpr ⟨m, hm', by simp⟩
    have : (0 : K) < (data.countP (fun x => decide (x = m)) : K) := by exact_mod_cast this
    positivity
  · have hle : (data.countP (fun x => decide (x = m)) : K) ≤ (data.length : K) := by exact_mod_cast List.countP_le_length
    have hd : (data.countP (fun x => decide (x = m)) : K) / (data.length : K) ≤ 1 := by rw [div_le_one hn]; exact hle
    linarith
  · constructor
    · intro h
      have h1 : (data.countP (fun x => decide (x = m)) : K) / (data.length : K) = 1 := by
        have : (100 : K) ≠ 0 := by norm_num
        exact mul_right_cancel₀ this (h.trans (one_mul _).symm)
      rw [div_eq_one_iff_eq hn.ne'] at h1
      have h2 := List.countP_eq_length.mp (by exact_mod_cast h1 : data.countP (fun x => decide (x = m)) = data.length)
      intro x hx y hy
      have := h2 x hx
      have := h2 y hy
      simp_all
    · intro h
      rw [List.countP_eq_length.mpr (fun x hx => by simpa using h x hx m hm'), div_self hn.ne', one_mul]

end Frac

/-! ## CountBeyondThreshold -/

omit [Field K] in
/-- **C42**, partial: with at most one threshold, or a single visit, the strict count. -/
theorem count_beyond_partial (emptyOk : Bool) (l u : K) (data : List K) :
    countBeyond emptyOk (none : Option K) none data = some data.length ∧
    countBeyond emptyOk (some l) none data = some (data.countP (fun x => decide (l < x))) ∧
    countBeyond emptyOk none (some u) data = some (data.countP (fun x => decide (x < u))) ∧
    (data.length = 1 → countBeyond emptyOk (some l) (some u) data = some (data.countP (fun x => decide (l < x ∧ x < u)))) := by
  refine ⟨rfl, rfl, rfl, ?_⟩
  intro h
  obtain ⟨x, rfl⟩ := List.length_eq_one_iff.mp h
  unfold countBeyond
  by_cases h1 : l < x <;> by_cases h2 : x < u <;> simp [truth, h1, h2]

omit [Field K] in
/-- **C42**, refutation: with both thresholds and more than one visit the metric always
fails. -/
theorem count_beyond_two_fails (emptyOk : Bool) (l u : K) (data : List K) (h : 1 < data.length) :
    countBeyond emptyOk (some l) (some u) data = none := by
  match data, h with
  | x :: y :: r, _ => rfl

/-- Full statement for two thresholds. -/
def BeyondCounts : Prop :=
  ∀ (l u : ℚ) (data : List ℚ), countBeyond true (some l) (some u) data = some (data.countP (fun x => decide (l < x ∧ x < u)))

theorem beyond_counts_false : ¬ BeyondCounts := by
  intro h
  have := h 0 10 [1, 2]
  rw [count_beyond_two_fails _ _ _ _ (by decide)] at this
  cases this

example : countBeyond false (some (2 : ℚ)) none [1, 2, 3, 4] = some 2 ∧ fracAbove (2 : ℚ) 1 [1, 2, 3, 4] = some (3 / 4) := by
  decide +kernel

/-! ## C70: outliers -/

section Outliers
variable [IsStrictOrderedRing K]

theorem sum_sq_ge (mu b : K) (hb : 0 ≤ b) (p : K → Bool) (data : List K) (hp : ∀ x ∈ data, p x = true → b ≤ |x - mu|) :
    (data.countP p : K) * b ^ 2 ≤ (data.map (fun x => (x - mu) ^ 2)).sum := by
  induction data with
  | nil => simp
  | cons x l ih =>
    have ih := ih (fun y hy => hp y (List.mem_cons_of_mem _ hy))
    rw [List.map_cons, List.sum_cons]
    by_cases h : p x = true
    · rw [List.countP_cons_of_pos h]
      have h1 := hp x List.mem_cons_self h
      have h2 : b ^ 2 ≤ (x - mu) ^ 2 := by rw [← sq_abs (x - mu)]; exact pow_le_pow_left₀ hb h1 2
      push_cast
      linarith
    · rw [List.countP_cons_of_neg h]
      have := sq_nonneg (x - mu)
      linarith

/-- **C70.** At most N/n² of N visits are reported as more than n standard deviations from
the mean, on either side. -/
theorem noutliers_chebyshev (n sd : K) (data : List K) (hne : data ≠ []) (hsd : 0 ≤ sd) (hv : sd ^ 2 = variance data) :
    (noutliers n (mean data) sd data : K) * n ^ 2 ≤ (data.length : K) := by
  have hpos : 0 < data.length := List.length_pos_iff.mpr hne
  have hn : (0 : K) < (data.length : K) := by exact_mod_cast hpos
  have hsum : (data.map (fun x => (x - mean data) ^ 2)).sum = sd ^ 2 * (data.length : K) := by
    rw [hv]
    unfold variance
    generalize mean data = m
    unfold mean
    rw [List.length_map]
    field_simp
  set p : K → Bool := if 0 ≤ n then (fun x => decide (mean data + n * sd < x)) else (fun x => decide (x < mean data + n * sd)) with hp
  have hout : noutliers n (mean data) sd data = data.countP p := by
    unfold noutliers
    by_cases h0 : 0 ≤ n <;> simp [hp, h0]
  have hdist : ∀ x ∈ data, p x = true → |n| * sd < |x - mean data| := by
    intro x hx hpx
    by_cases h0 : 0 ≤ n
    · simp only [hp, if_pos h0, decide_eq_true_eq] at hpx
      rw [abs_of_nonneg h0]
      exact lt_of_lt_of_le (by linarith) (le_abs_self _)
    · have h0' : n < 0 := not_le.mp h0
      simp only [hp, if_neg h0, decide_eq_true_eq] at hpx
      rw [abs_of_neg h0']
      exact lt_of_lt_of_le (by linarith) (neg_le_abs _)
  rw [hout]
  have hmain := sum_sq_ge (mean data) (|n| * sd) (by positivity) p data (fun x hx h => (hdist x hx h).le)
  rw [hsum, mul_pow, sq_abs] at hmain
  rcases hsd.lt_or_eq with hlt | h0
  · have h2 : 0 < sd ^ 2 := by positivity
    have : (data.countP p : K) * n ^ 2 * sd ^ 2 ≤ (data.length : K) * sd ^ 2 := by linarith
    exact le_of_mul_le_mul_right this h2
  · -- all values equal the mean
    have hz : data.countP p = 0 := by
      rw [List.countP_eq_zero]
      intro x hx hpx
      have h1 := hdist x hx hpx
      rw [← h0, mul_zero] at h1
      have h2 : (x - mean data) ^ 2 ≤ (data.map (fun x => (x - mean data) ^ 2)).sum :=
        List.single_le_sum (by intro y hy; obtain ⟨z, -, rfl⟩ := List.mem_map.mp hy; positivity) _
          (List.mem_map_of_mem (f := fun x => (x - mean data) ^ 2) hx)
      rw [hsum, ← h0] at h2
      have h3 : 0 < |x - mean data| ^ 2 := by positivity
      rw [sq_abs] at h3
      have h4 : (0 : K) ^ 2 * (data.length : K) = 0 := by ring
      linarith
    rw [hz]
    push_cast
    linarith

/-- The bound is attained in the limit; with at most four visits nothing is two sigma out. -/
example : noutliers (1 : ℚ) (mean [0, 0, 0, 0, 10]) 4 [0, 0, 0, 0, 10] = 1 ∧ (4 : ℚ) ^ 2 = variance [0, 0, 0, 0, 10] := by
  decide +kernel

end Outliers

end Verif.Metrics
