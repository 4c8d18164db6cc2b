import Verif.Model.Plotters
import Verif.Lemmas.NumpyMore
import Verif.Lemmas.NDSlicer
import Verif.Lemmas.TimeSlicers
import Mathlib.Tactic.Linarith
import Mathlib.Tactic.Ring
import Mathlib.Tactic.FieldSimp
import Mathlib.Tactic.NormNum
import Mathlib.Tactic.Positivity
import Mathlib.Algebra.Order.BigOperators.Group.List
import Mathlib.Data.List.MinMax

/-!
# Properties of the numbers that the plotters draw
-/

namespace Verif.Plotters

open Verif.Np

section
variable {K : Type*} [Field K] [LinearOrder K]

/-! ## Limits of the colours -/

/-- The limits that the user gave are used as they are. -/
theorem colorLims_user (cmin cmax : Option K) (clip : Option (List K → K × K)) (data : List K) :
    (∀ c, cmin = some c → (colorLims cmin cmax clip data).1 = c) ∧ (∀ c, cmax = some c → (colorLims cmin cmax clip data).2 = c) := by
  constructor <;> rintro c rfl <;> simp [colorLims]

variable [IsStrictOrderedRing K]

/-- Without limits from the user there is a range of colours, whatever is clipped. -/
theorem colorLims_range (clip : Option (List K → K × K)) (data : List K) :
    (colorLims none none clip data).1 < (colorLims none none clip data).2 := by
  have key : ∀ t : K × K, (min (if t.1 = t.2 then (t.1 - 1 / 2, t.2 + 1 / 2) else t).1 (if t.1 = t.2 then (t.1 - 1 / 2, t.2 + 1 / 2) else t).2) <
      (max (if t.1 = t.2 then (t.1 - 1 / 2, t.2 + 1 / 2) else t).1 (if t.1 = t.2 then (t.1 - 1 / 2, t.2 + 1 / 2) else t).2) := by
    intro t
    apply min_lt_max.mpr
    by_cases h : t.1 = t.2
    · rw [if_pos h]
      simp only
      intro hh
      have : (t.1 - 1 / 2 : K) < t.2 + 1 / 2 := by linarith [h]
      exact absurd hh this.ne
    · rw [if_neg h]; exact h
  unfold colorLims
  cases data.min? with
  | none => simp
  | some lo =>
    cases data.max? with
    | none => simp
    | some hi =>
      cases clip with
      | none => simpa using key (lo, hi)
      | some f => simpa using key (f data)

/-- Without limits and without clipping all the data are between the limits, which are data
themselves unless there is one value only. -/
theorem colorLims_data (data : List K) (h : data ≠ []) :
    (∀ x ∈ data, (colorLims none none none data).1 ≤ x ∧ x ≤ (colorLims none none none data).2) ∧
      ((colorLims none none none data).1 ∈ data ∧ (colorLims none none none data).2 ∈ data ∨
        ∃ v, (∀ x ∈ data, x = v) ∧ colorLims none none none data = (v - 1 / 2, v + 1 / 2)) := by
  cases hlo : data.min? with
  | none => exact absurd (List.min?_eq_none_iff.mp hlo) h
  | some lo =>
    cases hhi : data.max? with
    | none => exact absurd (List.max?_eq_none_iff.mp hhi) h
    | some hi =>
      obtain ⟨hl, hl'⟩ := List.min?_eq_some_iff.mp hlo
      obtain ⟨hh, hh'⟩ := List.max?_eq_some_iff.mp hhi
      have hle := hl' hi hh
      by_cases e : lo = hi
      · subst e
        have e2 : colorLims none none none data = (lo - 1 / 2, lo + 1 / 2) := by
          have a : (lo - 1 / 2 : K) ≤ lo + 1 / 2 := by linarith [show (0 : K) < 1 / 2 by norm_num]
          simp only [colorLims, hlo, hhi, if_true, Option.getD_none, min_eq_left a, max_eq_right a]
        rw [e2]
        refine ⟨fun x hx => ⟨?_, ?_⟩, Or.inr ⟨lo, fun x hx => le_antisymm (hh' x hx) (hl' x hx), rfl⟩⟩
        · have := hl' x hx; simp only; linarith [show (0 : K) < 1 / 2 by norm_num]
        · have := hh' x hx; simp only; linarith [show (0 : K) < 1 / 2 by norm_num]
      · have e2 : colorLims none none none data = (lo, hi) := by
          simp only [colorLims, hlo, hhi, if_neg e, Option.getD_none, min_eq_left hle, max_eq_right hle]
        rw [e2]
        exact ⟨fun x hx => ⟨hl' x hx, hh' x hx⟩, Or.inl ⟨hl, hh⟩⟩

theorem colorLims_empty (clip : Option (List K → K × K)) : colorLims none none clip ([] : List K) = (0, 1) := by
  simp [colorLims]

/-- With one limit from the user there need not be a range. -/
theorem colorLims_range_false : ¬ ∀ (cmin cmax : Option ℚ) (data : List ℚ), cmin = none ∨ cmax = none →
    (colorLims cmin cmax none data).1 < (colorLims cmin cmax none data).2 := by
  intro h
  exact absurd (h (some 5) none [1, 3] (Or.inr rfl)) (by decide +kernel)

example : colorLims none (some 10) none [3, 1, 2] = ((1, 10) : ℚ × ℚ) := by decide +kernel

/-! ## Histograms -/

variable [FloorRing K]

private theorem edges_count {d : K} (hd : 0 < d) (x : K) (hx : 0 ≤ x) :
    (⌈(x + d / 2) / d⌉.toNat : ℤ) = ⌈x / d + 1 / 2⌉ ∧ 0 < ⌈x / d + 1 / 2⌉ := by
  have e : (x + d / 2) / d = x / d + 1 / 2 := by field_simp
  have hq : 0 ≤ x / d := div_nonneg hx hd.le
  have : 0 < ⌈x / d + 1 / 2⌉ := Int.ceil_pos.mpr (by linarith [show (0 : K) < 1 / 2 by norm_num])
  rw [e]; exact ⟨by omega, this⟩

/-- With a width of bins less than twice the range, the edges begin at the lower limit and
are the width apart; the last one is within half a width of the upper limit. -/
theorem histBins_edges (xmin xmax w : K) (hw : 0 < w) (h : w / 2 < xmax - xmin) :
    ∃ n : Nat, 2 ≤ n ∧ histBins xmin xmax w = (List.range n).map (fun k : ℕ => xmin + (k : K) * w) ∧
      xmax - w / 2 ≤ xmin + ((n - 1 : Nat) : K) * w ∧ xmin + ((n - 1 : Nat) : K) * w < xmax + w / 2 := by
  obtain ⟨e1, e2⟩ := edges_count hw (xmax - xmin) (by linarith)
  have hgt : 1 < ⌈(xmax - xmin) / w + 1 / 2⌉ := by
    rw [Int.lt_ceil]
    have : 1 / 2 < (xmax - xmin) / w := by rw [lt_div_iff₀ hw]; linarith
    push_cast; linarith
  set n := ⌈((xmax - xmin) + w / 2) / w⌉.toNat with hn
  have hl : Slicers.arange xmin (xmax + w / 2) w = (List.range n).map (fun k : ℕ => xmin + (k : K) * w) := by
    unfold Slicers.arange
    rw [show (xmax + w / 2 - xmin) / w = ((xmax - xmin) + w / 2) / w by ring_nf]
  have h2 : 2 ≤ n := by omega
  refine ⟨n, h2, ?_, ?_, ?_⟩
  · unfold histBins
    rw [hl]
    obtain ⟨m, hm⟩ := Nat.exists_eq_add_of_le h2
    rw [hm, Nat.add_comm 2 m, List.range_succ_eq_map, List.range_succ_eq_map]
    rfl
  · have := Int.le_ceil ((xmax - xmin) / w + 1 / 2)
    rw [← e1] at this
    have hc : ((n : ℤ) : K) = ((n - 1 : Nat) : K) + 1 := by
      rw [show (n : ℤ) = ((n - 1 : Nat) : ℤ) + 1 by omega]; push_cast; ring
    rw [hc] at this
    have h3 : (xmax - xmin) / w ≤ ((n - 1 : Nat) : K) + 1 / 2 := by linarith
    rw [div_le_iff₀ hw] at h3
    linarith
  · have := Int.ceil_lt_add_one ((xmax - xmin) / w + 1 / 2)
    rw [← e1] at this
    have hc : ((n : ℤ) : K) = ((n - 1 : Nat) : K) + 1 := by
      rw [show (n : ℤ) = ((n - 1 : Nat) : ℤ) + 1 by omega]; push_cast; ring
    rw [hc] at this
    have h3 : ((n - 1 : Nat) : K) - 1 / 2 < (xmax - xmin) / w := by linarith
    rw [lt_div_iff₀ hw] at h3
    linarith

/-- A smaller range gives four edges around it: all of it is within. -/
theorem histBins_narrow (xmin xmax w : K) (hw : 0 < w) (h0 : xmin ≤ xmax) (h : xmax - xmin ≤ w / 2) :
    histBins xmin xmax w = [xmin - 2 * w, xmin - w, xmin, xmin + w] := by
  obtain ⟨e1, e2⟩ := edges_count hw (xmax - xmin) (by linarith)
  have hle : ⌈(xmax - xmin) / w + 1 / 2⌉ ≤ 1 := by
    rw [Int.ceil_le]
    have : (xmax - xmin) / w ≤ 1 / 2 := by rw [div_le_iff₀ hw]; linarith
    push_cast; linarith
  have hn : ⌈((xmax - xmin) + w / 2) / w⌉.toNat = 1 := by omega
  have hl : Slicers.arange xmin (xmax + w / 2) w = [xmin] := by
    unfold Slicers.arange
    rw [show (xmax + w / 2 - xmin) / w = ((xmax - xmin) + w / 2) / w by ring_nf, hn]
    simp
  unfold histBins
  rw [hl]
  simp only [Slicers.arange]
  have e4 : (xmin + w * 2 - (xmin - w * 2)) / w = ((4 : ℤ) : K) := by field_simp; push_cast; ring
  rw [e4, Int.ceil_intCast]
  simp only [show (4 : ℤ).toNat = 4 from rfl, List.range_succ, List.range_zero, List.nil_append, List.cons_append, List.map_cons, List.map_nil]
  push_cast
  refine congrArg₂ _ (by ring) (congrArg₂ _ (by ring) (congrArg₂ _ (by ring) (congrArg₂ _ (by ring) rfl)))

/-- The bins need not reach the largest of the data, even for the cumulative histogram: such
values are left out. -/
theorem histBins_covers_false : ¬ ∀ (lo hi w : ℚ), 0 < w → lo ≤ hi →
    ∃ b ∈ cumBins lo hi lo hi w, hi ≤ b := by
  intro h
  exact absurd (h 0 (7 / 5) 1 (by norm_num) (by norm_num)) (by decide +kernel)

/-- They do if the range is a whole number of bins. -/
theorem histBins_covers_partial (lo hi w : K) (hw : 0 < w) (k : Nat) (hk : 1 ≤ k) (h : hi - lo = (k : K) * w) :
    ∃ b ∈ cumBins lo hi lo hi w, hi ≤ b := by
  have hk' : (1 : K) ≤ k := by exact_mod_cast hk
  have hlt : w / 2 < hi - lo := by rw [h]; nlinarith
  obtain ⟨n, h2, e, ha, hb⟩ := histBins_edges lo hi w hw hlt
  unfold cumBins
  rw [min_self, max_self, e]
  have hn : n - 1 = k := by
    have a : ((n - 1 : Nat) : K) * w < ((k : K) + 1 / 2) * w := by linarith
    have b : ((k : K) - 1 / 2) * w ≤ ((n - 1 : Nat) : K) * w := by linarith
    have a' := lt_of_mul_lt_mul_right a hw.le
    have b' := le_of_mul_le_mul_right b hw
    have a2 : ((n - 1 : Nat) : K) < ((k + 1 : Nat) : K) := by push_cast; linarith
    have b2 : ((k : Nat) : K) < ((n - 1 + 1 : Nat) : K) := by push_cast; linarith
    have := Nat.cast_lt.mp a2
    have := Nat.cast_lt.mp b2
    omega
  exact ⟨lo + ((n - 1 : Nat) : K) * w, List.mem_map.mpr ⟨n - 1, List.mem_range.mpr (by omega), rfl⟩, by rw [hn]; linarith⟩

example : histBins (0 : ℚ) 3 1 = [0, 1, 2, 3] ∧ histBins (0 : ℚ) (7 / 5) 1 = [0, 1] ∧ histBins (2 : ℚ) 2 1 = [0, 1, 2, 3] := by
  decide +kernel

/-! ## Longitude on the map -/

/-- The longitude is within half a turn of the centre. -/
theorem skyLon_range (tau ra cen : K) (ht : 0 < tau) : -(tau / 2) ≤ skyLon tau ra cen ∧ skyLon tau ra cen < tau / 2 := by
  unfold skyLon
  set x := -(ra - cen - tau / 2)
  have h1 := Int.floor_le (x / tau)
  have h2 := Int.lt_floor_add_one (x / tau)
  rw [le_div_iff₀ ht] at h1
  rw [div_lt_iff₀ ht] at h2
  constructor <;> nlinarith

/-- It is the distance from the centre, positive to the west, up to whole turns. -/
theorem skyLon_turns (tau ra cen : K) : ∃ k : ℤ, skyLon tau ra cen = cen - ra + (k : K) * tau := by
  refine ⟨-⌊(-(ra - cen - tau / 2)) / tau⌋, ?_⟩
  unfold skyLon
  push_cast
  ring

/-- Nothing else has these two properties: the longitude does not depend on how the right
ascension is wrapped. -/
theorem skyLon_unique (tau ra cen y : K) (ht : 0 < tau) (h1 : -(tau / 2) ≤ y) (h2 : y < tau / 2)
    (h : ∃ k : ℤ, y = cen - ra + (k : K) * tau) : y = skyLon tau ra cen := by
  obtain ⟨k, hk⟩ := h
  obtain ⟨m, hm⟩ := skyLon_turns tau ra cen
  obtain ⟨h3, h4⟩ := skyLon_range tau ra cen ht
  have e : y - skyLon tau ra cen = ((k - m : ℤ) : K) * tau := by rw [hk, hm]; push_cast; ring
  have a : ((k - m : ℤ) : K) * tau < 1 * tau := by rw [← e]; linarith
  have b : (-1) * tau < ((k - m : ℤ) : K) * tau := by rw [← e]; linarith
  have a' : ((k - m : ℤ) : K) < ((1 : ℤ) : K) := by push_cast at a ⊢; exact lt_of_mul_lt_mul_right a ht.le
  have b' : ((-1 : ℤ) : K) < ((k - m : ℤ) : K) := by push_cast at b ⊢; exact lt_of_mul_lt_mul_right b ht.le
  have a2 := Int.cast_lt.mp a'
  have b2 := Int.cast_lt.mp b'
  have : k - m = 0 := by omega
  rw [this] at e
  push_cast at e
  linarith

example : skyLon (360 : ℚ) 350 10 = 20 ∧ skyLon (360 : ℚ) 30 10 = -20 ∧ skyLon (360 : ℚ) 190 10 = -180 := by decide +kernel

end

/-! ## Visits in singles, pairs, triples -/

private theorem pairBins_eq (m : Nat) : pairBins m = (List.range m).map (fun k : ℕ => (1 / 2 : ℚ) + (k : ℚ) * 1) := by
  unfold pairBins Slicers.arange
  have : ((m : ℚ) + 1 / 2 - 1 / 2) / 1 = ((m : ℤ) : ℚ) := by push_cast; ring
  rw [this, Int.ceil_intCast]
  rfl

/-- There is a bar for each number of visits below the largest: its height is the number of
visits in such nights. -/
theorem pairBars_spec (counts : List Nat) :
    pairBars counts = (List.range (counts.max?.getD 0 - 1)).map (fun i : ℕ => ((counts.count (i + 1) : ℕ) : ℚ) * ((i : ℚ) + 1)) := by
  set m := counts.max?.getD 0 with hm
  have hlen : (pairBins m).length = m := by rw [pairBins_eq]; simp
  have hmax : ∀ c ∈ counts, c ≤ m := by
    intro c hc
    cases h : counts.max? with
    | none => rw [List.max?_eq_none_iff.mp h] at hc; cases hc
    | some M => rw [hm, h]; exact (List.max?_eq_some_iff.mp h).2 c hc
  have hget : ∀ i : ℕ, i < m → (pairBins m)[i]? = some ((i : ℚ) + 1 / 2) := by
    intro i hi
    rw [pairBins_eq]
    simp [hi]
    ring
  unfold pairBars
  simp only [← hm]
  apply List.ext_getElem
  · simp [histogram, hlen]
  · intro i h1 h2
    have hi : i < m - 1 := by simpa [histogram, hlen] using h1
    have g1 := hget i (by omega)
    have g2 := hget (i + 1) (by omega)
    have hv : (histogram (pairBins m) (counts.map (fun c : Nat => (c : ℚ)))).getD i 0 = counts.count (i + 1) := by
      rw [List.getD_eq_getElem?_getD, List.getElem?_eq_getElem (by simp [histogram, hlen]; omega), Option.getD_some]
      unfold histogram
      rw [List.getElem_map, List.getElem_range, List.countP_map, List.count]
      apply List.countP_congr
      intro c hc
      have hcm := hmax c hc
      simp only [Function.comp, inBin, g1, g2, hlen, beq_iff_eq]
      rcases lt_trichotomy c (i + 1) with h | h | h
      · have : (c : ℚ) ≤ i := by exact_mod_cast (by omega : c ≤ i)
        have e1 : ¬ ((i : ℚ) + 1 / 2 ≤ c) := by linarith
        simp only [e1, decide_false, Bool.false_and, Bool.false_eq_true, false_iff]
        omega
      · subst h
        have e1 : ((i : ℚ) + 1 / 2 ≤ ((i + 1 : ℕ) : ℚ)) := by push_cast; linarith
        have e2 : (((i + 1 : ℕ) : ℚ) < ((i + 1 : ℕ) : ℚ) + 1 / 2) := by linarith
        simp only [e1, e2, decide_true, Bool.true_or, Bool.and_self]
      · have : (i : ℚ) + 2 ≤ c := by exact_mod_cast (by omega : i + 2 ≤ c)
        have e1 : ¬ ((c : ℚ) < ((i + 1 : ℕ) : ℚ) + 1 / 2) := by push_cast; linarith
        have e2 : ¬ ((c : ℚ) = ((i + 1 : ℕ) : ℚ) + 1 / 2) := by push_cast; intro h; linarith
        have hne : ¬ c = i + 1 := by omega
        simp only [e1, e2, decide_false, Bool.and_false, Bool.or_false, hne, Bool.false_eq_true]
    rw [List.getElem_map, List.getElem_range, List.getElem_map, List.getElem_range, hv,
      List.getD_eq_getElem?_getD, List.getD_eq_getElem?_getD, g1, g2]
    simp only [Option.getD_some]
    push_cast
    ring

private theorem sum_counts (counts : List Nat) (m : Nat) (h : ∀ c ∈ counts, c ≤ m) :
    ((List.range m).map (fun i => counts.count (i + 1) * (i + 1))).sum = counts.sum := by
  induction counts with
  | nil => simp
  | cons c l ih =>
    have ih' := ih (fun x hx => h x (List.mem_cons_of_mem _ hx))
    have e : ∀ i, (c :: l).count (i + 1) * (i + 1) = l.count (i + 1) * (i + 1) + (if i + 1 = c then c else 0) := by
      intro i
      rw [List.count_cons]
      by_cases hc : c = i + 1
      · subst hc; simp; ring
      · simp [hc, Ne.symm hc]
    simp only [e]
    have : ∀ (m : Nat), c ≤ m → ((List.range m).map (fun i => if i + 1 = c then c else 0)).sum = c := by
      intro m
      induction m with
      | zero => intro h; simp; omega
      | succ m ih =>
        intro h
        rw [List.range_succ, List.map_append, List.sum_append]
        by_cases hc : c = m + 1
        · subst hc
          have : ∀ i ∈ List.range m, (if i + 1 = m + 1 then m + 1 else 0) = 0 := by
            intro i hi; rw [if_neg]; have := List.mem_range.mp hi; omega
          rw [List.map_congr_left this]
          simp
        · rw [ih (by omega)]
          simp [Ne.symm hc]
    rw [List.sum_map_add, ih', this m (h c (by simp)), List.sum_cons]
    ring

/-- The bars together with the visits of the nights with the most visits are all visits: the
latter are what is missing in the plot. -/
theorem pairBars_total (counts : List Nat) :
    (pairBars counts).sum + ((counts.count (counts.max?.getD 0) : ℕ) : ℚ) * ((counts.max?.getD 0 : ℕ) : ℚ) = ((counts.sum : ℕ) : ℚ) := by
  rw [pairBars_spec]
  set m := counts.max?.getD 0 with hm
  have hmax : ∀ c ∈ counts, c ≤ m := by
    intro c hc
    cases h : counts.max? with
    | none => rw [List.max?_eq_none_iff.mp h] at hc; cases hc
    | some M => rw [hm, h]; exact (List.max?_eq_some_iff.mp h).2 c hc
  rw [← sum_counts counts m hmax]
  have hs : ∀ n : Nat, ((List.range n).map (fun i : ℕ => ((counts.count (i + 1) : ℕ) : ℚ) * ((i : ℚ) + 1))).sum =
      ((((List.range n).map (fun i => counts.count (i + 1) * (i + 1))).sum : ℕ) : ℚ) := by
    intro n
    induction n with
    | zero => simp
    | succ n ih => rw [List.range_succ, List.map_append, List.sum_append, List.map_append, List.sum_append, ih]; simp
  rw [hs]
  cases m with
  | zero => simp
  | succ k =>
    rw [Nat.add_sub_cancel, List.range_succ, List.map_append, List.sum_append]
    simp

/-- The bars do not hold all the visits. -/
theorem pairBars_total_false : ¬ ∀ counts : List Nat, (pairBars counts).sum = ((counts.sum : ℕ) : ℚ) := by
  intro h
  exact absurd (h [1, 1, 2]) (by decide +kernel)

/-- Never, if there is a visit. -/
theorem pairBars_short (counts : List Nat) (h : 0 < counts.sum) : (pairBars counts).sum < ((counts.sum : ℕ) : ℚ) := by
  have e := pairBars_total counts
  cases hmx : counts.max? with
  | none => rw [List.max?_eq_none_iff.mp hmx] at h; simp at h
  | some M =>
    obtain ⟨hm, hle⟩ := List.max?_eq_some_iff.mp hmx
    rw [hmx, Option.getD_some] at e
    have h1 : 1 ≤ counts.count M := List.count_pos_iff.mpr hm
    have h2 : 1 ≤ M := by
      by_contra hh
      have : ∀ c ∈ counts, c = 0 := fun c hc => by have := hle c hc; omega
      rw [List.sum_eq_zero_iff.mpr this] at h
      omega
    have : (1 : ℚ) ≤ ((counts.count M : ℕ) : ℚ) * ((M : ℕ) : ℚ) := by
      have := Nat.mul_le_mul h1 h2
      exact_mod_cast this
    linarith

example : pairBars [1, 1, 2, 3, 3] = [2, 2] ∧ pairBars [1, 1] = [] := by decide +kernel

/-! ## Masks -/

/-- After a plot with a colour minimum the values of the bundle below it are masked; nothing
else has changed. -/
theorem twoDMap_spec {K : Type*} [LinearOrder K] (c : K) (vals : List (K × Bool)) :
    (twoDMap (some c) vals).map Prod.fst = vals.map Prod.fst ∧
      ((twoDMap (some c) vals).filter (fun v => !v.2)) = (vals.filter (fun v => !v.2)).filter (fun v => decide (c ≤ v.1)) := by
  constructor
  · simp [twoDMap]
  · induction vals with
    | nil => rfl
    | cons v l ih =>
      obtain ⟨x, b⟩ := v
      simp only [twoDMap, List.map_cons] at ih ⊢
      cases b <;> by_cases h : x < c <;> simp_all

/-- A second plot with a lower minimum does not show what the first one masked. -/
theorem twoDMap_twice {K : Type*} [LinearOrder K] (c d : K) (h : d ≤ c) (vals : List (K × Bool)) :
    twoDMap (some d) (twoDMap (some c) vals) = twoDMap (some c) vals := by
  simp only [twoDMap, List.map_map, List.map_inj_left, Function.comp]
  intro v _
  by_cases h1 : v.1 < d
  · simp [h1, lt_of_lt_of_le h1 h]
  · simp [h1]

theorem twoDMap_unchanged_false : ¬ ∀ (c : Option Int) (vals : List (Int × Bool)), twoDMap c vals = vals := by
  intro h
  exact absurd (h (some 2) [(1, false), (3, false)]) (by decide)

theorem twoDMap_unchanged_partial {K : Type*} [LinearOrder K] (vals : List (K × Bool)) : twoDMap none vals = vals := rfl

example : twoDMap (some (2 : Int)) [(1, false), (3, false), (5, true)] = [(1, true), (3, false), (5, true)] := by decide

/-! ## Slices in several dimensions -/

/-- What should be drawn: the sum of the values of the slices that are in bin `j` of the
axis; the slices are in the order of `itertools.product`. -/
def AxisSum {K : Type*} [AddCommMonoid K] (shape : List Nat) (vals : List K) (axis j : Nat) : K :=
  (((vals.zip (Slicers.product (shape.map List.range))).filter (fun v => v.2.getD axis 0 == j)).map Prod.fst).sum

/-- For the slicer of the package nothing is drawn. -/
theorem oneDSubset_ndslicer {K : Type*} [AddCommMonoid K] (shape : List Nat) (vals : List K) (axis : Nat) :
    oneDSubset ndSlicerAttrs shape vals axis = .error .attribute := by
  unfold oneDSubset
  rw [if_pos (by decide)]

/-- If the attribute were there: right for numbers of bins that read the same from both ends. -/
theorem oneDSubset_partial {K : Type*} [AddCommMonoid K] (attrs : List String) (ha : "nD" ∈ attrs) (shape : List Nat) (hs : shape.reverse = shape)
    (vals : List K) (axis : Nat) :
    oneDSubset attrs shape vals axis = .ok ((List.range (shape.getD axis 0)).map (AxisSum shape vals axis)) := by
  unfold oneDSubset
  rw [if_neg (not_not.mpr ha), hs, if_neg (not_not.mpr rfl)]
  rfl

/-- Otherwise there is an error, or the sums are wrong. -/
theorem oneDSubset_false : ¬ ∀ (attrs : List String) (shape : List Nat) (vals : List Int) (axis : Nat), "nD" ∈ attrs →
    vals.length = shape.prod → axis < shape.length → ∀ out, oneDSubset attrs shape vals axis = .ok out →
      out = (List.range (shape.getD axis 0)).map (AxisSum shape vals axis) := by
  intro h
  exact absurd (h ["nD"] [1, 2, 3] [0, 1, 0, 0, 0, 0] 1 (by decide) (by decide) (by decide) _ rfl) (by decide)

/-- Two dimensions with different numbers of bins are always an error. -/
theorem oneDSubset_two {K : Type*} [AddCommMonoid K] (attrs : List String) (ha : "nD" ∈ attrs) (a b : Nat) (h : a ≠ b) (vals : List K) (axis : Nat)
    (hx : axis < 2) : oneDSubset attrs [a, b] vals axis = .error .value := by
  unfold oneDSubset
  rw [if_neg (not_not.mpr ha), if_pos]
  match axis, hx with
  | 0, _ => simpa using h.symm
  | 1, _ => simpa using h

private theorem sum_fibres {K α : Type*} [AddCommMonoid K] (l : List (K × α)) (f : α → Nat) (n : Nat) (h : ∀ v ∈ l, f v.2 < n) :
    ((List.range n).map (fun j => ((l.filter (fun v => f v.2 == j)).map Prod.fst).sum)).sum = (l.map Prod.fst).sum := by
  induction l with
  | nil => simp
  | cons v l ih =>
    have ih' := ih (fun x hx => h x (List.mem_cons_of_mem _ hx))
    have e : ∀ j, (((v :: l).filter (fun v => f v.2 == j)).map Prod.fst).sum =
        (if f v.2 = j then v.1 else 0) + ((l.filter (fun v => f v.2 == j)).map Prod.fst).sum := by
      intro j
      by_cases hj : f v.2 = j <;> simp [List.filter_cons, hj]
    simp only [e]
    have hv := h v (by simp)
    have : ∀ n, f v.2 < n → ((List.range n).map (fun j => if f v.2 = j then v.1 else 0)).sum = v.1 := by
      intro n
      induction n with
      | zero => intro h; omega
      | succ n ihn =>
        intro hlt
        rw [List.range_succ, List.map_append, List.sum_append]
        by_cases hc : f v.2 = n
        · have : ∀ j ∈ List.range n, (if f v.2 = j then v.1 else 0) = 0 := by
            intro j hj; rw [if_neg]; have := List.mem_range.mp hj; omega
          rw [List.map_congr_left this]
          simp [hc]
        · rw [ihn (by omega)]
          simp [hc]
    rw [List.sum_map_add, ih', this n hv, List.map_cons, List.sum_cons]

/-- What is drawn always adds up to the sum of the values. -/
theorem oneDSubset_total {K : Type*} [AddCommMonoid K] (attrs : List String) (shape : List Nat) (vals : List K) (axis : Nat)
    (hl : vals.length = shape.prod) (hx : axis < shape.length) (out : List K) (h : oneDSubset attrs shape vals axis = .ok out) :
    out.sum = vals.sum := by
  unfold oneDSubset at h
  split at h
  · cases h
  · simp only at h
    split at h
    · cases h
    · cases h
      unfold sumWhere
      have hlen : (indices shape.reverse).length = vals.length := by
        unfold indices
        rw [Slicers.length_product, hl]
        simp [Function.comp_def, List.prod_reverse]
      rw [sum_fibres (vals.zip (indices shape.reverse)) (fun i => i.getD axis 0)]
      · congr 1
        exact List.map_fst_zip (by omega)
      · intro v hv
        have hm := (List.of_mem_zip (a := v.1) (b := v.2) hv).2
        unfold indices at hm
        rw [Slicers.mem_product] at hm
        obtain ⟨e, hall⟩ := List.forall₂_iff_get.mp hm
        have hlt : axis < v.2.length := by rw [e]; simpa using hx
        have := hall axis hlt (by simpa using hx)
        simp only [List.get_eq_getElem, List.getElem_map, List.mem_range] at this
        rw [List.getD_eq_getElem?_getD, List.getElem?_eq_getElem hlt, List.getD_eq_getElem?_getD,
          List.getElem?_eq_getElem (by simpa using hx)]
        simpa using this

example : oneDSubset ["nD"] [2, 3, 2] ([1, 2, 3, 4, 5, 6, 7, 8, 9, 10, 11, 12] : List Int) 1 = .ok [18, 26, 34] ∧
    AxisSum [2, 3, 2] ([1, 2, 3, 4, 5, 6, 7, 8, 9, 10, 11, 12] : List Int) 1 0 = 1 + 2 + 7 + 8 := by decide

/-- What should be drawn in two dimensions: the sum of the values of the slices that are in
bin `i` of the x axis and bin `j` of the y axis. -/
def PlaneSum {K : Type*} [AddCommMonoid K] (shape : List Nat) (vals : List K) (x y i j : Nat) : K :=
  (((vals.zip (Slicers.product (shape.map List.range))).filter (fun v => v.2.getD x 0 == i && v.2.getD y 0 == j)).map Prod.fst).sum

/-- Right if the y axis is before the x axis and the numbers of bins read the same from both
ends. -/
theorem twoDSubset_partial {K : Type*} [AddCommMonoid K] (shape : List Nat) (hs : shape.reverse = shape) (vals : List K) (x y i j : Nat) (h : y < x) :
    twoDSubset shape vals x y i j = PlaneSum shape vals x y i j := by
  unfold twoDSubset sumWhere PlaneSum indices
  rw [hs, min_eq_right h.le, max_eq_left h.le]
  simp only [Bool.and_comm]

/-- With the x axis first, the axes are exchanged. -/
theorem twoDSubset_transposed {K : Type*} [AddCommMonoid K] (shape : List Nat) (hs : shape.reverse = shape) (vals : List K) (x y i j : Nat) (h : x < y) :
    twoDSubset shape vals x y i j = PlaneSum shape vals x y j i := by
  unfold twoDSubset sumWhere PlaneSum indices
  rw [hs, min_eq_left h.le, max_eq_right h.le]

theorem twoDSubset_false : ¬ ∀ (shape : List Nat) (vals : List Int) (x y i j : Nat), vals.length = shape.prod → x ≠ y →
    twoDSubset shape vals x y i j = PlaneSum shape vals x y i j := by
  intro h
  exact absurd (h [2, 2] [1, 2, 3, 4] 0 1 0 1 (by decide) (by decide)) (by decide)

example : twoDSubset [2, 2] ([1, 2, 3, 4] : List Int) 1 0 0 1 = 3 ∧ PlaneSum [2, 2] ([1, 2, 3, 4] : List Int) 1 0 0 1 = 3 := by decide

/-! ## Moving objects -/

/-- Without the key `hwidth` from the user the orbit plots fail: the defaults do not have it. -/
theorem orbitLookups_default (cloned : Bool) (user : List String) (hn : Bool) (h : "hwidth" ∉ user ∨ "hval" ∉ user) :
    orbitLookups cloned (orbitKeys ++ user) hn = .error .key := by
  unfold orbitLookups
  rcases h with h | h
  · rw [if_pos]
    intro hh
    rcases List.mem_append.mp hh with hh | hh
    · exact absurd hh (by decide)
    · exact h hh
  · have : "hval" ∉ orbitKeys ++ user := by
      intro hh
      rcases List.mem_append.mp hh with hh | hh
      · exact absurd hh (by decide)
      · exact h hh
    rw [if_pos this]
    split <;> rfl

/-- With both keys, and a value of H for objects that have their own, `hvals` is needed too. -/
theorem orbitLookups_hvals (user : List String) (h : "hvals" ∉ user) :
    orbitLookups false (orbitKeys ++ user) false = .error .key := by
  unfold orbitLookups
  have : "hvals" ∉ orbitKeys ++ user := by
    intro hh
    rcases List.mem_append.mp hh with hh | hh
    · exact absurd hh (by decide)
    · exact h hh
  simp only [this, not_false_eq_true, if_true, Bool.false_eq_true, if_false]
  split
  · rfl
  · split <;> rfl

example : orbitLookups true (orbitKeys ++ ["hwidth", "hval"]) false = .ok () := by decide

section
variable {K : Type*} [Field K] [LinearOrder K] [IsStrictOrderedRing K] [FloorRing K]

private theorem count_grid (a d v : K) (hd : 0 < d) (hv : a ≤ v) (m : Nat) :
    ((List.range m).map (fun k : ℕ => a + (k : K) * d)).countP (fun b => decide (b ≤ v)) = min m (⌊(v - a) / d⌋.toNat + 1) := by
  have hq : 0 ≤ (v - a) / d := div_nonneg (sub_nonneg.mpr hv) hd.le
  have hle : ∀ k : Nat, a + (k : K) * d ≤ v ↔ k < ⌊(v - a) / d⌋.toNat + 1 := by
    intro k
    have h1 : a + (k : K) * d ≤ v ↔ (k : K) ≤ (v - a) / d := by
      rw [le_div_iff₀ hd]; constructor <;> intro h <;> linarith
    rw [h1, show ((k : K) = ((k : ℤ) : K)) by simp, ← Int.le_floor]
    have := Int.floor_nonneg.mpr hq
    omega
  induction m with
  | zero => simp
  | succ m ih =>
    rw [List.range_succ, List.map_append, List.countP_append, ih]
    by_cases hm : a + (m : K) * d ≤ v
    · have := (hle m).mp hm
      simp [hm]
      omega
    · have : ¬ m < ⌊(v - a) / d⌋.toNat + 1 := fun h => hm ((hle m).mpr h)
      simp [hm]
      omega

private theorem hBins_grid (s r : K) (n : Nat) (hn : 0 < n) (hr : 0 < r) :
    Slicers.arange s (s + r + r / (n : K) / 2) (r / (n : K)) = (List.range (n + 1)).map (fun k : ℕ => s + (k : K) * (r / (n : K))) := by
  unfold Slicers.arange
  have hn' : (0 : K) < n := by exact_mod_cast hn
  have e : (s + r + r / (n : K) / 2 - s) / (r / (n : K)) = (n : K) + 1 / 2 := by field_simp; ring
  have hc : ⌈(n : K) + 1 / 2⌉ = ((n + 1 : Nat) : ℤ) := by
    rw [Int.ceil_eq_iff]
    push_cast
    constructor <;> linarith [show (0 : K) < 1 / 2 by norm_num, show (1 / 2 : K) < 1 by norm_num]
  rw [e, hc]
  simp

/-- For a range of H of at least one: an object is in the bin `i` if its H is in the `i`th
of the equal parts; the objects with the largest H have a bin of their own. -/
theorem hIndex_spec (lo hi h : K) (n : Nat) (hn : 0 < n) (hr : 1 ≤ hi - lo) (h1 : lo ≤ h) (h2 : h ≤ hi) :
    ∃ i : Nat, hIndex (hBins lo hi n) h = (i : ℤ) ∧ i ≤ n ∧ lo + (i : K) * ((hi - lo) / n) ≤ h ∧ h < lo + ((i : K) + 1) * ((hi - lo) / n) ∧
      (i = n ↔ h = hi) := by
  have hn' : (0 : K) < n := by exact_mod_cast hn
  have hd : 0 < (hi - lo) / (n : K) := div_pos (by linarith) hn'
  have hnr : ¬ hi - lo < 1 := not_lt.mpr hr
  set d := (hi - lo) / (n : K) with hdd
  have hnd : (n : K) * d = hi - lo := by rw [hdd]; field_simp
  have eb : hBins lo hi n = (List.range (n + 1)).map (fun k : ℕ => lo + (k : K) * d) := by
    unfold hBins
    simp only [if_neg hnr]
    exact hBins_grid lo (hi - lo) n hn (by linarith)
  have hq : 0 ≤ (h - lo) / d := div_nonneg (by linarith) hd.le
  have hf := Int.floor_nonneg.mpr hq
  set i := ⌊(h - lo) / d⌋.toNat with hi'
  have hi2 : ((i : ℕ) : ℤ) = ⌊(h - lo) / d⌋ := by omega
  have hin : i ≤ n := by
    have : (h - lo) / d ≤ n := by rw [div_le_iff₀ hd, hnd]; linarith
    have h3 := (Int.floor_le ((h - lo) / d)).trans this
    rw [← hi2] at h3
    exact_mod_cast h3
  have hA : lo + (i : K) * d ≤ h := by
    have := Int.floor_le ((h - lo) / d)
    rw [← hi2, le_div_iff₀ hd] at this
    push_cast at this; linarith
  have hB : h < lo + ((i : K) + 1) * d := by
    have := Int.lt_floor_add_one ((h - lo) / d)
    rw [← hi2, div_lt_iff₀ hd] at this
    push_cast at this; linarith
  refine ⟨i, ?_, hin, hA, hB, ?_, ?_⟩
  · unfold hIndex
    rw [eb, count_grid lo d h hd h1]
    omega
  · intro e
    rw [e, hnd] at hA
    linarith
  · intro e
    rw [e] at hB
    have : (n : K) * d < ((i : K) + 1) * d := by rw [hnd]; linarith
    have := lt_of_mul_lt_mul_right this hd.le
    have : n < i + 1 := by exact_mod_cast this
    omega

/-- For a smaller range the bins end half a magnitude above the smallest H: all objects
beyond are put in the last one. -/
theorem hIndex_narrow (lo hi h : K) (n : Nat) (hn : 0 < n) (hr : hi - lo < 1) (h1 : lo + 1 / 2 ≤ h) :
    hIndex (hBins lo hi n) h = (n : ℤ) := by
  have hn' : (0 : K) < n := by exact_mod_cast hn
  have eb : hBins lo hi n = (List.range (n + 1)).map (fun k : ℕ => (lo - 1 / 2) + (k : K) * (1 / (n : K))) := by
    unfold hBins
    simp only [if_pos hr]
    exact hBins_grid (lo - 1 / 2) 1 n hn one_pos
  unfold hIndex
  have hd : (0 : K) < 1 / n := by positivity
  rw [eb, count_grid _ _ h hd (by linarith [show (0 : K) < 1 / 2 by norm_num])]
  have : (n : ℤ) ≤ ⌊(h - (lo - 1 / 2)) / (1 / (n : K))⌋ := by
    rw [Int.le_floor, le_div_iff₀ hd]
    push_cast
    rw [mul_one_div_cancel hn'.ne']
    linarith
  omega

/-- So a bin need not hold objects within one step of H. -/
theorem hIndex_step_false : ¬ ∀ (lo hi h k : ℚ) (n : Nat), 0 < n → lo ≤ h → h ≤ hi → lo ≤ k → k ≤ hi →
    hIndex (hBins lo hi n) h = hIndex (hBins lo hi n) k → |h - k| ≤ 1 / (n : ℚ) ∨ |h - k| ≤ (hi - lo) / n := by
  intro h
  exact absurd (h 20 (2099 / 100) (2055 / 100) (2095 / 100) 10 (by norm_num) (by norm_num) (by norm_num) (by norm_num) (by norm_num) (by decide +kernel))
    (by decide +kernel)

theorem hIndex_step_partial (lo hi h k : K) (n : Nat) (hn : 0 < n) (hr : 1 ≤ hi - lo) (h1 : lo ≤ h) (h2 : h ≤ hi) (k1 : lo ≤ k) (k2 : k ≤ hi)
    (e : hIndex (hBins lo hi n) h = hIndex (hBins lo hi n) k) : |h - k| ≤ (hi - lo) / n := by
  obtain ⟨i, ei, _, a1, a2, _⟩ := hIndex_spec lo hi h n hn hr h1 h2
  obtain ⟨j, ej, _, b1, b2, _⟩ := hIndex_spec lo hi k n hn hr k1 k2
  have : i = j := by have := ei.symm.trans (e.trans ej); exact_mod_cast this
  subst this
  rw [abs_le]
  constructor <;> linarith

example : hBins (20 : ℚ) 22 4 = [20, 41 / 2, 21, 43 / 2, 22] ∧ hIndex (hBins (20 : ℚ) 22 4) 21 = 2 ∧ hIndex (hBins (20 : ℚ) 22 4) 22 = 4 := by
  decide +kernel

end

/-! ## Diameters -/

/-- The diameter is inverse to the square root of the albedo and falls by ten in five
magnitudes. -/
theorem diameter_formula (p h : ℝ) (hp : 0 < p) : diameter p h = diameter 1 0 * (10 : ℝ) ^ (-h / 5) / √p := by
  have key : ∀ p h : ℝ, 0 < p → √((10 : ℝ) ^ ((-26.74 - h - 2.5 * Real.logb 10 p) / 2.5)) = (10 : ℝ) ^ ((-26.74 - h) / 5 : ℝ) / √p := by
    intro p h hp
    have e : (10 : ℝ) ^ ((-26.74 - h - 2.5 * Real.logb 10 p) / 2.5) = (10 : ℝ) ^ ((-26.74 - h) / 2.5 : ℝ) / p := by
      rw [show (-26.74 - h - 2.5 * Real.logb 10 p) / 2.5 = (-26.74 - h) / 2.5 - Real.logb 10 p by ring, Real.rpow_sub (by norm_num),
        Real.rpow_logb (by norm_num) (by norm_num) hp]
    rw [e, Real.sqrt_div' _ hp.le]
    congr 1
    rw [Real.sqrt_eq_rpow, ← Real.rpow_mul (by norm_num)]
    congr 1
    ring
  unfold diameter
  rw [key p h hp, key 1 0 one_pos, Real.sqrt_one, show (-26.74 - h) / 5 = (-26.74 - 0) / 5 + -h / 5 by ring, Real.rpow_add (by norm_num)]
  ring

/-- An object with H = 0 that reflects all light has a diameter of 1342 to 1343 km. -/
theorem diameter_unit : 1342000 < diameter 1 0 ∧ diameter 1 0 < 1343000 := by
  have e : diameter 1 0 = (10 : ℝ) ^ (-(1337 / 250) : ℝ) * 299200000000 := by
    unfold diameter
    rw [Real.logb_one, Real.sqrt_eq_rpow, ← Real.rpow_mul (by norm_num)]
    norm_num
    ring
  have hx : (0 : ℝ) < (10 : ℝ) ^ (-(1337 / 250) : ℝ) := Real.rpow_pos_of_pos (by norm_num) _
  set x := (10 : ℝ) ^ (-(1337 / 250) : ℝ) with hxx
  have hp : x ^ 250 * ((10 ^ 250) ^ 5 * 10 ^ 87) = 1 := by
    have h1 : x ^ 250 = (10 : ℝ) ^ (-1337 : ℝ) := by
      rw [hxx, ← Real.rpow_natCast, ← Real.rpow_mul (by norm_num)]
      norm_num
    have h2 : (((10 : ℝ) ^ 250) ^ 5 * 10 ^ 87) = (10 : ℝ) ^ (1337 : ℝ) := by
      rw [← pow_mul, ← pow_add, ← Real.rpow_natCast]; norm_num
    rw [h1, h2, ← Real.rpow_add (by norm_num)]
    norm_num
  rw [e]
  constructor
  · by_contra hc
    push Not at hc
    have hle : x ≤ 44853 / 10 ^ 10 := by
      rw [le_div_iff₀ (by positivity)]
      have : (0 : ℝ) < 299200000000 := by norm_num
      nlinarith
    have h3 := pow_le_pow_left₀ hx.le hle 250
    have : x ^ 250 * ((10 ^ 250) ^ 5 * 10 ^ 87) ≤ (44853 / 10 ^ 10 : ℝ) ^ 250 * ((10 ^ 250) ^ 5 * 10 ^ 87) := by gcongr
    rw [hp] at this
    norm_num at this
  · by_contra hc
    push Not at hc
    have hle : 44886 / 10 ^ 10 ≤ x := by
      rw [div_le_iff₀ (by positivity)]
      nlinarith
    have h3 := pow_le_pow_left₀ (by positivity : (0 : ℝ) ≤ 44886 / 10 ^ 10) hle 250
    have : (44886 / 10 ^ 10 : ℝ) ^ 250 * ((10 ^ 250) ^ 5 * 10 ^ 87) ≤ x ^ 250 * ((10 ^ 250) ^ 5 * 10 ^ 87) := by gcongr
    rw [hp] at this
    norm_num at this

theorem diameter_five (p h : ℝ) (hp : 0 < p) : diameter p h = 10 * diameter p (h + 5) := by
  rw [diameter_formula p h hp, diameter_formula p (h + 5) hp, show -(h + 5) / 5 = -h / 5 + (-1) by ring, Real.rpow_add (by norm_num),
    Real.rpow_neg_one]
  ring

example : diameter (1 / 4) 0 = 2 * diameter 1 0 := by
  rw [diameter_formula (1 / 4) 0 (by norm_num)]
  have : √(1 / 4 : ℝ) = 1 / 2 := by
    rw [Real.sqrt_eq_iff_mul_self_eq (by norm_num) (by norm_num)]; norm_num
  rw [this]
  norm_num
  ring

/-! ## Cumulative area -/

section
variable {K : Type*} [Field K] [LinearOrder K]

/-- The curve goes through the sorted values; at place `i` the area is that of the `n - i`
points from there on. -/
theorem foCurve_get (scale : K) (vals : List K) (i : Nat) (h : i < vals.length) :
    (foCurve scale vals)[i]? = some ((sort vals)[i]'(by rw [sort_length]; exact h), ((vals.length - i : Nat) : K) * scale) := by
  unfold foCurve
  rw [List.getElem?_eq_getElem (by simp [sort_length, h]), List.getElem_zip]
  simp only [List.getElem_reverse, List.getElem_map, List.getElem_range, List.length_map, List.length_range, Option.some.injEq, Prod.mk.injEq, true_and]
  congr 2
  omega

private theorem sorted_ge_count (l : List K) (hs : l.Pairwise (· ≤ ·)) (i : Nat) (h : i < l.length) (hf : ∀ j (hj : j < i), l[j]'(by omega) < l[i]) :
    l.countP (fun x => decide (l[i] ≤ x)) = l.length - i := by
  have split : ∀ v : K, l.countP (fun x => decide (v ≤ x)) = ((l.take i) ++ (l.drop i)).countP (fun x => decide (v ≤ x)) := by
    intro v; rw [List.take_append_drop]
  rw [split]
  rw [List.countP_append]
  have e1 : (l.take i).countP (fun x => decide (l[i] ≤ x)) = 0 := by
    rw [List.countP_eq_zero]
    intro x hx
    obtain ⟨j, hj, rfl⟩ := List.mem_iff_getElem.mp hx
    rw [List.length_take] at hj
    rw [List.getElem_take]
    simpa using hf j (by omega)
  have e2 : (l.drop i).countP (fun x => decide (l[i] ≤ x)) = (l.drop i).length := by
    rw [List.countP_eq_length]
    intro x hx
    obtain ⟨j, hj, rfl⟩ := List.mem_iff_getElem.mp hx
    rw [List.getElem_drop]
    rcases Nat.eq_zero_or_pos j with rfl | hp
    · simp
    · simpa using List.pairwise_iff_getElem.mp hs i (i + j) h (by rw [List.length_drop] at hj; omega) (by omega)
  rw [e1, e2, List.length_drop]
  omega

/-- For each value there is a point of the curve whose height is the area where the metric
is at least as large. -/
theorem foCurve_area (scale : K) (vals : List K) (v : K) (h : v ∈ vals) :
    (v, ((vals.countP (fun x => decide (v ≤ x)) : ℕ) : K) * scale) ∈ foCurve scale vals := by
  have hm : v ∈ sort vals := (sort_perm vals).mem_iff.mpr h
  obtain ⟨hi, he⟩ : ∃ hi : (sort vals).idxOf v < (sort vals).length, (sort vals)[(sort vals).idxOf v] = v :=
    ⟨List.idxOf_lt_length_iff.mpr hm, List.getElem_idxOf (List.idxOf_lt_length_iff.mpr hm)⟩
  set i := (sort vals).idxOf v with hidx
  have hi' : i < vals.length := by rw [← sort_length vals]; exact hi
  have hs := sort_sorted vals
  have hf : ∀ j (hj : j < i), (sort vals)[j]'(by omega) < (sort vals)[i] := by
    intro j hj
    have hle := List.pairwise_iff_getElem.mp hs j i (by omega) hi hj
    refine lt_of_le_of_ne hle ?_
    intro e
    rw [he] at e
    have := List.not_of_lt_findIdx (p := fun x => x == v) (xs := sort vals) (i := j) hj
    simp [e] at this
  have hc := sorted_ge_count (sort vals) hs i hi hf
  rw [he, (sort_perm vals).countP_eq, sort_length] at hc
  have := foCurve_get scale vals i hi'
  rw [he, ← hc] at this
  exact List.mem_of_getElem? this

/-- The curve never goes below the area where the metric is larger, nor above that where it
is at least as large. -/
theorem foCurve_bounds [IsStrictOrderedRing K] (scale : K) (hsc : 0 ≤ scale) (vals : List K) (p : K × K) (h : p ∈ foCurve scale vals) :
    ((vals.countP (fun x => decide (p.1 < x)) : ℕ) : K) * scale ≤ p.2 ∧ p.2 ≤ ((vals.countP (fun x => decide (p.1 ≤ x)) : ℕ) : K) * scale := by
  obtain ⟨i, hi, he⟩ := List.mem_iff_getElem.mp h
  have hi' : i < vals.length := by simpa [foCurve, sort_length] using hi
  have hg := foCurve_get scale vals i hi'
  rw [List.getElem?_eq_getElem hi, he] at hg
  have hp := Option.some.inj hg
  have hs := sort_sorted vals
  have hil : i < (sort vals).length := by rw [sort_length]; exact hi'
  have hl := sort_length vals
  rw [hp]
  simp only
  constructor
  · apply mul_le_mul_of_nonneg_right _ hsc
    apply Nat.cast_le.mpr
    rw [← (sort_perm vals).countP_eq]
    have split : ∀ v : K, (sort vals).countP (fun x => decide (v < x)) = (((sort vals).take i) ++ ((sort vals).drop i)).countP (fun x => decide (v < x)) := by
      intro v; rw [List.take_append_drop]
    rw [split]
    rw [List.countP_append]
    have e1 : ((sort vals).take i).countP (fun x => decide ((sort vals)[i] < x)) = 0 := by
      rw [List.countP_eq_zero]
      intro x hx
      obtain ⟨j, hj, rfl⟩ := List.mem_iff_getElem.mp hx
      rw [List.length_take] at hj
      rw [List.getElem_take]
      simpa using List.pairwise_iff_getElem.mp hs j i (by omega) hil (by omega)
    have e2 := List.countP_le_length (p := fun x => decide ((sort vals)[i] < x)) (l := (sort vals).drop i)
    rw [List.length_drop] at e2
    omega
  · apply mul_le_mul_of_nonneg_right _ hsc
    apply Nat.cast_le.mpr
    rw [← (sort_perm vals).countP_eq]
    have split : ∀ v : K, (sort vals).countP (fun x => decide (v ≤ x)) = (((sort vals).take i) ++ ((sort vals).drop i)).countP (fun x => decide (v ≤ x)) := by
      intro v; rw [List.take_append_drop]
    rw [split]
    rw [List.countP_append]
    have e2 : ((sort vals).drop i).countP (fun x => decide ((sort vals)[i] ≤ x)) = ((sort vals).drop i).length := by
      rw [List.countP_eq_length]
      intro x hx
      obtain ⟨j, hj, rfl⟩ := List.mem_iff_getElem.mp hx
      rw [List.getElem_drop]
      rcases Nat.eq_zero_or_pos j with rfl | hp
      · simp
      · simpa using List.pairwise_iff_getElem.mp hs i (i + j) hil (by rw [List.length_drop] at hj; omega) (by omega)
    rw [e2, List.length_drop]
    omega

example : foCurve (1 / 2 : ℚ) [30, 10, 20, 20] = [(10, 2), (20, 3 / 2), (20, 1), (30, 1 / 2)] := by decide +kernel

end

/-! ## Histograms over the sky -/

/-- Each bin is the sum over the points of the sky. -/
theorem summaryHist_bin {K : Type*} [AddCommMonoid K] (n : Nat) (rows : List (List K)) (i : Nat) (h : i < n) :
    (summaryHist n rows false)[i]? = some ((rows.map (fun r => r.getD i 0)).sum) := by
  simp [summaryHist, h]

/-- The bins together are the sum of all. -/
theorem summaryHist_total {K : Type*} [AddCommMonoid K] (n : Nat) (rows : List (List K)) (h : ∀ r ∈ rows, r.length = n) :
    (summaryHist n rows false).sum = (rows.map List.sum).sum := by
  have e1 : ∀ r : List K, ((List.range r.length).map (fun i => r.getD i 0)).sum = r.sum := by
    intro r
    congr 1
    apply List.ext_getElem
    · simp
    · intro i h1 h2
      simp [h2]
  simp only [summaryHist, Bool.false_eq_true, if_false]
  induction rows with
  | nil => simp
  | cons r l ih =>
    simp only [List.map_cons, List.sum_cons]
    rw [List.sum_map_add, ih (fun x hx => h x (List.mem_cons_of_mem _ hx)), ← h r (by simp), e1 r]

/-- The cumulative histogram at a bin is the sum of the bins up to it; the last is the sum
of all. -/
theorem summaryHist_cumulative {K : Type*} [AddCommMonoid K] (n : Nat) (rows : List (List K)) (i : Nat) (h : i < n) :
    (summaryHist n rows true)[i]? = some (((summaryHist n rows false).take (i + 1)).sum) ∧
      (i + 1 = n → (summaryHist n rows true)[i]? = some ((summaryHist n rows false).sum)) := by
  have e : (summaryHist n rows true)[i]? = some (((summaryHist n rows false).take (i + 1)).sum) := by
    simp [summaryHist, h]
  refine ⟨e, fun hn => ?_⟩
  rw [e, List.take_of_length_le]
  simp [summaryHist]
  omega

example : summaryHist 3 [[1, 2, 3], [10, 0, 5]] true = [11, 13, (21 : Int)] := by decide

end Verif.Plotters
