import Mathlib.Algebra.Order.Field.Basic
import Mathlib.Algebra.Order.Floor.Semiring
import Mathlib.Data.Rat.Floor
import Mathlib.Tactic.Linarith
import Mathlib.Tactic.Ring
import Mathlib.Tactic.NormNum
import Mathlib.Tactic.Positivity
import Mathlib.Tactic.FieldSimp
import Mathlib.Data.Rat.Cast.Order
import Verif.Model.AreaMetrics
import Verif.Lemmas.NumpyMore

/-! # C90-C92: areas of the sky -/

namespace Verif.Area

open Verif.Np

section Order
variable {K : Type*} [LinearOrder K]

/-- The smallest of the `k` largest values. -/
theorem top_min (s : List K) (hs : s.Pairwise (· ≤ ·)) (k : Nat) (hk : k ≤ s.length) (t : K)
    (h : (s.drop (s.length - k)).min? = some t) :
    t ∈ s ∧ k ≤ s.countP (fun x => decide (t ≤ x)) ∧ s.countP (fun x => decide (t < x)) < k := by
  rw [List.min?_eq_some_iff] at h
  have hsplit := List.take_append_drop (s.length - k) s
  set d := s.drop (s.length - k) with hd
  set u := s.take (s.length - k) with hu
  have hdl : d.length = k := by
    rw [hd, List.length_drop]
    omega
  refine ⟨List.mem_of_mem_drop h.1, ?_, ?_⟩
  · calc k = d.length := hdl.symm
      _ = d.countP (fun x => decide (t ≤ x)) := by
        symm
        rw [List.countP_eq_length]
        simpa using h.2
      _ ≤ s.countP (fun x => decide (t ≤ x)) := (List.drop_sublist _ _).countP_le
  · rw [← hsplit] at hs ⊢
    rw [List.pairwise_append] at hs
    have h0 : u.countP (fun x => decide (t < x)) = 0 := by
      rw [List.countP_eq_zero]
      intro x hx
      simpa using hs.2.2 x hx t h.1
    rw [List.countP_append, h0, Nat.zero_add, ← hdl]
    have h1 : d.countP (fun x => decide (t < x)) ≤ d.length := List.countP_le_length
    rcases Nat.lt_or_eq_of_le h1 with h2 | h2
    · exact h2
    · have := List.countP_eq_length.mp h2 t h.1
      simp at this

/-- The largest of the `k` smallest values. -/
theorem bottom_max (s : List K) (hs : s.Pairwise (· ≤ ·)) (k : Nat) (hk : k ≤ s.length) (t : K)
    (h : (s.take k).max? = some t) :
    t ∈ s ∧ k ≤ s.countP (fun x => decide (x ≤ t)) ∧ s.countP (fun x => decide (x < t)) < k := by
  rw [List.max?_eq_some_iff] at h
  have hsplit := List.take_append_drop k s
  set u := s.drop k with hu
  set d := s.take k with hd
  have hdl : d.length = k := by
    rw [hd, List.length_take]
    omega
  refine ⟨List.mem_of_mem_take h.1, ?_, ?_⟩
  · calc k = d.length := hdl.symm
      _ = d.countP (fun x => decide (x ≤ t)) := by
        symm
        rw [List.countP_eq_length]
        simpa using h.2
      _ ≤ s.countP (fun x => decide (x ≤ t)) := (List.take_sublist _ _).countP_le
  · rw [← hsplit] at hs ⊢
    rw [List.pairwise_append] at hs
    have h0 : u.countP (fun x => decide (x < t)) = 0 := by
      rw [List.countP_eq_zero]
      intro x hx
      simpa using hs.2.2 t h.1 x hx
    rw [List.countP_append, h0, Nat.add_zero, ← hdl]
    have h1 : d.countP (fun x => decide (x < t)) ≤ d.length := List.countP_le_length
    rcases Nat.lt_or_eq_of_le h1 with h2 | h2
    · exact h2
    · have := List.countP_eq_length.mp h2 t h.1
      simp at this

theorem min_reverse (l : List K) : l.reverse.min? = l.min? := by
  cases h : l.min? with
  | none =>
    rw [List.min?_eq_none_iff] at h
    simp [h]
  | some t =>
    rw [List.min?_eq_some_iff] at h ⊢
    simpa using h

end Order

variable {K : Type*} [Field K] [LinearOrder K] [IsStrictOrderedRing K] [FloorRing K]

/-! ## C90 -/

/-- The area of the pixels of one map of the sky that satisfy a condition. -/
def areaOf (sky : K) (data : List (Option K)) (p : K → Bool) : K :=
  sky / (data.length : K) * (((data.filterMap id).countP p : Nat) : K)

theorem need_pos {a p : K} (ha : 0 < a) (hp : 0 < p) : 0 < ⌈a / p⌉₊ := Nat.ceil_pos.mpr (div_pos ha hp)

theorem pixels_enough {a p : K} (hp : 0 < p) {k c : Nat} (hk : k = ⌈a / p⌉₊) (hc : k ≤ c) : a ≤ p * c := by
  have h1 : a / p ≤ (k : K) := by
    rw [hk]
    exact Nat.le_ceil _
  have h2 : (k : K) ≤ c := by exact_mod_cast hc
  rw [div_le_iff₀ hp] at h1
  nlinarith

theorem pixels_short {a p : K} (hp : 0 < p) {k c : Nat} (hk : k = ⌈a / p⌉₊) (hc : c < k) : p * c < a := by
  rw [hk, Nat.lt_ceil, lt_div_iff₀ hp] at hc
  linarith

/-- "Larger is better": the value is the largest that is reached on the wanted area. -/
theorem areaSummary_decreasing (sky area : K) (data : List (Option K)) (hsky : 0 < sky) (ha : 0 < area)
    (henough : area ≤ sky / (data.length : K) * ((data.filterMap id).length : K)) :
    ∃ t, areaSummary sky area true data = some t ∧ some t ∈ data ∧
      area ≤ areaOf sky data (fun v => decide (t ≤ v)) ∧
      ∀ t', t < t' → areaOf sky data (fun v => decide (t' ≤ v)) < area := by
  have hlen : 0 < data.length := by
    by_contra h
    have : data.length = 0 := by omega
    rw [this] at henough
    simp at henough
    linarith
  have hp : 0 < pixArea sky data.length := div_pos hsky (by exact_mod_cast hlen)
  have hp' : pixArea sky data.length = sky / (data.length : K) := rfl
  have hperm := sort_perm (data.filterMap id)
  have hk : ⌈area / pixArea sky data.length⌉₊ ≤ (sort (data.filterMap id)).length := by
    rw [sort_length, Nat.ceil_le, div_le_iff₀ hp]
    rw [mul_comm]
    exact henough
  have hpos := need_pos ha hp
  unfold areaSummary
  simp only [if_true]
  set s := sort (data.filterMap id) with hs
  generalize hkk : ⌈area / pixArea sky data.length⌉₊ = k at hk hpos
  rw [List.take_reverse, min_reverse]
  cases h : (s.drop (s.length - k)).min? with
  | none =>
    rw [List.min?_eq_none_iff] at h
    have := congrArg List.length h
    simp only [List.length_drop, List.length_nil] at this
    omega
  | some t =>
    obtain ⟨h1, h2, h3⟩ := top_min s (sort_sorted _) k hk t h
    refine ⟨t, rfl, ?_, ?_, ?_⟩
    · have := hperm.mem_iff.mp h1
      simpa using this
    · unfold areaOf
      rw [← hp', ← hperm.countP_eq]
      exact pixels_enough hp hkk.symm h2
    · intro t' ht
      unfold areaOf
      rw [← hp', ← hperm.countP_eq]
      apply pixels_short hp hkk.symm
      refine lt_of_le_of_lt ?_ h3
      apply List.countP_mono_left
      intro x _ hx
      simp only [decide_eq_true_eq] at hx ⊢
      exact lt_of_lt_of_le ht hx

/-- "Smaller is better". -/
theorem areaSummary_increasing (sky area : K) (data : List (Option K)) (hsky : 0 < sky) (ha : 0 < area)
    (henough : area ≤ sky / (data.length : K) * ((data.filterMap id).length : K)) :
    ∃ t, areaSummary sky area false data = some t ∧ some t ∈ data ∧
      area ≤ areaOf sky data (fun v => decide (v ≤ t)) ∧
      ∀ t', t' < t → areaOf sky data (fun v => decide (v ≤ t')) < area := by
  have hlen : 0 < data.length := by
    by_contra h
    have : data.length = 0 := by omega
    rw [this] at henough
    simp at henough
    linarith
  have hp : 0 < pixArea sky data.length := div_pos hsky (by exact_mod_cast hlen)
  have hp' : pixArea sky data.length = sky / (data.length : K) := rfl
  have hperm := sort_perm (data.filterMap id)
  have hk : ⌈area / pixArea sky data.length⌉₊ ≤ (sort (data.filterMap id)).length := by
    rw [sort_length, Nat.ceil_le, div_le_iff₀ hp]
    rw [mul_comm]
    exact henough
  have hpos := need_pos ha hp
  unfold areaSummary
  simp only [Bool.false_eq_true, if_false]
  set s := sort (data.filterMap id) with hs
  generalize hkk : ⌈area / pixArea sky data.length⌉₊ = k at hk hpos
  cases h : (s.take k).max? with
  | none =>
    rw [List.max?_eq_none_iff] at h
    have := congrArg List.length h
    simp only [List.length_take, List.length_nil] at this
    omega
  | some t =>
    obtain ⟨h1, h2, h3⟩ := bottom_max s (sort_sorted _) k hk t h
    refine ⟨t, rfl, ?_, ?_, ?_⟩
    · have := hperm.mem_iff.mp h1
      simpa using this
    · unfold areaOf
      rw [← hp', ← hperm.countP_eq]
      exact pixels_enough hp hkk.symm h2
    · intro t' ht
      unfold areaOf
      rw [← hp', ← hperm.countP_eq]
      apply pixels_short hp hkk.symm
      refine lt_of_le_of_lt ?_ h3
      apply List.countP_mono_left
      intro x _ hx
      simp only [decide_eq_true_eq] at hx ⊢
      exact lt_of_le_of_lt hx ht

/-- Without enough values the area is not checked: the result is the worst value, though
it is not reached on the wanted area. -/
theorem areaSummary_short (sky area : K) (data : List (Option K)) (hsky : 0 < sky) (hne : data.filterMap id ≠ [])
    (hshort : sky / (data.length : K) * ((data.filterMap id).length : K) < area) :
    areaSummary sky area true data = (data.filterMap id).min? ∧
    areaSummary sky area false data = (data.filterMap id).max? ∧
    ∀ p, areaOf sky data p < area := by
  have hlen : 0 < data.length := by
    apply List.length_pos_of_ne_nil
    rintro rfl
    simp at hne
  have hp : 0 < pixArea sky data.length := div_pos hsky (by exact_mod_cast hlen)
  have hp' : pixArea sky data.length = sky / (data.length : K) := rfl
  have hperm := sort_perm (data.filterMap id)
  have hk : (sort (data.filterMap id)).length ≤ ⌈area / pixArea sky data.length⌉₊ := by
    apply le_of_lt
    rw [sort_length, Nat.lt_ceil, lt_div_iff₀ hp]
    rw [mul_comm]
    exact hshort
  refine ⟨?_, ?_, ?_⟩
  · unfold areaSummary
    simp only [if_true]
    rw [List.take_of_length_le (by simpa using hk), min_reverse]
    cases h : (data.filterMap id).min? with
    | none => exact absurd (List.min?_eq_none_iff.mp h) hne
    | some t =>
      rw [List.min?_eq_some_iff] at h ⊢
      exact ⟨hperm.mem_iff.mpr h.1, fun b hb => h.2 b (hperm.mem_iff.mp hb)⟩
  · unfold areaSummary
    simp only [Bool.false_eq_true, if_false]
    rw [List.take_of_length_le hk]
    cases h : (data.filterMap id).max? with
    | none => exact absurd (List.max?_eq_none_iff.mp h) hne
    | some t =>
      rw [List.max?_eq_some_iff] at h ⊢
      exact ⟨hperm.mem_iff.mpr h.1, fun b hb => h.2 b (hperm.mem_iff.mp hb)⟩
  · intro p
    refine lt_of_le_of_lt ?_ hshort
    unfold areaOf
    apply mul_le_mul_of_nonneg_left _ (le_of_lt (hp' ▸ hp))
    exact_mod_cast List.countP_le_length

example : areaSummary (K := ℚ) 40 20 true [some 3, none, some 7, some 5] = some 5 := by decide +kernel
example : areaSummary (K := ℚ) 40 20 false [some 3, none, some 7, some 5] = some 5 := by decide +kernel
example : areaSummary (K := ℚ) 40 40 true [some 3, none, some 7, some 5] = some 3 := by decide +kernel

/-! ## C91 -/

theorem foNv_min {scale asky : K} {data : List K} {m t : K} (hs : 0 < scale) (ha : 0 < asky)
    (h : foNv scale asky data = some (m, t)) :
    t ∈ data ∧ ⌈asky / scale⌉₊ ≤ data.countP (fun x => decide (t ≤ x)) ∧
      data.countP (fun x => decide (t < x)) < ⌈asky / scale⌉₊ := by
  have hpos := need_pos ha hs
  unfold foNv at h
  simp only at h
  split at h
  · cases h
  · rename_i hlen
    generalize hk : ⌈asky / scale⌉₊ = k at *
    have hperm := sort_perm data
    split at h
    · rename_i m' l' hm hl
      simp only [Option.some.injEq, Prod.mk.injEq] at h
      obtain ⟨rfl, rfl⟩ := h
      rw [lastN, if_neg (by omega)] at hl
      obtain ⟨h1, h2, h3⟩ := top_min (sort data) (sort_sorted _) k (by rw [sort_length]; omega) _ hl
      rw [hperm.countP_eq] at h2 h3
      exact ⟨hperm.mem_iff.mp h1, h2, h3⟩
    · cases h

/-- FONv and FOArea are two sides of one statement: the smallest number of visits on
the best `asky` is at least `v` exactly if at least `asky` has `v` visits. -/
theorem foNv_foArea (scale asky v m t : K) (data : List K) (hs : 0 < scale) (ha : 0 < asky)
    (h : foNv scale asky data = some (m, t)) :
    v ≤ t ↔ ∃ a, foArea scale v data = some a ∧ asky ≤ a := by
  obtain ⟨_, h2, h3⟩ := foNv_min hs ha h
  have hpos := need_pos ha hs
  have hcount : ((sort data).filter (fun x => decide (v ≤ x))).length = data.countP (fun x => decide (v ≤ x)) := by
    rw [← List.countP_eq_length_filter, (sort_perm data).countP_eq]
  generalize hk : ⌈asky / scale⌉₊ = k at *
  unfold foArea
  simp only [hcount]
  constructor
  · intro hv
    have hle : k ≤ data.countP (fun x => decide (v ≤ x)) := by
      refine le_trans h2 ?_
      apply List.countP_mono_left
      intro x _ hx
      simp only [decide_eq_true_eq] at hx ⊢
      exact le_trans hv hx
    rw [if_neg (by omega)]
    refine ⟨_, rfl, ?_⟩
    rw [mul_comm]
    exact pixels_enough hs hk.symm hle
  · rintro ⟨a, ha1, ha2⟩
    by_contra hlt
    push Not at hlt
    have hle : data.countP (fun x => decide (v ≤ x)) < k := by
      refine lt_of_le_of_lt ?_ h3
      apply List.countP_mono_left
      intro x _ hx
      simp only [decide_eq_true_eq] at hx ⊢
      exact lt_of_lt_of_le hlt hx
    have := pixels_short hs hk.symm hle
    split at ha1
    · cases ha1
    · rw [Option.some.injEq, mul_comm] at ha1
      linarith

/-- FONv is bad exactly if the data do not cover the area. -/
theorem foNv_bad (scale asky : K) (data : List K) (hs : 0 < scale) (ha : 0 < asky) :
    foNv scale asky data = none ↔ scale * data.length < asky := by
  have hpos := need_pos ha hs
  unfold foNv
  simp only
  have hiff : data.length < ⌈asky / scale⌉₊ ↔ scale * data.length < asky := by
    rw [Nat.lt_ceil, lt_div_iff₀ hs, mul_comm]
  rw [← hiff]
  generalize hk : ⌈asky / scale⌉₊ = k at *
  by_cases hl : data.length < k
  · simp [hl]
  · rw [if_neg hl]
    simp only [hl, iff_false]
    have htl : (lastN (sort data) k).length = k := by
      rw [lastN, if_neg (by omega), List.length_drop, sort_length]
      omega
    have hml : (sort (lastN (sort data) k)).length = k := by rw [sort_length, htl]
    cases hm : (lastN (sort data) k).min? with
    | none =>
      rw [List.min?_eq_none_iff] at hm
      rw [hm] at htl
      simp at htl
      omega
    | some l =>
      have : ∃ m, median (lastN (sort data) k) = some m := by
        unfold median
        simp only [hml]
        rw [List.getElem?_eq_getElem (by rw [hml]; omega), List.getElem?_eq_getElem (by rw [hml]; omega)]
        exact ⟨_, rfl⟩
      obtain ⟨m, hm'⟩ := this
      simp [hm']

/-- The median is not below the minimum. -/
theorem foNv_median (scale asky m t : K) (data : List K) (h : foNv scale asky data = some (m, t)) : t ≤ m := by
  unfold foNv at h
  simp only at h
  split at h
  · cases h
  · split at h
    · rename_i m' l' hm hl
      simp only [Option.some.injEq, Prod.mk.injEq] at h
      obtain ⟨rfl, rfl⟩ := h
      rw [List.min?_eq_some_iff] at hl
      unfold median at hm
      simp only at hm
      split at hm
      · rename_i a b ha hb
        simp only [Option.some.injEq] at hm
        have h1 := hl.2 a ((sort_perm _).mem_iff.mp (List.mem_of_getElem? ha))
        have h2 := hl.2 b ((sort_perm _).mem_iff.mp (List.mem_of_getElem? hb))
        rw [← hm, le_div_iff₀ (by norm_num)]
        linarith
      · cases hm
    · cases h

/-- Where no pixel has enough visits, FOArea is not zero but bad. -/
theorem foArea_bad (scale v : K) (data : List K) : foArea scale v data = none ↔ ∀ x ∈ data, x < v := by
  unfold foArea
  simp only
  have : ((sort data).filter (fun x => decide (v ≤ x))).length = 0 ↔ ∀ x ∈ data, x < v := by
    rw [List.length_eq_zero_iff, List.filter_eq_nil_iff]
    simp only [decide_eq_true_eq, not_le]
    exact forall_congr' fun x => by rw [(sort_perm data).mem_iff]
  rw [← this]
  split <;> simp_all

example : foNv (K := ℚ) 10 25 [3, 9, 7, 5, 1] = some (7, 5) := by decide +kernel
example : foArea (K := ℚ) 10 5 [3, 9, 7, 5, 1] = some 30 := by decide +kernel

/-! ## C92 -/

/-- A pixel with a value within the limits that are given. -/
def Within (upper lower : Option K) (x : Option K) : Prop :=
  ∃ v, x = some v ∧ (∀ u, upper = some u → v < u) ∧ (∀ l, lower = some l → l < v)

/-- The intended meaning of `AreaThresholdMetric`. -/
def ThresholdArea : Prop :=
  ∀ (sky : ℚ) (upper lower : Option ℚ) (data : List (Option ℚ)) (p : Option ℚ → Bool),
    (∀ x, p x = true ↔ Within upper lower x) →
    areaThreshold sky upper lower data = sky / (data.length : ℚ) * (data.countP p : ℚ)

/-- With a limit, or if all pixels have a value, the area is that of the pixels within
the limits. -/
theorem threshold_partial (sky : K) (upper lower : Option K) (data : List (Option K))
    (h : (upper.isSome ∨ lower.isSome) ∨ ∀ x ∈ data, x.isSome) (p : Option K → Bool)
    (hp : ∀ x, p x = true ↔ Within upper lower x) :
    areaThreshold sky upper lower data = sky / (data.length : K) * (data.countP p : K) := by
  unfold areaThreshold
  simp only [pixArea]
  congr 2
  cases upper with
  | none =>
    cases lower with
    | none =>
      symm
      simp only
      rw [List.countP_eq_length]
      intro x hx
      rw [hp]
      rcases h with h | h
      · simp at h
      · obtain ⟨v, rfl⟩ := Option.isSome_iff_exists.mp (h x hx)
        exact ⟨v, rfl, by simp, by simp⟩
    | some l =>
      apply List.countP_congr
      intro x _
      rw [hp]
      cases x <;> simp [Within]
  | some u =>
    cases lower with
    | none =>
      apply List.countP_congr
      intro x _
      rw [hp]
      cases x <;> simp [Within]
    | some l =>
      apply List.countP_congr
      intro x _
      rw [hp]
      cases x <;> simp [Within, and_comm]

/-- Without limits pixels without a value are counted. -/
theorem threshold_all (sky : K) (data : List (Option K)) (hne : data ≠ []) : areaThreshold sky none none data = sky := by
  unfold areaThreshold
  simp only [pixArea]
  have : (data.length : K) ≠ 0 := by
    have := List.length_pos_of_ne_nil hne
    positivity
  field_simp

theorem threshold_false : ¬ ThresholdArea := by
  intro h
  have := h 1 none none [none, some 1] Option.isSome (by
    intro x
    cases x with
    | none => simp [Within]
    | some v => simp [Within])
  rw [threshold_all 1 _ (by simp)] at this
  norm_num at this

omit [FloorRing K] in
/-- The covered part of the footprint is a fraction, and one exactly if all of it has the
required number of visits. -/
theorem footprint_spec (nMin : K) (pixels : List (K × K)) (hne : ∃ p ∈ pixels, 0 < p.1) :
    0 ≤ footprintFraction nMin pixels ∧ footprintFraction nMin pixels ≤ 1 ∧
      (footprintFraction nMin pixels = 1 ↔ ∀ p ∈ pixels, 0 < p.1 → nMin ≤ p.2) ∧
      (footprintFraction nMin pixels = 0 ↔ ∀ p ∈ pixels, 0 < p.1 → p.2 < nMin) := by
  unfold footprintFraction
  set a := pixels.countP (fun p => decide (0 < p.1) && decide (nMin ≤ p.2)) with ha
  set b := pixels.countP (fun p => decide (0 < p.1)) with hb
  have hb0 : 0 < b := by
    obtain ⟨p, hp, h0⟩ := hne
    exact List.countP_pos_iff.mpr ⟨p, hp, by simpa using h0⟩
  have hab : a ≤ b := by
    apply List.countP_mono_left
    intro x _ hx
    simp only [Bool.and_eq_true] at hx
    exact hx.1
  have hbK : (0 : K) < b := by exact_mod_cast hb0
  refine ⟨by positivity, ?_, ?_, ?_⟩
  · rw [div_le_one hbK]
    exact_mod_cast hab
  · rw [div_eq_one_iff_eq (ne_of_gt hbK)]
    have : b = a + pixels.countP (fun p => decide (0 < p.1) && decide (p.2 < nMin)) := by
      rw [ha, hb]
      clear ha hb hb0 hab hbK hne a b
      induction pixels with
      | nil => rfl
      | cons p l ih =>
        simp only [List.countP_cons, ih]
        by_cases h1 : 0 < p.1
        · by_cases h2 : nMin ≤ p.2
          · simp [h1, h2, not_lt.mpr h2]; omega
          · simp [h1, h2, not_le.mp h2]; omega
        · simp [h1]
    have h0 : ((a : K) = b) ↔ pixels.countP (fun p => decide (0 < p.1) && decide (p.2 < nMin)) = 0 := by
      rw [Nat.cast_inj]
      omega
    rw [h0, List.countP_eq_zero]
    simp
  · rw [div_eq_zero_iff]
    simp only [Nat.cast_eq_zero, Nat.pos_iff_ne_zero.mp hb0, or_false]
    rw [ha, List.countP_eq_zero]
    simp

example : footprintFraction (K := ℚ) 2 [(1, 3), (1, 1), (0, 5), (2, 2)] = 2 / 3 := by decide +kernel
example : areaThreshold (K := ℚ) 40 (some 8) (some 3) [some 3, none, some 7, some 5] = 20 := by decide +kernel

end Verif.Area
