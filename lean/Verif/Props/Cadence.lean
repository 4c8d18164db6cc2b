import Mathlib.Algebra.Order.Field.Basic
import Mathlib.Algebra.Order.Floor.Ring
import Mathlib.Data.Rat.Cast.Order
import Mathlib.Tactic.Linarith
import Mathlib.Tactic.Ring
import Mathlib.Tactic.NormNum
import Mathlib.Tactic.Positivity
import Mathlib.Tactic.FieldSimp
import Verif.Model.Gaps
import Verif.Lemmas.NumpyMore

/-! # C86-C87: templates and uniformity -/

namespace Verif.Gaps

open Verif.Np

/-! ## C86 -/

section Template

/-- Visit `i` comes after one of the same or better seeing. -/
def hasTemplate {K : Type*} [LE K] (s : List K) (i : Nat) : Prop :=
  ∃ j x y, j < i ∧ s[j]? = some x ∧ s[i]? = some y ∧ x ≤ y

theorem scanl_min {K : Type*} [LinearOrder K] (a : K) (l : List K) (i : Nat) (m : K) (h : (l.scanl min a)[i]? = some m) (v : K) :
    m ≤ v ↔ ∃ j x, j ≤ i ∧ (a :: l)[j]? = some x ∧ x ≤ v := by
  induction l generalizing a i with
  | nil =>
    cases i with
    | zero =>
      simp at h
      subst h
      constructor
      · intro h; exact ⟨0, a, le_refl _, rfl, h⟩
      · rintro ⟨j, x, hj, hx, h⟩
        have : j = 0 := by omega
        subst this
        simp at hx
        rwa [hx]
    | succ i => simp at h
  | cons b l ih =>
    rw [List.scanl_cons] at h
    cases i with
    | zero =>
      simp at h
      subst h
      constructor
      · intro h; exact ⟨0, a, le_refl _, rfl, h⟩
      · rintro ⟨j, x, hj, hx, h⟩
        have : j = 0 := by omega
        subst this
        simp at hx
        rwa [hx]
    | succ i =>
      simp only [List.getElem?_cons_succ] at h
      rw [ih (min a b) i h]
      constructor
      · rintro ⟨j, x, hj, hx, hle⟩
        cases j with
        | zero =>
          simp only [List.getElem?_cons_zero, Option.some.injEq] at hx
          subst hx
          rcases min_le_iff.mp hle with h | h
          · exact ⟨0, a, by omega, rfl, h⟩
          · exact ⟨1, b, by omega, rfl, h⟩
        | succ j => exact ⟨j + 2, x, by omega, by simpa using hx, hle⟩
      · rintro ⟨j, x, hj, hx, hle⟩
        match j with
        | 0 =>
          simp only [List.getElem?_cons_zero, Option.some.injEq] at hx
          subst hx
          exact ⟨0, min a b, by omega, rfl, le_trans (min_le_left _ _) hle⟩
        | 1 =>
          simp at hx
          subst hx
          exact ⟨0, min a b, by omega, rfl, le_trans (min_le_right _ _) hle⟩
        | j + 2 => exact ⟨j + 1, x, by omega, by simpa using hx, hle⟩

theorem roll_one_drop {K : Type*} (xs : List K) (h : 2 ≤ xs.length) : (roll xs 1).drop 1 = xs.dropLast := by
  unfold roll
  rw [Nat.mod_eq_of_lt (by omega)]
  simp only
  rw [List.drop_append, List.drop_eq_nil_of_le (by rw [List.length_drop]; omega), List.nil_append, List.length_drop,
    show 1 - (xs.length - (xs.length - 1)) = 0 by omega, List.drop_zero, List.dropLast_eq_take]

theorem templateCount_zip {K : Type*} [LinearOrder K] [AddCommGroup K] [IsOrderedAddMonoid K] (a : K) (l : List K) :
    templateCount (a :: l) = (List.zipWith (fun x y => decide (y ≤ x)) l (l.scanl min a)).countP id := by
  unfold templateCount
  have hlen : (minAccumulate (a :: l)).length = l.length + 1 := by simp [minAccumulate]
  cases l with
  | nil => simp [roll, minAccumulate]
  | cons b l =>
    rw [List.drop_zipWith, roll_one_drop _ (by rw [hlen]; simp)]
    simp only [List.drop_one, List.tail_cons]
    have e : List.zipWith (fun x y => decide (y ≤ x)) (b :: l) ((b :: l).scanl min a) =
        List.zipWith (fun x y => decide (y ≤ x)) (b :: l) (minAccumulate (a :: b :: l)).dropLast := by
      conv_lhs => rw [List.zipWith_eq_zipWith_take_min]
      conv_rhs => rw [List.zipWith_eq_zipWith_take_min]
      rw [List.length_dropLast, hlen, List.length_scanl, List.dropLast_eq_take, hlen, List.take_take]
      simp [minAccumulate]
    rw [e]
    generalize (minAccumulate (a :: b :: l)).dropLast = m
    generalize b :: l = k
    induction k generalizing m with
    | nil => rfl
    | cons x k ih =>
      cases m with
      | nil => rfl
      | cons y m =>
        rw [List.zipWith_cons_cons, List.zipWith_cons_cons, List.countP_cons, List.countP_cons, ih]
        simp

theorem countP_zipWith_range {α β : Type*} (f : α → β → Bool) (l : List α) (m : List β) (h : l.length ≤ m.length) :
    (List.zipWith f l m).countP id =
      (List.range l.length).countP (fun i => match l[i]?, m[i]? with | some x, some y => f x y | _, _ => false) := by
  induction l generalizing m with
  | nil => rfl
  | cons x l ih =>
    cases m with
    | nil => simp at h
    | cons y m =>
      rw [List.zipWith_cons_cons, List.countP_cons, ih m (by simpa using h), List.length_cons, List.range_succ_eq_map,
        List.countP_cons, List.countP_map]
      rfl

/-- **C86.** `TemplateExists` is the fraction of visits that come after one of the same or
better seeing. -/
theorem template_spec {K : Type*} [Field K] [LinearOrder K] [IsStrictOrderedRing K] (s : List K) (hs : s ≠ []) :
    ∃ p : Nat → Bool, (∀ i, p i = true ↔ hasTemplate s i) ∧
      templateExists s = some (((List.range s.length).countP p : K) / (s.length : K)) := by
  classical
  refine ⟨fun i => decide (hasTemplate s i), fun i => by simp, ?_⟩
  unfold templateExists
  rw [if_neg (by simpa using hs)]
  congr 3
  match s, hs with
  | a :: l, _ =>
    rw [templateCount_zip, countP_zipWith_range _ _ _ (by rw [List.length_scanl]; omega), List.length_cons,
      List.range_succ_eq_map, List.countP_cons, List.countP_map]
    have h0 : ¬ hasTemplate (a :: l) 0 := by
      rintro ⟨j, x, y, hj, _⟩
      omega
    rw [if_neg (by simpa using h0), Nat.add_zero]
    apply List.countP_congr
    intro i hi
    have hi := List.mem_range.mp hi
    have hi2 : i < (l.scanl min a).length := by rw [List.length_scanl]; omega
    rw [List.getElem?_eq_getElem hi, List.getElem?_eq_getElem hi2]
    simp only [Function.comp, decide_eq_true_eq]
    rw [scanl_min a l i _ (List.getElem?_eq_getElem hi2) l[i]]
    unfold hasTemplate
    constructor
    · rintro ⟨j, x, hj, hx, hle⟩
      exact ⟨j, x, l[i], by omega, hx, by simp [hi], hle⟩
    · rintro ⟨j, x, y, hj, hx, hy, hle⟩
      refine ⟨j, x, by omega, hx, ?_⟩
      simp [hi] at hy
      rwa [hy]

example : templateExists ([3, 4, 2, 2, 1, 5] : List Rat) = some (1 / 2) := by decide +kernel

end Template

/-! ## C87 -/

section Uniform
variable {K : Type*} [Field K] [LinearOrder K] [IsStrictOrderedRing K]

theorem maxAbs_le (l : List K) (m b : K) (h : maxAbs l = some m) : m ≤ b ↔ ∀ x ∈ l, |x| ≤ b := by
  unfold maxAbs at h
  rw [List.max?_eq_some_iff] at h
  constructor
  · intro hb x hx
    exact le_trans (h.2 _ (List.mem_map_of_mem hx)) hb
  · intro hb
    obtain ⟨x, hx, rfl⟩ := List.mem_map.mp h.1
    exact hb x hx

theorem maxAbs_nonneg (l : List K) (m : K) (h : maxAbs l = some m) : 0 ≤ m := by
  unfold maxAbs at h
  rw [List.max?_eq_some_iff] at h
  obtain ⟨x, _, rfl⟩ := List.mem_map.mp h.1
  exact abs_nonneg x

theorem maxAbs_isSome (l : List K) (h : l ≠ []) : ∃ m, maxAbs l = some m := by
  cases hm : maxAbs l with
  | none =>
    unfold maxAbs at hm
    rw [List.max?_eq_none_iff] at hm
    simp at hm
    exact absurd hm h
  | some m => exact ⟨m, rfl⟩

theorem uniformityOf_some (dates : List K) (h : 2 ≤ dates.length) : ∃ d1 m, dates[1]? = some d1 ∧ uniformityOf dates = some m := by
  have h1 : dates[1]? = some dates[1] := List.getElem?_eq_getElem (by omega)
  unfold uniformityOf
  rw [h1]
  obtain ⟨m, hm⟩ := maxAbs_isSome (dates.zipIdx.map (fun e : K × Nat => ((e.2 : K) + (1 : K)) / (dates.length : K) - e.1 - dates[1])) (by
    intro he
    have := congrArg List.length he
    simp at this
    rw [this] at h
    simp at h)
  exact ⟨_, m, rfl, hm⟩

theorem uniformityOf_le {dates : List K} {d1 m : K} (h1 : dates[1]? = some d1) (hm : uniformityOf dates = some m) (b : K) :
    m ≤ b ↔ ∀ (i : Nat) (d : K), dates[i]? = some d → |((i : K) + 1) / (dates.length : K) - d - d1| ≤ b := by
  unfold uniformityOf at hm
  rw [h1] at hm
  rw [maxAbs_le _ m b hm]
  constructor
  · intro h i d hd
    refine h _ (List.mem_map.mpr ⟨(d, i), ?_, rfl⟩)
    exact List.mem_zipIdx_iff_getElem?.mpr hd
  · intro h x hx
    obtain ⟨⟨d, i⟩, hp, rfl⟩ := List.mem_map.mp hx
    exact h i d (List.mem_zipIdx_iff_getElem?.mp hp)

theorem uniformity_eq (len : K) (mjds : List K) (h : 2 ≤ mjds.length) :
    ∃ lo, mjds.min? = some lo ∧ uniformity len mjds = uniformityOf (sort (mjds.map (fun t => (t - lo) / len))) := by
  cases hm : mjds.min? with
  | none => rw [List.min?_eq_none_iff] at hm; rw [hm] at h; simp at h
  | some lo =>
    refine ⟨lo, rfl, ?_⟩
    unfold uniformity
    rw [if_neg (by omega), hm]

theorem sorted_getElem?_zero {xs : List K} (hs : xs.Pairwise (· ≤ ·)) {x0 : K} (h : xs[0]? = some x0) : ∀ x ∈ xs, x0 ≤ x := by
  cases xs with
  | nil => simp at h
  | cons a l =>
    simp at h
    subst h
    intro x hx
    rcases List.mem_cons.mp hx with rfl | hx
    · exact le_refl _
    · exact (List.pairwise_cons.mp hs).1 x hx

/-- **C87.** Two or more visits are perfectly uniform (value zero) exactly if, in order of
time, visit `i` of `n` comes `i / n` of the survey length after the first one. -/
theorem uniformity_zero_iff (len : K) (hl : 0 < len) (mjds : List K) (h : 2 ≤ mjds.length) :
    uniformity len mjds = some 0 ↔
      ∀ (i : Nat) (t t0 : K), (sort mjds)[i]? = some t → (sort mjds)[0]? = some t0 →
        t - t0 = (i : K) / (mjds.length : K) * len := by
  obtain ⟨lo, hlo, he⟩ := uniformity_eq len mjds h
  have hmono : sort (mjds.map (fun t => (t - lo) / len)) = (sort mjds).map (fun t => (t - lo) / len) := by
    rw [sort_eq_of_perm ((sort_perm mjds).symm.map _)]
    apply sort_eq_self
    rw [List.pairwise_map]
    refine (sort_sorted mjds).imp ?_
    intro a b hab
    exact (div_le_div_iff_of_pos_right hl).mpr (by linarith)
  have hlen : (sort mjds).length = mjds.length := sort_length mjds
  have h0 : (sort mjds)[0]? = some lo := by
    rw [List.min?_eq_some_iff] at hlo
    have hx : (sort mjds)[0]? = some (sort mjds)[0] := List.getElem?_eq_getElem (by omega)
    rw [hx]
    congr 1
    apply le_antisymm
    · exact sorted_getElem?_zero (sort_sorted mjds) hx lo ((sort_perm mjds).mem_iff.mpr hlo.1)
    · exact hlo.2 _ ((sort_perm mjds).mem_iff.mp (List.getElem_mem _))
  rw [he, hmono]
  have hn : (0 : K) < (mjds.length : K) := by exact_mod_cast (by omega : 0 < mjds.length)
  obtain ⟨d1, m, h1, hm⟩ := uniformityOf_some ((sort mjds).map (fun t => (t - lo) / len)) (by rw [List.length_map]; omega)
  rw [hm]
  have hle := uniformityOf_le h1 hm 0
  have hm0 : 0 ≤ m := by
    unfold uniformityOf at hm
    rw [h1] at hm
    exact maxAbs_nonneg _ _ hm
  have hlm : ((sort mjds).map (fun t => (t - lo) / len)).length = mjds.length := by rw [List.length_map, hlen]
  rw [hlm] at hle
  have hz : some m = some (0 : K) ↔ m ≤ 0 := by
    rw [Option.some.injEq]
    exact ⟨fun h => le_of_eq h, fun h => le_antisymm h hm0⟩
  rw [hz, hle]
  have habs : ∀ x : K, |x| ≤ 0 ↔ x = 0 := fun x => abs_nonpos_iff
  simp only [habs, List.getElem?_map, Option.map_eq_some_iff] at *
  obtain ⟨t1, ht1, rfl⟩ := h1
  constructor
  · intro hall i t t0 ht ht0
    rw [h0, Option.some.injEq] at ht0
    subst ht0
    have a0 := hall 0 ((lo - lo) / len) ⟨lo, h0, rfl⟩
    have ai := hall i ((t - lo) / len) ⟨t, ht, rfl⟩
    simp only [sub_self, zero_div, Nat.cast_zero, zero_add, sub_zero] at a0
    have hd : (t1 - lo) / len = 1 / (mjds.length : K) := by linarith
    rw [hd] at ai
    have e : (t - lo) / len = (i : K) / (mjds.length : K) := by
      rw [add_div] at ai
      linarith
    rw [div_eq_iff (ne_of_gt hl)] at e
    exact e
  · intro hall i d hd
    obtain ⟨t, ht, rfl⟩ := hd
    rw [hall i t lo ht h0, hall 1 t1 lo ht1 h0]
    field_simp
    push_cast
    ring

/-- A measure between perfectly uniform, 0, and perfectly non-uniform, 1. -/
def InUnit (v : Option K) : Prop := ∃ x, v = some x ∧ 0 ≤ x ∧ x ≤ 1

/-- **C87**, refuted: a first visit and two at the end of the survey. -/
theorem uniformity_above_one : ¬ InUnit (uniformity (10 : Rat) [0, 10, 10]) := by
  rintro ⟨x, hx, _, h1⟩
  have : uniformity (10 : Rat) [0, 10, 10] = some (4 / 3) := by decide +kernel
  rw [this, Option.some.injEq] at hx
  subst hx
  norm_num at h1

/-- **C87**, what holds: within the survey length the value is between 0 and 2. -/
theorem uniformity_partial (len : K) (hl : 0 < len) (mjds : List K) (h : 2 ≤ mjds.length)
    (hin : ∀ t ∈ mjds, ∀ u ∈ mjds, u - t ≤ len) : ∃ v, uniformity len mjds = some v ∧ 0 ≤ v ∧ v ≤ 2 := by
  obtain ⟨lo, hlo, he⟩ := uniformity_eq len mjds h
  rw [List.min?_eq_some_iff] at hlo
  rw [he]
  have hlen : (sort (mjds.map (fun t => (t - lo) / len))).length = mjds.length := by rw [sort_length, List.length_map]
  obtain ⟨d1, m, h1, hm⟩ := uniformityOf_some (sort (mjds.map (fun t => (t - lo) / len))) (by omega)
  have hmem : ∀ d ∈ sort (mjds.map (fun t => (t - lo) / len)), 0 ≤ d ∧ d ≤ 1 := by
    intro d hd
    rw [(sort_perm _).mem_iff] at hd
    obtain ⟨t, ht, rfl⟩ := List.mem_map.mp hd
    constructor
    · exact div_nonneg (sub_nonneg.mpr (hlo.2 t ht)) (le_of_lt hl)
    · rw [div_le_one hl]; exact hin lo hlo.1 t ht
  refine ⟨m, hm, ?_, ?_⟩
  · unfold uniformityOf at hm
    rw [h1] at hm
    exact maxAbs_nonneg _ _ hm
  · rw [uniformityOf_le h1 hm, hlen]
    intro i d hd
    have hi : i < mjds.length := by
      rw [← hlen]
      exact (List.getElem?_eq_some_iff.mp hd).1
    have hn : (0 : K) < (mjds.length : K) := by exact_mod_cast (by omega : 0 < mjds.length)
    have hf : 0 ≤ ((i : K) + 1) / (mjds.length : K) ∧ ((i : K) + 1) / (mjds.length : K) ≤ 1 := by
      constructor
      · positivity
      · rw [div_le_one hn]
        exact_mod_cast hi
    obtain ⟨a1, a2⟩ := hmem d (List.mem_of_getElem? hd)
    obtain ⟨b1, b2⟩ := hmem d1 (List.mem_of_getElem? h1)
    rw [abs_le]
    constructor <;> linarith

example : uniformity (12 : Rat) [5, 2, 11, 8] = some 0 := by decide +kernel

/-- Documented of `GeneralUniformityMetric`: values evenly spaced from the minimum to the
maximum give zero. -/
def GeneralZero (minV maxV : Option K) : Prop :=
  ∀ lo step : K, ∀ n : Nat, 0 < step → 1 ≤ n → (minV = none ∨ minV = some lo) → (maxV = none ∨ maxV = some (lo + n * step)) →
    generalUniformity minV maxV ((List.range (n + 1)).map (fun i : Nat => lo + (i : K) * step)) = some 0

/-- **C87**, refuted: the values are divided by the maximum instead of the range. -/
theorem generalZero_false : ¬ GeneralZero (none : Option Rat) none := by
  intro h
  have h1 := h 1 1 1 (by norm_num) (by norm_num) (Or.inl rfl) (Or.inl rfl)
  have h2 : generalUniformity (none : Option Rat) none ((List.range (1 + 1)).map (fun i : Nat => (1 : Rat) + (i : Rat) * 1)) =
      some (1 / 2) := by decide +kernel
  rw [h2] at h1
  norm_num at h1

/-- **C87**, what holds: with a minimum of zero, evenly spaced values give zero, and in
general the value is in [0, 1] for values between zero and the maximum. -/
theorem general_partial (hi : K) (hpos : 0 < hi) (vals : List K) (h : 2 ≤ vals.length) (hin : ∀ v ∈ vals, 0 ≤ v ∧ v ≤ hi) :
    InUnit (generalUniformity (some 0) (some hi) vals) ∧
    ((∀ (i : Nat) (v : K), (sort vals)[i]? = some v → v = (i : K) / ((vals.length : K) - 1) * hi) →
      generalUniformity (some 0) (some hi) vals = some 0) := by
  have hmono : sort (vals.map (fun v => (v - 0) / hi)) = (sort vals).map (fun v => (v - 0) / hi) := by
    rw [sort_eq_of_perm ((sort_perm vals).symm.map _)]
    apply sort_eq_self
    rw [List.pairwise_map]
    refine (sort_sorted vals).imp ?_
    intro a b hab
    exact (div_le_div_iff_of_pos_right hpos).mpr (by linarith)
  have he : generalUniformity (some 0) (some hi) vals =
      maxAbs ((((sort vals).map (fun v => (v - 0) / hi)).zipIdx).map (fun e => (e.2 : K) / ((vals.length : K) - 1) - e.1)) := by
    unfold generalUniformity
    rw [if_neg (by omega)]
    change maxAbs (((sort (vals.map (fun v => (v - 0) / hi))).zipIdx).map (fun e : K × Nat =>
      (e.2 : K) / (((sort (vals.map (fun v => (v - 0) / hi))).length : K) - 1) - e.1)) = _
    rw [hmono, List.length_map, sort_length]
  have hn : (1 : K) ≤ (vals.length : K) - 1 := by
    have : (2 : K) ≤ (vals.length : K) := by exact_mod_cast h
    linarith
  obtain ⟨m, hm⟩ := maxAbs_isSome ((((sort vals).map (fun v => (v - 0) / hi)).zipIdx).map
    (fun e => (e.2 : K) / ((vals.length : K) - 1) - e.1)) (by
      intro he
      have := congrArg List.length he
      simp [sort_length] at this
      rw [this] at h
      simp at h)
  have hpair : ∀ e ∈ ((sort vals).map (fun v => (v - 0) / hi)).zipIdx,
      ∃ v, (sort vals)[e.2]? = some v ∧ e.1 = v / hi ∧ e.2 < vals.length := by
    rintro ⟨d, i⟩ hp
    have := List.mem_zipIdx_iff_getElem?.mp hp
    rw [List.getElem?_map, Option.map_eq_some_iff] at this
    obtain ⟨v, hv, rfl⟩ := this
    refine ⟨v, hv, by simp, ?_⟩
    rw [← sort_length vals]
    exact (List.getElem?_eq_some_iff.mp hv).1
  rw [he, hm]
  constructor
  · refine ⟨m, rfl, maxAbs_nonneg _ _ hm, (maxAbs_le _ _ _ hm).mpr ?_⟩
    intro x hx
    obtain ⟨e, hp, rfl⟩ := List.mem_map.mp hx
    obtain ⟨v, hv, hd, hi'⟩ := hpair e hp
    obtain ⟨v1, v2⟩ := hin v ((sort_perm vals).mem_iff.mp (List.mem_of_getElem? hv))
    rw [hd]
    have a1 : 0 ≤ v / hi := div_nonneg v1 (le_of_lt hpos)
    have a2 : v / hi ≤ 1 := (div_le_one hpos).mpr v2
    have a3 : 0 ≤ (e.2 : K) / ((vals.length : K) - 1) := by
      apply div_nonneg (Nat.cast_nonneg _)
      linarith
    have a4 : (e.2 : K) / ((vals.length : K) - 1) ≤ 1 := by
      rw [div_le_one (by linarith)]
      have : (e.2 : K) + 1 ≤ (vals.length : K) := by exact_mod_cast hi'
      linarith
    rw [abs_le]
    constructor <;> linarith
  · intro hall
    have : m ≤ 0 := (maxAbs_le _ _ _ hm).mpr (by
      intro x hx
      obtain ⟨e, hp, rfl⟩ := List.mem_map.mp hx
      obtain ⟨v, hv, hd, _⟩ := hpair e hp
      rw [hd, hall _ v hv, mul_div_assoc, div_self (ne_of_gt hpos), mul_one, sub_self, abs_zero])
    rw [le_antisymm this (maxAbs_nonneg _ _ hm)]

example : generalUniformity (some (0 : Rat)) (some 6) [2, 0, 6, 4] = some 0 := by decide +kernel
example : ∀ v ∈ ([2, 0, 6, 4] : List Rat), 0 ≤ v ∧ v ≤ 6 := by decide +kernel

end Uniform

end Verif.Gaps
