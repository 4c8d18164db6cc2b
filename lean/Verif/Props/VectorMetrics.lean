import Mathlib.Algebra.Order.Field.Basic
import Mathlib.Algebra.Order.BigOperators.Group.List
import Mathlib.Tactic.Linarith
import Mathlib.Tactic.Ring
import Mathlib.Tactic.NormNum
import Mathlib.Tactic.Positivity
import Mathlib.Tactic.FieldSimp
import Mathlib.Data.Rat.Cast.Order
import Verif.Model.VectorMetrics
import Verif.Lemmas.NumpyMore

/-! # C88, C89: metrics accumulated over the survey -/

namespace Verif.Vec

open Verif.Np

variable {K V : Type*}

/-- The value of a non-empty list of values joined from the left. -/
def fold1 (f : V → V → V) : List V → Option V
  | [] => none
  | a :: l => some (l.foldl f a)

theorem accumulateFrom_length (f : V → V → V) (a : V) (l : List V) : (accumulateFrom f a l).length = l.length + 1 := by
  induction l generalizing a with
  | nil => rfl
  | cons b l ih => simp [accumulateFrom, ih]

theorem accumulate_length (f : V → V → V) (l : List V) : (accumulate f l).length = l.length := by
  cases l with
  | nil => rfl
  | cons a l => simp [accumulate, accumulateFrom_length]

theorem accumulateFrom_get (f : V → V → V) (a : V) (l : List V) (i : Nat) (h : i ≤ l.length) :
    (accumulateFrom f a l)[i]? = some ((l.take i).foldl f a) := by
  induction l generalizing a i with
  | nil =>
    have : i = 0 := by simpa using h
    subst this
    rfl
  | cons b l ih =>
    cases i with
    | zero => simp [accumulateFrom]
    | succ i => simpa [accumulateFrom] using ih (f a b) i (by simpa using h)

theorem accumulate_get (f : V → V → V) (l : List V) (i : Nat) (h : i < l.length) :
    (accumulate f l)[i]? = fold1 f (l.take (i + 1)) := by
  cases l with
  | nil => simp at h
  | cons a l => simpa [accumulate, fold1] using accumulateFrom_get f a l i (by simpa using Nat.le_of_lt_succ h)

/-! ## C88 -/

section Edges
variable [LinearOrder K]

/-- The accumulated value at an edge: that of the visits up to it. -/
def upTo (f : V → V → V) (rows : List (K × V)) (e : K) : Option V :=
  fold1 f ((rows.filter (fun r => decide (r.1 ≤ e))).map Prod.snd)

/-- The visits up to a time come first. -/
theorem filter_take (rows : List (K × V)) (h : rows.Pairwise (fun a b => a.1 ≤ b.1)) (e : K) :
    rows.filter (fun r => decide (r.1 ≤ e)) = rows.take (rows.countP (fun r => decide (r.1 ≤ e))) := by
  induction rows with
  | nil => rfl
  | cons r rows ih =>
    rw [List.pairwise_cons] at h
    by_cases hr : r.1 ≤ e
    · rw [List.filter_cons_of_pos (by simpa using hr), List.countP_cons_of_pos (by simpa using hr), List.take_succ_cons, ih h.2]
    · have h0 : rows.countP (fun r => decide (r.1 ≤ e)) = 0 := by
        rw [List.countP_eq_zero]
        intro b hb
        simp only [decide_eq_true_eq]
        intro hb'
        exact hr (le_trans (h.1 b hb) hb')
      have h1 : rows.filter (fun r => decide (r.1 ≤ e)) = [] := by
        rw [List.filter_eq_nil_iff]
        exact List.countP_eq_zero.mp h0
      rw [List.filter_cons_of_neg (by simpa using hr), List.countP_cons_of_neg (by simpa using hr), h0, h1]
      rfl

/-- The intended meaning of the accumulated metrics. -/
def AccumulatesUpTo : Prop :=
  ∀ (bins : List ℚ) (l rows : List (ℚ × Nat)), rows ≠ [] → SortedBy Prod.fst l rows →
    atEdges (· + ·) bins rows = (bins.drop 1).map (upTo (· + ·) rows)

/-- What the code gives at an edge with `c` visits up to it: the value of one visit more,
if there is one. It is bad if there is no visit up to the edge, and always if there is
only one visit. -/
theorem accumulate_value (f : V → V → V) (bins : List K) (l rows : List (K × V)) (hne : rows ≠ [])
    (hs : SortedBy Prod.fst l rows) :
    atEdges f bins rows = (bins.drop 1).map (fun e =>
      let c := l.countP (fun r => decide (r.1 ≤ e))
      if c = 0 ∨ l.length = 1 then none else fold1 f ((rows.take (c + 1)).map Prod.snd)) := by
  unfold atEdges
  apply List.map_congr_left
  intro e _
  have hl : l.length = rows.length := hs.perm.length_eq.symm
  have hc : searchsortedRight (rows.map Prod.fst) e = l.countP (fun r => decide (r.1 ≤ e)) := by
    rw [searchsortedRight_eq_countP (by simpa [List.pairwise_map] using hs.sorted), List.countP_map]
    exact hs.perm.countP_eq _
  have hpos : 0 < rows.length := List.length_pos_of_ne_nil hne
  have hcl : l.countP (fun r => decide (r.1 ≤ e)) ≤ rows.length := by
    rw [← hl]
    exact List.countP_le_length
  simp only [hc, accumulate_length, List.length_map, hl]
  generalize l.countP (fun r => decide (r.1 ≤ e)) = c at hcl
  by_cases h1 : rows.length ≤ c
  · rw [if_pos h1]
    by_cases h2 : rows.length = 1
    · simp [h2]
    · rw [if_neg (by omega), if_neg (by omega), accumulate_get _ _ _ (by simp; omega), ← List.map_take]
      congr 2
      rw [List.take_of_length_le (by omega), List.take_of_length_le (by omega)]
  · rw [if_neg h1]
    by_cases h2 : c = 0
    · simp [h2]
    · rw [if_neg h2, if_neg (by omega), accumulate_get _ _ _ (by simp; omega), ← List.map_take]

theorem accumulates_false : ¬ AccumulatesUpTo := by
  intro h
  have := h [0, 5, 20] [(0, 1), (10, 1)] [(0, 1), (10, 1)] (by simp) ⟨List.Perm.refl _, by decide +kernel⟩
  revert this
  decide +kernel

/-- An edge after the last of at least two visits has the right value. -/
theorem accumulate_partial (f : V → V → V) (bins : List K) (l rows : List (K × V)) (h2 : 2 ≤ l.length)
    (hs : SortedBy Prod.fst l rows) (i : Nat) (e : K) (hi : (bins.drop 1)[i]? = some e) (he : ∀ r ∈ l, r.1 ≤ e) :
    (atEdges f bins rows)[i]? = some (upTo f rows e) := by
  have hl : l.length = rows.length := hs.perm.length_eq.symm
  rw [accumulate_value f bins l rows (by rintro rfl; simp at hl; subst hl; simp at h2) hs, List.getElem?_map, hi, Option.map_some]
  have hc : l.countP (fun r => decide (r.1 ≤ e)) = l.length := by
    rw [List.countP_eq_length]
    simpa using he
  simp only [hc]
  rw [if_neg (by omega), List.take_of_length_le (by omega)]
  unfold upTo
  rw [List.filter_eq_self.mpr]
  intro r hr
  simpa using he r (hs.perm.mem_iff.mp hr)

/-- A value that is not bad is that of the visits up to the edge and the next one. -/
theorem accumulate_next (f : V → V → V) (bins : List K) (l rows : List (K × V)) (hne : rows ≠ [])
    (hs : SortedBy Prod.fst l rows) (i : Nat) (e : K) (v : V) (hi : (bins.drop 1)[i]? = some e)
    (hv : (atEdges f bins rows)[i]? = some (some v)) :
    (∀ r ∈ l, r.1 ≤ e) ∧ upTo f rows e = some v ∨
    ∃ w x, upTo f rows e = some w ∧ x ∈ l ∧ e < x.1 ∧ (∀ y ∈ l, e < y.1 → x.1 ≤ y.1) ∧ v = f w x.2 := by
  have hl : l.length = rows.length := hs.perm.length_eq.symm
  rw [accumulate_value f bins l rows hne hs, List.getElem?_map, hi, Option.map_some, Option.some.injEq] at hv
  simp only at hv
  have hcp : l.countP (fun r => decide (r.1 ≤ e)) = rows.countP (fun r => decide (r.1 ≤ e)) := (hs.perm.countP_eq _).symm
  rw [hcp] at hv
  have hft := filter_take rows hs.sorted e
  generalize hc : rows.countP (fun r => decide (r.1 ≤ e)) = c at hv hft
  by_cases h0 : c = 0 ∨ l.length = 1
  · rw [if_pos h0] at hv
    cases hv
  rw [if_neg h0] at hv
  by_cases hall : rows.length ≤ c
  · left
    have hcl : rows.countP (fun r => decide (r.1 ≤ e)) = rows.length := le_antisymm List.countP_le_length (hc ▸ hall)
    constructor
    · intro r hr
      simpa using List.countP_eq_length.mp hcl r (hs.perm.mem_iff.mpr hr)
    · unfold upTo
      rw [hft, List.take_of_length_le hall]
      rw [List.take_of_length_le (by omega)] at hv
      exact hv
  · right
    have hcl : c < rows.length := by omega
    rw [List.take_succ_eq_append_getElem hcl, List.map_append] at hv
    have hup : upTo f rows e = fold1 f ((rows.take c).map Prod.snd) := by rw [upTo, hft]
    have hx : e < rows[c].1 := by
      by_contra hle
      push Not at hle
      have hm : rows[c] ∈ rows.drop c := by
        rw [List.drop_eq_getElem_cons hcl]
        exact List.mem_cons_self
      have hsum : rows.countP (fun r => decide (r.1 ≤ e)) =
          (rows.take c).countP (fun r => decide (r.1 ≤ e)) + (rows.drop c).countP (fun r => decide (r.1 ≤ e)) := by
        rw [← List.countP_append, List.take_append_drop]
      have h1 : (rows.take c).countP (fun r => decide (r.1 ≤ e)) = c := by
        have : (rows.take c).countP (fun r => decide (r.1 ≤ e)) = (rows.take c).length := by
          rw [List.countP_eq_length, ← hft]
          intro a ha
          exact (List.mem_filter.mp ha).2
        rw [this, List.length_take]
        omega
      have h2 : 0 < (rows.drop c).countP (fun r => decide (r.1 ≤ e)) :=
        List.countP_pos_iff.mpr ⟨_, hm, by simpa using hle⟩
      omega
    cases ht : (rows.take c).map Prod.snd with
    | nil =>
      exfalso
      have := congrArg List.length ht
      simp only [List.length_map, List.length_take, List.length_nil] at this
      omega
    | cons a t =>
      rw [ht] at hv hup
      refine ⟨t.foldl f a, rows[c], hup, hs.perm.mem_iff.mp (List.getElem_mem hcl), hx, ?_, ?_⟩
      · intro y hy hye
        have hy' := hs.perm.mem_iff.mpr hy
        obtain ⟨j, hj, rfl⟩ := List.getElem_of_mem hy'
        have hcj : c ≤ j := by
          by_contra hlt
          push Not at hlt
          have : rows[j] ∈ rows.take c := by
            rw [List.mem_take_iff_getElem]
            exact ⟨j, by omega, rfl⟩
          rw [← hft] at this
          have := (List.mem_filter.mp this).2
          simp only [decide_eq_true_eq] at this
          exact absurd hye (not_lt.mpr this)
        rcases Nat.lt_or_eq_of_le hcj with h | h
        · exact List.pairwise_iff_getElem.mp hs.sorted c j hcl hj h
        · subst h
          exact le_rfl
      · simp [fold1, List.foldl_append] at hv
        exact hv.symm

/-- The number of visits is one too many until the last visit. -/
theorem count_value (bins : List K) (l rows : List K) (hne : rows ≠ []) (hs : SortedBy id l rows) :
    countAtEdges bins rows = (bins.drop 1).map (fun e =>
      let c := l.countP (fun k => decide (k ≤ e))
      if c = 0 ∨ l.length = 1 then none else some (min (c + 1) l.length)) := by
  unfold countAtEdges
  rw [accumulate_value (· + ·) bins (l.map (fun k => (k, 1))) (rows.map (fun k => (k, 1))) (by simpa using hne)
    ⟨hs.perm.map _, by simpa [List.pairwise_map] using hs.sorted⟩]
  apply List.map_congr_left
  intro e _
  simp only [List.countP_map, List.length_map]
  have hp : ((fun r : K × Nat => decide (r.1 ≤ e)) ∘ fun k => (k, 1)) = fun k => decide (k ≤ e) := rfl
  rw [hp]
  generalize l.countP (fun k => decide (k ≤ e)) = c
  by_cases h : c = 0 ∨ l.length = 1
  · rw [if_pos h, if_pos h]
  · rw [if_neg h, if_neg h, ← List.map_take, List.map_map]
    have hf : ∀ (t : List K), fold1 (· + ·) (t.map (Prod.snd ∘ fun k => (k, 1))) = if t = [] then none else some t.length := by
      intro t
      cases t with
      | nil => rfl
      | cons a t =>
        have : ∀ (t : List K) (b : Nat), (t.map (Prod.snd ∘ fun k : K => (k, 1))).foldl (· + ·) b = b + t.length := by
          intro t
          induction t with
          | nil => simp
          | cons a t ih => intro b; simp [ih]; omega
        simp only [List.map_cons, fold1, reduceCtorEq, if_false, List.length_cons]
        rw [this]
        simp [Nat.add_comm]
    rw [hf, if_neg, List.length_take, hs.perm.length_eq]
    intro h0
    rcases List.take_eq_nil_iff.mp h0 with h1 | h1
    · omega
    · exact hne h1

example : countAtEdges (K := ℚ) [0, 1, 2, 3, 20] [1, 2, 10] = [some 2, some 3, some 3, some 3] := by decide +kernel
example : countAtEdges (K := ℚ) [0, 5, 20] [1] = [none, none] := by decide +kernel

end Edges

/-! ## C89 -/

section Uniformity
variable [Field K] [LinearOrder K] [IsStrictOrderedRing K]

omit [Field K] [IsStrictOrderedRing K] in
/-- A running maximum. -/
theorem fold_max (a : K) (l : List K) :
    a ≤ l.foldl max a ∧ (∀ x ∈ l, x ≤ l.foldl max a) ∧ (l.foldl max a = a ∨ l.foldl max a ∈ l) := by
  induction l generalizing a with
  | nil => simp
  | cons b l ih =>
    obtain ⟨h1, h2, h3⟩ := ih (max a b)
    simp only [List.foldl_cons]
    refine ⟨le_trans (le_max_left a b) h1, ?_, ?_⟩
    · intro x hx
      rcases List.mem_cons.mp hx with rfl | hx
      · exact le_trans (le_max_right _ _) h1
      · exact h2 x hx
    · rcases h3 with h3 | h3
      · rw [h3]
        rcases max_choice a b with h | h <;> simp [h]
      · exact Or.inr (List.mem_cons_of_mem _ h3)

theorem fold_add (a : Nat) (l : List Nat) : l.foldl (· + ·) a = a + l.sum := by
  induction l generalizing a with
  | nil => simp
  | cons b l ih => simp [ih, Nat.add_assoc]

/-- The visits from the first edge to edge `i + 1`, which counts only if it is the last. -/
def before (bins nights : List K) (i : Nat) : Nat :=
  nights.countP (fun x => bins[0]?.any (fun a => decide (a ≤ x)) &&
    bins[i + 1]?.any (fun b => decide (x < b) || (decide (i + 2 = bins.length) && decide (x = b))))

omit [Field K] [IsStrictOrderedRing K] in
theorem bins_upto (bins : List K) (hs : bins.Pairwise (· ≤ ·)) (x : K) (i : Nat) (hi : i + 1 < bins.length) :
    (List.range (i + 1)).countP (fun i => inBin bins i x) =
      if (bins[0]?.any (fun a => decide (a ≤ x)) &&
        bins[i + 1]?.any (fun b => decide (x < b) || (decide (i + 2 = bins.length) && decide (x = b)))) = true then 1 else 0 := by
  have hle := List.pairwise_iff_getElem.mp hs
  induction i with
  | zero =>
    rw [List.range_succ_eq_map, List.range_zero, List.map_nil, List.countP_cons, List.countP_nil]
    unfold inBin
    rw [List.getElem?_eq_getElem (by omega : 0 < bins.length), List.getElem?_eq_getElem hi]
    simp
  | succ i ih =>
    rw [List.range_succ, List.countP_append, ih (by omega), List.countP_cons, List.countP_nil]
    unfold inBin
    rw [List.getElem?_eq_getElem (by omega : 0 < bins.length), List.getElem?_eq_getElem (by omega : i + 1 < bins.length),
      List.getElem?_eq_getElem hi]
    have h1 : i + 2 ≠ bins.length := by omega
    have ha : bins[0] ≤ bins[i + 1] := hle 0 (i + 1) (by omega) (by omega) (by omega)
    have hb : bins[i + 1] ≤ bins[i + 1 + 1] := hle (i + 1) (i + 1 + 1) (by omega) hi (by omega)
    simp only [Option.any_some, h1, decide_false, Bool.false_and, Bool.or_false, Bool.and_eq_true, decide_eq_true_eq,
      Bool.or_eq_true, Nat.zero_add]
    by_cases hx : x < bins[i + 1]
    · have h2 : ¬ bins[i + 1] ≤ x := not_le.mpr hx
      have h3 : x < bins[i + 1 + 1] := lt_of_lt_of_le hx hb
      simp [hx, h2, h3]
    · have h2 : bins[i + 1] ≤ x := not_lt.mp hx
      have h3 : bins[0] ≤ x := le_trans ha h2
      simp [hx, h2, h3]

omit [Field K] [IsStrictOrderedRing K] in
theorem histogram_upto (bins nights : List K) (hs : bins.Pairwise (· ≤ ·)) (i : Nat) (hi : i + 1 < bins.length) :
    ((histogram bins nights).take (i + 1)).sum = before bins nights i := by
  unfold histogram
  rw [← List.map_take, List.take_range, Nat.min_eq_left (by omega), sum_countP_swap]
  unfold before
  simp only [bins_upto bins hs _ i hi]
  induction nights with
  | nil => rfl
  | cons x xs ih => rw [List.map_cons, List.sum_cons, ih, List.countP_cons, Nat.add_comm]

/-- The number of visits due by bin `i` of an even survey. -/
def due (bins nights : List K) (i : Nat) : K :=
  (i : K) / ((bins.length - 2 : Nat) : K) * (nights.length : K)

theorem expected_max (m : Nat) (n : K) (hm : 1 ≤ m) (hn : 0 ≤ n) :
    ((List.range (m + 1)).map (fun i : Nat => (i : K) / (m : K) * n)).max? = some n := by
  rw [List.max?_eq_some_iff]
  have hm' : (0 : K) < m := by exact_mod_cast hm
  constructor
  · rw [List.mem_map]
    exact ⟨m, by simp, by field_simp⟩
  · intro b hb
    obtain ⟨i, hi, rfl⟩ := List.mem_map.mp hb
    have : (i : K) ≤ m := by
      have := List.mem_range.mp hi
      exact_mod_cast (by omega : i ≤ m)
    calc (i : K) / m * n ≤ 1 * n := by
          apply mul_le_mul_of_nonneg_right _ hn
          rw [div_le_one hm']
          exact this
      _ = n := one_mul n

/-- The value at bin `j` is the largest difference so far between the visits made and
those due, as a fraction of all visits. -/
theorem uniformity_value (bins nights : List K) (hs : bins.Pairwise (· ≤ ·)) (hb : 3 ≤ bins.length) (hn : 2 ≤ nights.length)
    (j : Nat) (hj : j + 1 < bins.length) :
    ∃ r, (accumulateUniformity bins nights)[j]? = some r ∧
      (∀ i ≤ j, |(before bins nights i : K) - due bins nights i| / nights.length ≤ r) ∧
      ∃ i ≤ j, r = |(before bins nights i : K) - due bins nights i| / nights.length := by
  have hn' : (0 : K) < nights.length := by exact_mod_cast (by omega : 0 < nights.length)
  unfold accumulateUniformity
  rw [if_neg (by omega)]
  obtain ⟨m, hm⟩ : ∃ m, bins.length - 1 = m + 1 := ⟨bins.length - 2, by omega⟩
  have hm2 : bins.length - 2 = m := by omega
  simp only [hm, hm2, expected_max m (nights.length : K) (by omega) (le_of_lt hn'), Option.getD_some]
  set ds := List.zipWith (fun (v : Nat) e => |(v : K) - e|) (accumulate (· + ·) (histogram bins nights))
    ((List.range (m + 1)).map (fun i : Nat => (i : K) / (m : K) * nights.length)) with hds
  have hhl : (histogram bins nights).length = m + 1 := by simp [histogram, hm]
  have hlen : ds.length = m + 1 := by simp [hds, accumulate_length, hhl]
  have hget : ∀ i, i < m + 1 → ds[i]? = some |(before bins nights i : K) - due bins nights i| := by
    intro i hi
    have h1 : (accumulate (· + ·) (histogram bins nights))[i]? = some (before bins nights i) := by
      rw [accumulate_get _ _ _ (by omega), ← histogram_upto bins nights hs i (by omega)]
      cases hh : (histogram bins nights).take (i + 1) with
      | nil =>
        have := congrArg List.length hh
        simp [hhl] at this
      | cons a t => simp [fold1, fold_add]
    have h2 : ((List.range (m + 1)).map (fun i : Nat => (i : K) / (m : K) * nights.length))[i]? = some (due bins nights i) := by
      rw [List.getElem?_map, List.getElem?_range hi]
      simp [due, hm2]
    rw [hds, List.getElem?_zipWith, h1, h2]
  have hj' : j < m + 1 := by omega
  rw [List.getElem?_map, accumulate_get _ _ _ (by omega)]
  cases hd : ds.take (j + 1) with
  | nil =>
    have := congrArg List.length hd
    simp [hlen] at this
  | cons a t =>
    obtain ⟨f1, f2, f3⟩ := fold_max a t
    have hin : ∀ i ≤ j, |(before bins nights i : K) - due bins nights i| ∈ a :: t := by
      intro i hi
      rw [← hd]
      apply List.mem_of_getElem? (i := i)
      rw [List.getElem?_take_of_lt (by omega)]
      exact hget i (by omega)
    have hout : t.foldl max a ∈ a :: t := by
      rcases f3 with h | h
      · rw [h]
        exact List.mem_cons_self
      · exact List.mem_cons_of_mem _ h
    refine ⟨t.foldl max a / nights.length, rfl, ?_, ?_⟩
    · intro i hi
      apply div_le_div_of_nonneg_right _ (le_of_lt hn')
      rcases List.mem_cons.mp (hin i hi) with h | h
      · rw [h]
        exact f1
      · exact f2 _ h
    · rw [← hd] at hout
      obtain ⟨i, hi, he⟩ := List.getElem_of_mem hout
      rw [List.length_take] at hi
      refine ⟨i, by omega, ?_⟩
      have h1 := hget i (by omega)
      rw [List.getElem_take] at he
      rw [List.getElem?_eq_getElem (by omega), he, Option.some.injEq] at h1
      rw [h1]

/-- It is never below zero nor above one. -/
theorem uniformity_range (bins nights : List K) (hs : bins.Pairwise (· ≤ ·)) (hb : 3 ≤ bins.length) (hn : 2 ≤ nights.length)
    (j : Nat) (hj : j + 1 < bins.length) :
    ∃ r, (accumulateUniformity bins nights)[j]? = some r ∧ 0 ≤ r ∧ r ≤ 1 := by
  obtain ⟨r, h1, _, i, hi, h3⟩ := uniformity_value bins nights hs hb hn j hj
  have hn' : (0 : K) < nights.length := by exact_mod_cast (by omega : 0 < nights.length)
  refine ⟨r, h1, ?_, ?_⟩
  · rw [h3]
    positivity
  · rw [h3, div_le_one hn', abs_le]
    have hv : (before bins nights i : K) ≤ nights.length := by
      exact_mod_cast (List.countP_le_length : before bins nights i ≤ nights.length)
    have hv0 : (0 : K) ≤ before bins nights i := Nat.cast_nonneg _
    have hm : (0 : K) < ((bins.length - 2 : Nat) : K) := by exact_mod_cast (by omega : 0 < bins.length - 2)
    have hd0 : 0 ≤ due bins nights i := by
      unfold due
      positivity
    have hd1 : due bins nights i ≤ nights.length := by
      unfold due
      have : (i : K) / ((bins.length - 2 : Nat) : K) ≤ 1 := by
        rw [div_le_one hm]
        exact_mod_cast (by omega : i ≤ bins.length - 2)
      nlinarith
    constructor <;> linarith

/-- It never decreases. -/
theorem uniformity_mono (bins nights : List K) (hs : bins.Pairwise (· ≤ ·)) (hb : 3 ≤ bins.length) (hn : 2 ≤ nights.length)
    (i j : Nat) (hij : i ≤ j) (hj : j + 1 < bins.length) :
    ∃ r s, (accumulateUniformity bins nights)[i]? = some r ∧ (accumulateUniformity bins nights)[j]? = some s ∧ r ≤ s := by
  obtain ⟨r, h1, _, k, hk, h3⟩ := uniformity_value bins nights hs hb hn i (by omega)
  obtain ⟨s, g1, g2, _⟩ := uniformity_value bins nights hs hb hn j hj
  refine ⟨r, s, h1, g1, ?_⟩
  rw [h3]
  exact g2 k (by omega)

example : accumulateUniformity (K := ℚ) [0, 1, 2, 3] [1, 2] = [0, 0, 0] := by decide +kernel
example : accumulateUniformity (K := ℚ) [0, 1, 2, 3] [0, 0] = [1, 1, 1] := by decide +kernel
example : accumulateUniformity (K := ℚ) [0, 1, 2, 3, 4, 5] [0, 1, 2, 3, 4] = [1/5, 1/5, 1/5, 1/5, 1/5] := by decide +kernel

end Uniformity

end Verif.Vec
