import Verif.Model.NumpyMore
import Verif.Lemmas.Numpy
import Mathlib.Algebra.Order.Group.Defs
import Mathlib.Algebra.BigOperators.Group.List.Basic
import Mathlib.Tactic.Common
import Mathlib.Tactic.Abel

namespace Verif.Np

variable {α : Type*}

theorem sort_perm [LinearOrder α] (xs : List α) : (sort xs).Perm xs := List.perm_insertionSort _ _

theorem sort_sorted [LinearOrder α] (xs : List α) : (sort xs).Pairwise (· ≤ ·) := List.pairwise_insertionSort _ _

theorem sort_length [LinearOrder α] (xs : List α) : (sort xs).length = xs.length := (sort_perm xs).length_eq

/-- Sorting forgets the order of the data. -/
theorem sort_eq_of_perm [LinearOrder α] {xs ys : List α} (h : xs.Perm ys) : sort xs = sort ys :=
  (((sort_perm xs).trans h).trans (sort_perm ys).symm).eq_of_pairwise (fun _ _ _ _ h1 h2 => le_antisymm h1 h2)
    (sort_sorted xs) (sort_sorted ys)

theorem sort_eq_self [LinearOrder α] {xs : List α} (h : xs.Pairwise (· ≤ ·)) : sort xs = xs :=
  (sort_perm xs).eq_of_pairwise (fun _ _ _ _ h1 h2 => le_antisymm h1 h2) (sort_sorted xs) h

theorem searchsortedLeft_eq_countP [LinearOrder α] {xs : List α} (h : xs.Pairwise (· ≤ ·)) (v : α) :
    searchsortedLeft xs v = xs.countP (fun x => decide (x < v)) := by
  have := searchsorted_eq_countP (f := id) xs v (by simpa using h)
  simpa using this

theorem searchsortedRight_eq_countP [LinearOrder α] {xs : List α} (h : xs.Pairwise (· ≤ ·)) (v : α) :
    searchsortedRight xs v = xs.countP (fun x => decide (x ≤ v)) := by
  induction xs with
  | nil => rfl
  | cons a xs ih =>
    rw [List.pairwise_cons] at h
    by_cases hv : a ≤ v
    · have := ih h.2
      unfold searchsortedRight at this ⊢
      rw [List.takeWhile_cons_of_pos (by simpa using hv), List.countP_cons_of_pos (by simpa using hv),
        List.length_cons, this]
    · unfold searchsortedRight
      rw [List.takeWhile_cons_of_neg (by simpa using hv), List.countP_cons_of_neg (by simpa using hv)]
      symm
      rw [List.length_nil, List.countP_eq_zero]
      intro b hb
      simp only [decide_eq_true_eq]
      intro hb'
      exact hv (le_trans (h.1 b hb) hb')

@[simp] theorem diff_nil [Sub α] : diff ([] : List α) = [] := rfl
@[simp] theorem diff_single [Sub α] (a : α) : diff [a] = [] := rfl
@[simp] theorem diff_cons_cons [Sub α] (a b : α) (l : List α) : diff (a :: b :: l) = (b - a) :: diff (b :: l) := rfl

theorem diff_length [Sub α] (l : List α) : (diff l).length = l.length - 1 := by
  unfold diff
  rw [List.length_zipWith, List.length_tail]
  omega

/-- Differences add up to the difference of last and first. -/
theorem diff_sum [AddCommGroup α] : ∀ (a : α) (l : List α), (diff (a :: l)).sum = (a :: l).getLast (by simp) - a
  | a, [] => by simp
  | a, b :: l => by
    have e : (a :: b :: l).getLast (by simp) = (b :: l).getLast (by simp) := List.getLast_cons _
    rw [diff_cons_cons, List.sum_cons, diff_sum b l, e]
    abel

theorem sum_countP_swap {β γ : Type*} (is : List β) (xs : List γ) (p : β → γ → Bool) :
    (is.map (fun i => xs.countP (p i))).sum = (xs.map (fun x => is.countP (fun i => p i x))).sum := by
  induction xs with
  | nil => induction is <;> simp_all
  | cons x xs ih =>
    rw [List.map_cons, List.sum_cons, ← ih]
    clear ih
    induction is with
    | nil => rfl
    | cons i is ih =>
      simp only [List.map_cons, List.sum_cons, List.countP_cons] at ih ⊢
      omega

theorem inBin_cons [LinearOrder α] (a : α) (edges : List α) (i : Nat) (x : α) :
    inBin (a :: edges) (i + 1) x = inBin edges i x := by
  unfold inBin
  simp only [List.getElem?_cons_succ, List.length_cons]
  have : (i + 1 + 2 = edges.length + 1) ↔ (i + 2 = edges.length) := by omega
  simp only [this]

/-- Every value between the first and the last edge is in exactly one bin, others in none. -/
theorem bins_of [LinearOrder α] (a b : α) (l : List α) (h : (a :: b :: l).Pairwise (· ≤ ·)) (x : α) :
    (List.range (l.length + 1)).countP (fun i => inBin (a :: b :: l) i x) =
      if a ≤ x ∧ x ≤ (b :: l).getLast (by simp) then 1 else 0 := by
  induction l generalizing a b with
  | nil =>
    simp only [List.length_nil, Nat.zero_add, List.range_one, List.countP_cons, List.countP_nil]
    have : (inBin [a, b] 0 x = true) ↔ (a ≤ x ∧ x ≤ b) := by
      simp [inBin, le_iff_lt_or_eq (a := x)]
    by_cases hx : a ≤ x ∧ x ≤ b
    · rw [if_pos (this.mpr hx), if_pos (by simpa using hx)]
    · rw [if_neg (fun h => hx (this.mp h)), if_neg (by simpa using hx)]
  | cons c l ih =>
    have hb := (List.pairwise_cons.mp h).2
    rw [List.length_cons, List.range_succ_eq_map, List.countP_cons, List.countP_map]
    have e : (fun i => inBin (a :: b :: c :: l) i x) ∘ Nat.succ = fun i => inBin (b :: c :: l) i x := by
      funext i
      simp only [Function.comp, Nat.succ_eq_add_one, inBin_cons]
    rw [e, ih b c hb]
    have h0 : (inBin (a :: b :: c :: l) 0 x = true) ↔ (a ≤ x ∧ x < b) := by
      simp [inBin]
    have hl : (b :: c :: l).getLast (by simp) = (c :: l).getLast (by simp) := List.getLast_cons _
    have hab : a ≤ b := (List.pairwise_cons.mp h).1 b (by simp)
    have hbl : b ≤ (c :: l).getLast (by simp) := (List.pairwise_cons.mp hb).1 _ (List.getLast_mem _)
    simp only [h0, hl]
    by_cases h1 : b ≤ x
    · have h2 : ¬ x < b := not_lt.mpr h1
      have h3 : a ≤ x := le_trans hab h1
      simp [h1, h2, h3]
    · have h2 : x < b := not_le.mp h1
      have h3 : x ≤ (c :: l).getLast (by simp) := le_trans (le_of_lt h2) hbl
      simp [h1, h2, h3]

/-- The histogram loses nothing between the first and the last edge. -/
theorem histogram_sum [LinearOrder α] (a b : α) (l : List α) (h : (a :: b :: l).Pairwise (· ≤ ·)) (xs : List α) :
    (histogram (a :: b :: l) xs).sum =
      xs.countP (fun x => decide (a ≤ x ∧ x ≤ (b :: l).getLast (by simp))) := by
  unfold histogram
  rw [sum_countP_swap]
  have e : (a :: b :: l).length - 1 = l.length + 1 := by simp
  simp only [e, bins_of a b l h]
  induction xs with
  | nil => rfl
  | cons x xs ih =>
    rw [List.map_cons, List.sum_cons, ih, List.countP_cons, Nat.add_comm]
    simp only [decide_eq_true_eq]

end Verif.Np
