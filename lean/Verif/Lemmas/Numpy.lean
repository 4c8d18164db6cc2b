import Verif.Model.Numpy
import Mathlib.Tactic.Common

namespace Verif.Np

variable {α : Type*} [LinearOrder α] {n : Nat}

theorem argsort_isArgsort (vals : Fin n → α) : IsArgsort vals (argsort vals) := by
  refine ⟨List.perm_insertionSort _ _, ?_⟩
  rw [List.pairwise_map]
  have : Std.Total (fun i j : Fin n => vals i ≤ vals j) := ⟨fun a b => le_total _ _⟩
  have : IsTrans (Fin n) (fun i j : Fin n => vals i ≤ vals j) := ⟨fun a b c => le_trans⟩
  exact List.pairwise_insertionSort _ _

theorem IsArgsort.nodup {vals : Fin n → α} {p} (h : IsArgsort vals p) : p.Nodup :=
  h.perm.nodup_iff.mpr (List.nodup_finRange n)

theorem IsArgsort.mem {vals : Fin n → α} {p} (h : IsArgsort vals p) (j : Fin n) : j ∈ p :=
  h.perm.mem_iff.mpr (List.mem_finRange j)

theorem IsArgsort.length {vals : Fin n → α} {p} (h : IsArgsort vals p) : p.length = n := by
  rw [h.perm.length_eq, List.length_finRange]

/-- On a list whose values are sorted, the first `searchsortedLeft` entries are
exactly those below `v`. -/
theorem take_searchsorted {ι : Type*} (f : ι → α) (p : List ι) (v : α)
    (h : (p.map f).Pairwise (· ≤ ·)) :
    p.take (searchsortedLeft (p.map f) v) = p.filter (fun j => decide (f j < v)) := by
  induction p with
  | nil => simp
  | cons a p ih =>
    rw [List.map_cons, List.pairwise_cons] at h
    by_cases hv : f a < v
    · have e : searchsortedLeft ((a :: p).map f) v = searchsortedLeft (p.map f) v + 1 := by
        simp [searchsortedLeft, hv]
      rw [e, List.take_succ_cons, List.filter_cons_of_pos (by simpa using hv), ih h.2]
    · have e : searchsortedLeft ((a :: p).map f) v = 0 := by simp [searchsortedLeft, hv]
      rw [e, List.take_zero, List.filter_cons_of_neg (by simpa using hv)]
      symm
      rw [List.filter_eq_nil_iff]
      intro b hb
      have := h.1 (f b) (List.mem_map_of_mem hb)
      simp only [decide_eq_true_eq, not_lt]
      exact le_trans (not_lt.mp hv) this

theorem drop_searchsorted {ι : Type*} (f : ι → α) (p : List ι) (v : α)
    (h : (p.map f).Pairwise (· ≤ ·)) :
    p.drop (searchsortedLeft (p.map f) v) = p.filter (fun j => decide (v ≤ f j)) := by
  induction p with
  | nil => simp
  | cons a p ih =>
    rw [List.map_cons, List.pairwise_cons] at h
    by_cases hv : f a < v
    · have e : searchsortedLeft ((a :: p).map f) v = searchsortedLeft (p.map f) v + 1 := by
        simp [searchsortedLeft, hv]
      rw [e, List.drop_succ_cons, List.filter_cons_of_neg (by simpa using hv), ih h.2]
    · have e : searchsortedLeft ((a :: p).map f) v = 0 := by simp [searchsortedLeft, hv]
      rw [e, List.drop_zero]
      symm
      rw [List.filter_eq_self]
      intro b hb
      have hb' : f a ≤ f b := by
        rcases List.mem_cons.mp hb with rfl | hb
        · exact le_rfl
        · exact h.1 (f b) (List.mem_map_of_mem hb)
      simp only [decide_eq_true_eq]
      exact le_trans (not_lt.mp hv) hb'

theorem searchsorted_eq_countP {ι : Type*} (f : ι → α) (p : List ι) (v : α)
    (h : (p.map f).Pairwise (· ≤ ·)) :
    searchsortedLeft (p.map f) v = p.countP (fun j => decide (f j < v)) := by
  have h1 := take_searchsorted f p v h
  have h2 : searchsortedLeft (p.map f) v ≤ p.length := by
    have := (List.takeWhile_sublist (fun x => decide (x < v)) (l := p.map f)).length_le
    simpa [searchsortedLeft] using this
  rw [List.countP_eq_length_filter, ← h1, List.length_take, min_eq_left h2]

theorem searchsorted_mono (xs : List α) {u v : α} (h : u ≤ v) :
    searchsortedLeft xs u ≤ searchsortedLeft xs v := by
  induction xs with
  | nil => simp [searchsortedLeft]
  | cons a xs ih =>
    by_cases hu : a < u
    · have hv : a < v := lt_of_lt_of_le hu h
      simp only [searchsortedLeft, hu, hv, decide_true, List.takeWhile_cons_of_pos, List.length_cons] at ih ⊢
      omega
    · simp [searchsortedLeft, hu]

/-- Content of the slice between two searchsorted positions. -/
theorem mem_pySlice_searchsorted {ι : Type*} (f : ι → α) (p : List ι) (u v : α)
    (h : (p.map f).Pairwise (· ≤ ·)) (j : ι) :
    j ∈ pySlice p (searchsortedLeft (p.map f) u) (searchsortedLeft (p.map f) v) ↔
      j ∈ p ∧ u ≤ f j ∧ f j < v := by
  unfold pySlice
  rcases le_total u v with huv | hvu
  · have hle := searchsorted_mono (p.map f) huv
    have h1 := take_searchsorted f p v h
    -- the taken prefix is itself sorted and has the same `searchsorted` position for `u`
    set q := p.take (searchsortedLeft (p.map f) v) with hq
    have hsq : (q.map f).Pairwise (· ≤ ·) := by
      rw [hq, List.map_take]; exact h.sublist (List.take_sublist _ _)
    have hpos : searchsortedLeft (q.map f) u = searchsortedLeft (p.map f) u := by
      rw [searchsorted_eq_countP f q u hsq, searchsorted_eq_countP f p u h, h1, List.countP_filter]
      congr 1
      funext j
      simp only [Bool.and_eq_decide, decide_eq_true_eq, decide_eq_decide]
      exact ⟨fun h => h.1, fun h => ⟨h, lt_of_lt_of_le h huv⟩⟩
    rw [← hpos, drop_searchsorted f q u hsq, h1]
    simp [and_comm]
  · have hle := searchsorted_mono (p.map f) hvu
    have : (p.take (searchsortedLeft (p.map f) v)).drop (searchsortedLeft (p.map f) u) = [] := by
      apply List.drop_eq_nil_of_le
      rw [List.length_take]
      omega
    rw [this]
    simp only [List.not_mem_nil, false_iff, not_and, not_lt]
    intro _ hu
    exact le_trans hvu hu

theorem pySlice_sublist {β : Type*} (xs : List β) (l r : Nat) : (pySlice xs l r).Sublist xs :=
  (List.drop_sublist _ _).trans (List.take_sublist _ _)

end Verif.Np
