import Verif.Model.OneDSlicer
import Verif.Lemmas.Numpy

namespace Verif.Slicers
open Verif.Np
variable {α : Type*} [LinearOrder α] {n : Nat}

theorem oneDSimIdxs_length (vals : Fin n → α) (bins : List α) (p : List (Fin n)) :
    (oneDSimIdxs vals bins p).length = bins.length - 1 := by
  simp [oneDSimIdxs]

theorem oneDSimIdxs_get (vals : Fin n → α) (bins : List α) (p : List (Fin n)) (i : Nat) (s)
    (h : (oneDSimIdxs vals bins p)[i]? = some s) :
    ∃ lo hi, bins[i]? = some lo ∧ bins[i + 1]? = some hi ∧
      s = pySlice p (searchsortedLeft (p.map vals) lo) (searchsortedLeft (p.map vals) hi) := by
  have hi : i < bins.length - 1 := by
    have := (List.getElem?_eq_some_iff.mp h).1
    rwa [oneDSimIdxs_length] at this
  have h1 : i < bins.length := by omega
  have h2 : i + 1 < bins.length := by omega
  refine ⟨bins[i], bins[i + 1], by simp, by simp, ?_⟩
  unfold oneDSimIdxs at h
  simp only [List.getElem?_zipWith, List.getElem?_map, List.getElem?_dropLast, hi, if_true,
    List.getElem?_tail, List.getElem?_eq_getElem h1, List.getElem?_eq_getElem h2, Option.map_some] at h
  simpa using h.symm

theorem oneDSimIdxs_mem (vals : Fin n → α) (bins : List α) (p : List (Fin n))
    (hp : IsArgsort vals p) (i : Nat) (s) (h : (oneDSimIdxs vals bins p)[i]? = some s) :
    ∃ lo hi, bins[i]? = some lo ∧ bins[i + 1]? = some hi ∧ s.Nodup ∧
      ∀ j, j ∈ s ↔ lo ≤ vals j ∧ vals j < hi := by
  obtain ⟨lo, hi, h1, h2, rfl⟩ := oneDSimIdxs_get vals bins p i s h
  refine ⟨lo, hi, h1, h2, hp.nodup.sublist (pySlice_sublist _ _ _), fun j => ?_⟩
  rw [mem_pySlice_searchsorted vals p lo hi hp.sorted j]
  simp [hp.mem j]

/-- In a sorted list of edges every value between the first and the last edge
falls between two neighbours. -/
theorem exists_bracket (bins : List α) (v : α) (k : Nat) (hk : k < bins.length)
    (h0 : ∀ b ∈ bins.head?, b ≤ v) (h1 : v < bins[k]) :
    ∃ i, ∃ h : i + 1 < bins.length, bins[i] ≤ v ∧ v < bins[i + 1] := by
  induction k with
  | zero =>
    have : bins[0] ≤ v := h0 _ (by simp [List.head?_eq_getElem?])
    exact absurd h1 (not_lt.mpr this)
  | succ k ih =>
    by_cases hv : v < bins[k]
    · exact ih (by omega) hv
    · exact ⟨k, hk, not_lt.mp hv, h1⟩

theorem sorted_get_le {bins : List α} (hs : bins.Pairwise (· ≤ ·)) {i j : Nat} (hij : i ≤ j)
    (hj : j < bins.length) : bins[i] ≤ bins[j] := by
  rcases eq_or_lt_of_le hij with rfl | h
  · exact le_rfl
  · exact List.pairwise_iff_getElem.mp hs i j (by omega) hj h

end Verif.Slicers
