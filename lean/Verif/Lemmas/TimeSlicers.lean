import Verif.Model.TimeSlicers
import Verif.Lemmas.OneDSlicer
import Mathlib.Tactic.Linarith
import Mathlib.Tactic.FieldSimp
import Mathlib.Tactic.Ring
import Mathlib.Data.Finset.Card

namespace Verif.Slicers
open Verif.Np

section
variable {K : Type*} [Field K] [LinearOrder K] [IsStrictOrderedRing K] [FloorRing K] {n : Nat}

theorem arange_length (a b d : K) : (arange a b d).length = ⌈(b - a) / d⌉.toNat := by
  simp [arange]

theorem arange_get (a b d : K) (i : Nat) (h : i < (arange a b d).length) :
    (arange a b d)[i] = a + (i : K) * d := by
  simp [arange]

/-- Counting the edges `≤ v` of a uniform grid of `m` edges. -/
theorem digitize_uniform (a d v : K) (hd : 0 < d) (m i : Nat) (hv : a ≤ v) (hi : i < m) :
    digitize v ((List.range m).map (fun (k : Nat) => a + (k : K) * d)) = i ↔
      0 < i ∧ a + ((i - 1 : Nat) : K) * d ≤ v ∧ v < a + (i : K) * d := by
  have hcount : ∀ m : Nat, digitize v ((List.range m).map (fun (k : Nat) => a + (k : K) * d)) =
      min m (⌊(v - a) / d⌋.toNat + 1) := by
    intro m
    have hq : 0 ≤ (v - a) / d := div_nonneg (sub_nonneg.mpr hv) hd.le
    have hle : ∀ k : Nat, a + (k : K) * d ≤ v ↔ k < ⌊(v - a) / d⌋.toNat + 1 := by
      intro k
      have h1 : a + (k : K) * d ≤ v ↔ (k : K) ≤ (v - a) / d := by
        rw [le_div_iff₀ hd]; constructor <;> intro h <;> linarith
      rw [h1, show ((k : K) = ((k : ℤ) : K)) by simp, ← Int.le_floor]
      have := Int.floor_nonneg.mpr hq
      omega
    induction m with
    | zero => simp [digitize]
    | succ m ih =>
      unfold digitize at ih ⊢
      rw [List.range_succ, List.map_append, List.filter_append, List.length_append, ih]
      by_cases hm : a + (m : K) * d ≤ v
      · have := (hle m).mp hm
        simp [hm]
        omega
      · have : ¬ m < ⌊(v - a) / d⌋.toNat + 1 := fun h => hm ((hle m).mpr h)
        simp [hm]
        omega
  rw [hcount m]
  have hq : 0 ≤ (v - a) / d := div_nonneg (sub_nonneg.mpr hv) hd.le
  have hf := Int.floor_nonneg.mpr hq
  constructor
  · intro h
    have hi0 : ⌊(v - a) / d⌋.toNat + 1 = i := by omega
    have hfl : ⌊(v - a) / d⌋ = ((i - 1 : Nat) : ℤ) := by omega
    rw [Int.floor_eq_iff] at hfl
    obtain ⟨h1, h2⟩ := hfl
    rw [le_div_iff₀ hd] at h1
    rw [div_lt_iff₀ hd] at h2
    have e : (((i - 1 : Nat) : ℤ) : K) = ((i - 1 : Nat) : K) := by simp
    rw [e] at h1 h2
    have e2 : (i : K) = ((i - 1 : Nat) : K) + 1 := by
      rw [← hi0]; push_cast; simp
    refine ⟨by omega, by linarith, ?_⟩
    rw [e2]; linarith
  · rintro ⟨h0, h1, h2⟩
    have e2 : (i : K) = ((i - 1 : Nat) : K) + 1 := by
      have : i = (i - 1) + 1 := by omega
      conv_lhs => rw [this]
      push_cast; ring
    have hfl : ⌊(v - a) / d⌋ = ((i - 1 : Nat) : ℤ) := by
      rw [Int.floor_eq_iff, le_div_iff₀ hd, div_lt_iff₀ hd]
      have e : (((i - 1 : Nat) : ℤ) : K) = ((i - 1 : Nat) : K) := by simp
      rw [e]
      rw [e2] at h2
      constructor <;> linarith
    omega

end

section Block
variable {K : Type*} [Field K] [LinearOrder K] [IsStrictOrderedRing K]

theorem breaks_length (tol : K) (l : List (BlockVisit K)) : (breaks tol l).length = l.length := by
  induction l with
  | nil => rfl
  | cons a l ih =>
    cases l with
    | nil => rfl
    | cons b l => simp only [breaks, List.length_cons] at ih ⊢; omega

theorem cumsum_length (acc : Nat) (bs : List Bool) : (cumsum acc bs).length = bs.length := by
  induction bs generalizing acc with
  | nil => rfl
  | cons b bs ih => simp [cumsum, ih]

theorem blockSids_length (tol : K) (l : List (BlockVisit K)) :
    (blockSids tol l).length = l.length := by
  simp [blockSids, cumsum_length, breaks_length]

theorem cumsum_get_succ (acc : Nat) (bs : List Bool) (k : Nat) (h : k < bs.length) :
    (acc :: cumsum acc bs)[k + 1]? = (acc :: cumsum acc bs)[k]?.map (· + bs[k].toNat) := by
  induction bs generalizing acc k with
  | nil => simp at h
  | cons b bs ih =>
    cases k with
    | zero => simp [cumsum]
    | succ k =>
      have := ih (acc + b.toNat) k (by simpa using h)
      simpa [cumsum] using this

theorem breaks_get (tol : K) (l : List (BlockVisit K)) (k : Nat) (h : k + 1 < l.length) :
    (breaks tol l)[k]'(by rw [breaks_length]; omega) = blockBreak tol l[k] l[k + 1] := by
  induction l generalizing k with
  | nil => simp at h
  | cons a l ih =>
    cases l with
    | nil => simp at h
    | cons b l =>
      cases k with
      | zero => rfl
      | succ k => exact ih k (by simpa using h)

theorem blockSids_zero (tol : K) (l : List (BlockVisit K)) (h : 0 < l.length) :
    (blockSids tol l)[0]'(by rw [blockSids_length]; exact h) = 0 := by
  simp [blockSids]

theorem blockSids_succ (tol : K) (l : List (BlockVisit K)) (k : Nat) (h : k + 1 < l.length) :
    (blockSids tol l)[k + 1]'(by rw [blockSids_length]; exact h) =
      (blockSids tol l)[k]'(by rw [blockSids_length]; omega) + (blockBreak tol l[k] l[k + 1]).toNat := by
  have h1 := cumsum_get_succ 0 (breaks tol l) k (by rw [breaks_length]; omega)
  rw [breaks_get tol l k h] at h1
  have e : ∀ i, i < l.length → (blockSids tol l)[i]? = (0 :: cumsum 0 (breaks tol l))[i]? := by
    intro i hi
    unfold blockSids
    rw [List.getElem?_take, if_pos hi]
  rw [← e (k + 1) h, ← e k (by omega), List.getElem?_eq_getElem (by rw [blockSids_length]; exact h),
    List.getElem?_eq_getElem (by rw [blockSids_length]; omega)] at h1
  simpa using h1

theorem blockSids_mono (tol : K) (l : List (BlockVisit K)) (i k : Nat) (hik : i ≤ k) (hk : k < l.length) :
    (blockSids tol l)[i]'(by rw [blockSids_length]; omega) ≤
      (blockSids tol l)[k]'(by rw [blockSids_length]; exact hk) := by
  induction k with
  | zero => have : i = 0 := by omega
            subst this; exact le_rfl
  | succ k ih =>
    rcases Nat.lt_or_ge i (k + 1) with h | h
    · have := ih (by omega) (by omega)
      rw [blockSids_succ tol l k hk]
      omega
    · have : i = k + 1 := by omega
      subst this; exact le_rfl

theorem blockSids_pairwise (tol : K) (l : List (BlockVisit K)) : (blockSids tol l).Pairwise (· ≤ ·) := by
  rw [List.pairwise_iff_getElem]
  intro i j hi hj hij
  rw [blockSids_length] at hj
  exact blockSids_mono tol l i j hij.le hj

/-- Every number up to the block number of position `k` is used. -/
theorem blockSids_surj (tol : K) (l : List (BlockVisit K)) (k : Nat) (hk : k < l.length) (s : Nat)
    (hs : s ≤ (blockSids tol l)[k]'(by rw [blockSids_length]; exact hk)) : s ∈ blockSids tol l := by
  induction k with
  | zero =>
    rw [blockSids_zero tol l hk] at hs
    have : s = 0 := by omega
    subst this
    rw [← blockSids_zero tol l hk]
    exact List.getElem_mem _
  | succ k ih =>
    rw [blockSids_succ tol l k hk] at hs
    rcases Nat.lt_or_ge ((blockSids tol l)[k]'(by rw [blockSids_length]; omega)) s with h | h
    · have hb := Bool.toNat_le (blockBreak tol l[k] l[k + 1])
      have e : s = (blockSids tol l)[k + 1]'(by rw [blockSids_length]; exact hk) := by
        rw [blockSids_succ tol l k hk]; omega
      rw [e]; exact List.getElem_mem _
    · exact ih (by omega) h

/-- Grouping a list by a non-decreasing key below `m` and concatenating the
groups gives the list back. -/
theorem flatMap_groups {β : Type*} (l : List (Nat × β)) (h : (l.map Prod.fst).Pairwise (· ≤ ·)) (m : Nat)
    (hm : ∀ x ∈ l, x.1 < m) :
    (List.range m).flatMap (fun i => l.filter (fun x => decide (x.1 = i))) = l := by
  have key : ∀ m, (List.range m).flatMap (fun i => l.filter (fun x => decide (x.1 = i))) =
      l.filter (fun x => decide (x.1 < m)) := by
    intro m
    induction m with
    | zero => simp
    | succ m ih =>
      rw [List.range_succ, List.flatMap_append, ih, List.flatMap_singleton]
      clear ih hm
      induction l with
      | nil => rfl
      | cons a l ihl =>
        rw [List.map_cons, List.pairwise_cons] at h
        have ihl := ihl h.2
        rcases Nat.lt_trichotomy a.1 m with h1 | h1 | h1
        · rw [List.filter_cons_of_pos (by simpa using h1), List.filter_cons_of_neg (by simp; omega),
            List.filter_cons_of_pos (by simp; omega), List.cons_append, ihl]
        · have hnil : l.filter (fun x => decide (x.1 < m)) = [] := by
            rw [List.filter_eq_nil_iff]
            intro x hx
            have := h.1 x.1 (List.mem_map_of_mem hx)
            simp; omega
          rw [List.filter_cons_of_neg (by simp; omega), List.filter_cons_of_pos (by simpa using h1),
            List.filter_cons_of_pos (by simp; omega), ← ihl, hnil]
          rfl
        · rw [List.filter_cons_of_neg (by simp; omega), List.filter_cons_of_neg (by simp; omega),
            List.filter_cons_of_neg (by simp; omega), ihl]
  rw [key m, List.filter_eq_self]
  intro x hx
  simpa using hm x hx

end Block
end Verif.Slicers
