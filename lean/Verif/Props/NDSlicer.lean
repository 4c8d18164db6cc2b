import Verif.Lemmas.NDSlicer
import Mathlib.Data.Fin.VecNotation

/-!
# Properties of `NDSlicer` (C04) and `MovieSlicer` (C05)
-/

namespace Verif.Slicers
open Verif.Np
variable {α : Type*} [LinearOrder α] {n : Nat}

theorem mapM_zip_some (dims : List (Dim α n)) (t : List Nat)
    (hd : ∀ d ∈ dims, IsArgsort d.vals d.perm)
    (ht : List.Forall₂ (fun (i : Nat) (d : Dim α n) => i < d.bins.length - 1) t dims) :
    ∃ sets, (List.zip dims t).mapM (fun x => x.1.slice x.2) = some sets ∧
      sets.length = dims.length ∧
      (∀ j, (∀ s ∈ sets, j ∈ s) ↔
        List.Forall₂ (fun (i : Nat) (d : Dim α n) => InBin d.bins i (d.vals j)) t dims) ∧
      ∀ s ∈ sets, s.Nodup := by
  induction ht with
  | nil => exact ⟨[], by simp, rfl, by simp, by simp⟩
  | @cons i d t dims hi ht ih =>
    obtain ⟨sets, h1, h2, h3, h4⟩ := ih (fun d hd' => hd d (List.mem_cons_of_mem _ hd'))
    obtain ⟨l, r, el, er, hnd, hm⟩ := left_slice_spec d.vals d.bins d.perm
      (hd d List.mem_cons_self) i (by omega)
    have hs : d.slice i = some (pySlice d.perm l r) := by
      unfold Dim.slice Dim.lefts; rw [el, er]
    refine ⟨pySlice d.perm l r :: sets, by simp [hs, h1], by simp [h2], fun j => ?_, ?_⟩
    · simp only [List.mem_cons, forall_eq_or_imp, List.forall₂_cons, hm j, h3 j]
    · simpa using ⟨hnd, h4⟩

/-- **C04.** For any number `≥ 1` of dimensions, each with non-decreasing edges
(at least two) and any argsort tie order: the number of slices is the product
of the bin counts; every slice number gives a list of distinct rows, namely
those whose value lies in the bin given by the slice's tuple in every dimension
(last bins being unbounded above); every row at or above the first edge in all
dimensions is in exactly one slice. -/
theorem nd_partition (dims : List (Dim α n)) (hne : dims ≠ [])
    (hp : ∀ d ∈ dims, IsArgsort d.vals d.perm)
    (hs : ∀ d ∈ dims, d.bins.Pairwise (· ≤ ·)) (hl : ∀ d ∈ dims, 2 ≤ d.bins.length) :
    (ndBinIdxs dims).length = (dims.map (fun d => d.bins.length - 1)).prod ∧
    (∀ i t, (ndBinIdxs dims)[i]? = some t → ∃ s, ndSlice dims i = some s ∧ s.Nodup ∧
      ∀ j, j ∈ s ↔
        List.Forall₂ (fun (k : Nat) (d : Dim α n) => InBin d.bins k (d.vals j)) t dims) ∧
    ∀ j, ((∀ d ∈ dims, ∀ b ∈ d.bins.head?, b ≤ d.vals j) →
        ∃! i : Nat, ∃ s, ndSlice dims i = some s ∧ j ∈ s) ∧
      ((∃ d ∈ dims, ∃ b ∈ d.bins.head?, d.vals j < b) → ∀ i s, ndSlice dims i = some s → j ∉ s) := by
  have hmem : ∀ t, t ∈ ndBinIdxs dims ↔
      List.Forall₂ (fun (i : Nat) (d : Dim α n) => i < d.bins.length - 1) t dims := by
    intro t
    rw [ndBinIdxs, mem_product, List.forall₂_map_right_iff]
    simp
  have hslice : ∀ (i : Nat) t, (ndBinIdxs dims)[i]? = some t → ∃ s, ndSlice dims i = some s ∧
      s.Nodup ∧ ∀ j, j ∈ s ↔
        List.Forall₂ (fun (k : Nat) (d : Dim α n) => InBin d.bins k (d.vals j)) t dims := by
    intro i t ht
    obtain ⟨sets, h1, h2, h3, h4⟩ := mapM_zip_some dims t hp ((hmem t).mp (List.mem_of_getElem? ht))
    cases sets with
    | nil => simp at h2; exact absurd (List.length_eq_zero_iff.mp h2.symm) hne
    | cons s ss =>
      refine ⟨s.filter (fun j => ss.all (fun t => decide (j ∈ t))), ?_, ?_, ?_⟩
      · simp [ndSlice, ht, h1, interAll]
      · exact (h4 s List.mem_cons_self).filter _
      · intro j
        rw [← h3 j]
        simp
  have hnd : (ndBinIdxs dims).Nodup := by
    apply nodup_product
    intro xs hxs
    obtain ⟨d, -, rfl⟩ := List.mem_map.mp hxs
    exact List.nodup_range
  have hbnd : ∀ i s, ndSlice dims i = some s → ∃ t, (ndBinIdxs dims)[i]? = some t := by
    intro i s h
    cases ht : (ndBinIdxs dims)[i]? with
    | none => simp [ndSlice, ht] at h
    | some t => exact ⟨t, rfl⟩
  refine ⟨by simp [ndBinIdxs, length_product, Function.comp_def], hslice, fun j => ⟨?_, ?_⟩⟩
  · intro hj
    -- the unique tuple of bins
    have huniq : ∃ t, List.Forall₂ (fun (k : Nat) (d : Dim α n) => InBin d.bins k (d.vals j)) t dims ∧
        ∀ u, List.Forall₂ (fun (k : Nat) (d : Dim α n) => InBin d.bins k (d.vals j)) u dims → u = t := by
      clear hmem hslice hnd hbnd hne hp
      induction dims with
      | nil => exact ⟨[], List.Forall₂.nil, fun u hu => by cases hu; rfl⟩
      | cons d dims ih =>
        obtain ⟨t, ht, hu⟩ := ih (fun d h => hs d (List.mem_cons_of_mem _ h))
          (fun d h => hl d (List.mem_cons_of_mem _ h)) (fun d h => hj d (List.mem_cons_of_mem _ h))
        have hl' := hl d List.mem_cons_self
        have hh : ∃ b₀, d.bins.head? = some b₀ := by
          cases hb : d.bins with
          | nil => simp [hb] at hl'
          | cons x xs => exact ⟨x, rfl⟩
        obtain ⟨b₀, hb₀⟩ := hh
        obtain ⟨k, hk, hku⟩ := inBin_existsUnique d.bins (hs d List.mem_cons_self) hl' (d.vals j) b₀ hb₀
          (hj d List.mem_cons_self b₀ hb₀)
        refine ⟨k :: t, List.Forall₂.cons hk ht, fun u hu' => ?_⟩
        cases hu' with
        | cons a b => rw [hku _ a, hu _ b]
    obtain ⟨t, ht, hu⟩ := huniq
    have htm : t ∈ ndBinIdxs dims := by
      rw [hmem]
      exact ht.imp (fun k d h => by obtain ⟨_, _, h, _⟩ := h; omega)
    obtain ⟨i, hi, hit⟩ := List.getElem_of_mem htm
    obtain ⟨s, hs1, -, hs2⟩ := hslice i t (by rw [List.getElem?_eq_getElem hi, hit])
    refine ⟨i, ⟨s, hs1, (hs2 j).mpr ht⟩, ?_⟩
    rintro i' ⟨s', hs', hj'⟩
    obtain ⟨t', ht'⟩ := hbnd i' s' hs'
    obtain ⟨s'', e1, -, e2⟩ := hslice i' t' ht'
    rw [hs'] at e1
    cases e1
    have := hu t' ((e2 j).mp hj')
    subst this
    obtain ⟨hi', hit'⟩ := List.getElem?_eq_some_iff.mp ht'
    exact (List.Nodup.getElem_inj_iff hnd).mp (hit'.trans hit.symm)
  · rintro ⟨d, hd, b, hb, hlt⟩ i s his hjs
    obtain ⟨t, ht⟩ := hbnd i s his
    obtain ⟨s', e1, -, e2⟩ := hslice i t ht
    rw [his] at e1
    cases e1
    have hall := (e2 j).mp hjs
    -- the dimension that excludes the row
    clear e2 hslice hmem hbnd hnd hne ht his hjs hp
    induction hall with
    | nil => simp at hd
    | @cons k d' t dims hk _ ih =>
      rcases List.mem_cons.mp hd with rfl | hd
      · obtain ⟨lo, e, hkl, hlo, -⟩ := hk
        have h2 := sorted_get_le (hs d List.mem_cons_self) (Nat.zero_le k) (by omega)
        have h3 : d.bins[0] = b := by
          rw [List.head?_eq_getElem?, List.getElem?_eq_getElem (by omega)] at hb
          exact Option.some.inj hb
        rw [List.getElem?_eq_getElem (by omega)] at e
        cases e
        rw [h3] at h2
        exact absurd (lt_of_lt_of_le hlt (le_trans h2 hlo)) (lt_irrefl _)
      · exact ih (fun d h => hs d (List.mem_cons_of_mem _ h)) (fun d h => hl d (List.mem_cons_of_mem _ h)) hd

/-- Non-vacuity for C04: two dimensions, 2×2 bins, three rows; row 2 (values 7
and 3) is beyond the last edge of dimension 0 and lands in its last bin. -/
example :
    let d0 : Dim ℤ 3 := ⟨![0, 2, 7], [0, 1, 3], argsort ![0, 2, 7]⟩
    let d1 : Dim ℤ 3 := ⟨![5, 1, 3], [0, 4, 6], argsort ![5, 1, 3]⟩
    (List.range 5).map (ndSlice [d0, d1]) = [some [], some [0], some [1, 2], some [], none] ∧
      (∀ d ∈ [d0, d1], IsArgsort d.vals d.perm) ∧ (∀ d ∈ [d0, d1], d.bins.Pairwise (· ≤ ·)) := by
  refine ⟨by decide +kernel, ?_, by decide +kernel⟩
  simp only [List.mem_cons, List.not_mem_nil, or_false, forall_eq_or_imp, forall_eq]
  exact ⟨argsort_isArgsort _, argsort_isArgsort _⟩

/-! ## MovieSlicer -/

/-- **C05, cumulative mode.** Slice `i` holds exactly the rows with a value below
`bins[i+1]` — every row, for the last slice — and with sorted edges each slice
is a prefix of every later one. -/
theorem movie_cumulative (vals : Fin n → α) (bins : List α) (p : List (Fin n))
    (hp : IsArgsort vals p) :
    (∀ i, i + 1 < bins.length → ∃ s, movieCumulative vals bins p i = some s ∧ s.Nodup ∧
      ∀ j, j ∈ s ↔ (i + 2 < bins.length → ∀ hi, bins[i + 1]? = some hi → vals j < hi)) ∧
    (bins.Pairwise (· ≤ ·) → ∀ i k s t, i ≤ k → movieCumulative vals bins p i = some s →
      movieCumulative vals bins p k = some t → s <+: t) := by
  constructor
  · intro i hi
    unfold movieCumulative movieLeft
    by_cases h2 : i + 2 < bins.length
    · rw [lefts_get vals bins p (i + 1) h2]
      refine ⟨_, rfl, hp.nodup.sublist (pySlice_sublist _ _ _), fun j => ?_⟩
      unfold pySlice
      beta_reduce
      rw [List.drop_zero, take_searchsorted vals p _ hp.sorted]
      simp only [List.mem_filter, hp.mem j, true_and, decide_eq_true_eq]
      constructor
      · intro h _ hi' e
        rw [List.getElem?_eq_getElem hi] at e; cases e; exact h
      · intro h; exact h h2 _ (List.getElem?_eq_getElem hi)
    · have e : i + 1 = bins.length - 1 := by omega
      rw [e, lefts_last vals bins p]
      refine ⟨_, rfl, hp.nodup.sublist (pySlice_sublist _ _ _), fun j => ?_⟩
      simp [pySlice, hp.mem j, h2]
  · intro hs i k s t hik h1 h2
    have key : ∀ i s, movieCumulative vals bins p i = some s → ∃ r, (movieLeft vals bins p)[i + 1]? = some r ∧
        s = p.take r := by
      intro i s h
      unfold movieCumulative at h
      cases hr : (movieLeft vals bins p)[i + 1]? with
      | none => simp [hr] at h
      | some r => exact ⟨r, rfl, by simpa [hr, pySlice] using h.symm⟩
    obtain ⟨r, er, rfl⟩ := key i s h1
    obtain ⟨r', er', rfl⟩ := key k t h2
    have hrr : r ≤ r' ∨ p.length ≤ r' := by
      unfold movieLeft at er er'
      have hk : k + 1 < bins.length - 1 + 1 := by
        have := (List.getElem?_eq_some_iff.mp er').1
        simpa using this
      by_cases h3 : k + 2 < bins.length
      · rw [lefts_get vals bins p (k + 1) h3] at er'
        rw [lefts_get vals bins p (i + 1) (by omega)] at er
        cases er; cases er'
        left
        exact searchsorted_mono _ (sorted_get_le hs (by omega) (by omega))
      · have e : k + 1 = bins.length - 1 := by omega
        rw [e, lefts_last vals bins p] at er'
        cases er'
        right; exact le_rfl
    rcases hrr with h | h
    · exact List.take_prefix_take_left h
    · rw [List.take_of_length_le h]; exact List.take_prefix _ _

/-- **C05, non-cumulative mode.** With sorted edges (at least two) slice `i`
holds exactly the rows in bin `i` (last bin unbounded above) and every row at or
above the first edge is in exactly one slice. -/
theorem movie_step_partition (vals : Fin n → α) (bins : List α) (p : List (Fin n))
    (hp : IsArgsort vals p) (hs : bins.Pairwise (· ≤ ·)) (hl : 2 ≤ bins.length) :
    (∀ i, i + 1 < bins.length → ∃ s, movieStep vals bins p i = some s ∧ s.Nodup ∧
      ∀ j, j ∈ s ↔ InBin bins i (vals j)) ∧
    ∀ j b₀, bins.head? = some b₀ → b₀ ≤ vals j →
      ∃! i : Nat, ∃ s, movieStep vals bins p i = some s ∧ j ∈ s := by
  have key : ∀ i, i + 1 < bins.length → ∃ s, movieStep vals bins p i = some s ∧ s.Nodup ∧
      ∀ j, j ∈ s ↔ InBin bins i (vals j) := by
    intro i hi
    obtain ⟨l, r, el, er, hnd, hm⟩ := left_slice_spec vals bins p hp i hi
    refine ⟨pySlice p l r, ?_, hnd, hm⟩
    unfold movieStep movieLeft
    rw [el, er]
  refine ⟨key, fun j b₀ hb hv => ?_⟩
  obtain ⟨i, hi, hu⟩ := inBin_existsUnique bins hs hl (vals j) b₀ hb hv
  have hil : i + 1 < bins.length := by obtain ⟨_, _, h, _⟩ := hi; exact h
  obtain ⟨s, h1, -, h2⟩ := key i hil
  refine ⟨i, ⟨s, h1, (h2 j).mpr hi⟩, ?_⟩
  rintro k ⟨t, hk, hjt⟩
  have hkl : k + 1 < bins.length := by
    by_contra hge
    unfold movieStep movieLeft at hk
    rw [lefts_none vals bins p (k + 1) (by omega) (by omega)] at hk
    simp at hk
  obtain ⟨t', e1, -, e2⟩ := key k hkl
  rw [hk] at e1
  cases e1
  exact hu k ((e2 j).mp hjt)

/-- Non-vacuity for C05: a row below the first edge, one above the last. -/
example :
    (List.range 3).map (movieCumulative (α := ℤ) ![9, -1, 1, 2] [0, 2, 4] (argsort ![9, -1, 1, 2]))
      = [some [1, 2], some [1, 2, 3, 0], none] ∧
    (List.range 3).map (movieStep (α := ℤ) ![9, -1, 1, 2] [0, 2, 4] (argsort ![9, -1, 1, 2]))
      = [some [2], some [3, 0], none] ∧
    IsArgsort (α := ℤ) ![9, -1, 1, 2] (argsort (α := ℤ) ![9, -1, 1, 2]) :=
  ⟨by decide +kernel, by decide +kernel, argsort_isArgsort _⟩

end Verif.Slicers
