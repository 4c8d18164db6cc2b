import Verif.Model.Spectres
import Mathlib.Algebra.Order.Ring.Rat
import Mathlib.Algebra.BigOperators.Intervals
import Mathlib.Algebra.BigOperators.Ring.Finset
import Mathlib.Algebra.Order.BigOperators.Group.Finset
import Mathlib.Data.List.GetD
import Mathlib.Tactic.Linarith
import Mathlib.Tactic.FieldSimp
import Mathlib.Tactic.Ring

/-!
# Flux conserving resampling of spectra

A spectrum on a wavelength grid is read as a step function: flux `f i` on bin `i`, whose
edges lie half way between grid points. The resampled flux of a new bin is the mean of
that step function over the bin.
-/

namespace Verif.Spectres

variable {K : Type*} [Field K] [LinearOrder K] [IsStrictOrderedRing K]

set_option linter.unusedSectionVars false

/-! ## Specification -/

/-- Wavelength grids: at least two points, strictly increasing. -/
def Grid (w : List K) : Prop := 2 ≤ w.length ∧ w.Pairwise (· < ·)

/-- Length of the part of `[l, r]` inside `[a, b]`. -/
def overlap (a b l r : K) : K := max 0 (min b r - max a l)

/-- Integral over `[a, b]` of the step function with values `f i` between the edges
`e i` and `e (i + 1)`, `i < n`. -/
def integral (n : Nat) (e f : Nat → K) (a b : K) : K :=
  ∑ i ∈ Finset.range n, f i * overlap a b (e i) (e (i + 1))

/-- Left and right end of the cell of grid point `i`: half way to the neighbours, and as
far outside as inside at both ends of the grid. -/
def cellLeft (w : List K) (i : Nat) : K :=
  if i = 0 then w.getD 0 0 - (w.getD 1 0 - w.getD 0 0) / 2
  else (w.getD (i - 1) 0 + w.getD i 0) / 2

def cellRight (w : List K) (i : Nat) : K :=
  if i + 1 = w.length then w.getD i 0 + (w.getD i 0 - w.getD (i - 1) 0) / 2
  else (w.getD i 0 + w.getD (i + 1) 0) / 2

/-- Integral over `[a, b]` of the spectrum with flux `f i` on the cell of wavelength `i`. -/
def spectrumIntegral (w f : List K) (a b : K) : K :=
  ∑ i ∈ Finset.range w.length, f.getD i 0 * overlap a b (cellLeft w i) (cellRight w i)

/-- The cell of wavelength `j` of the new grid sticks out of the cells of the old grid. -/
def Outside (v w : List K) (j : Nat) : Prop :=
  cellLeft v j < cellLeft w 0 ∨ cellRight w (w.length - 1) < cellRight v j

/-! ## Edges -/

theorem grid_lt {w : List K} (h : Grid w) {i j : Nat} (hij : i < j) (hj : j < w.length) :
    w.getD i 0 < w.getD j 0 := by
  rw [List.getD_eq_getElem _ _ (hij.trans hj), List.getD_eq_getElem _ _ hj]
  exact List.pairwise_iff_getElem.mp h.2 i j _ _ hij

theorem edge_left (w : List K) (i : Nat) (hi : i < w.length) : edge w i = cellLeft w i := by
  unfold edge cellLeft
  dsimp only
  split_ifs with h1 h2
  · rfl
  · omega
  · ring

theorem edge_right (w : List K) (i : Nat) (_hi : i < w.length) :
    edge w (i + 1) = cellRight w i := by
  unfold edge cellRight
  dsimp only
  rw [if_neg (by omega)]
  split_ifs with h1
  · have : w.length - 1 = i := by omega
    have h2 : w.length - 2 = i - 1 := by omega
    rw [this, h2]
  · simp; ring

theorem edge_lt_succ {w : List K} (h : Grid w) {i : Nat} (hi : i < w.length) :
    edge w i < edge w (i + 1) := by
  rw [edge_left w i hi, edge_right w i hi]
  have h2 := h.1
  unfold cellLeft cellRight
  split_ifs with h1 h3 h3
  · omega
  · subst h1
    have := grid_lt h (i := 0) (j := 1) (by omega) (by omega)
    simp only [Nat.zero_add]
    linarith
  · have := grid_lt h (i := i - 1) (j := i) (by omega) (by omega)
    linarith
  · have := grid_lt h (i := i - 1) (j := i) (by omega) (by omega)
    have := grid_lt h (i := i) (j := i + 1) (by omega) (by omega)
    linarith

theorem edge_mono {w : List K} (h : Grid w) {i j : Nat} (hij : i ≤ j) (hj : j ≤ w.length) :
    edge w i ≤ edge w j := by
  induction j, hij using Nat.le_induction with
  | base => exact le_rfl
  | succ j hij ih => exact (ih (by omega)).trans (edge_lt_succ h (by omega)).le

theorem width_eq {w : List K} (h : Grid w) {i : Nat} (hi : i < w.length) :
    width w i = edge w (i + 1) - edge w i := by
  have h2 := h.1
  unfold width
  dsimp only
  split_ifs with h1
  · rw [edge_left w i hi, edge_right w i hi]
    unfold cellLeft cellRight
    rw [if_pos (by omega), if_neg (by omega), h1]
    have : w.length - 2 = w.length - 1 - 1 := by omega
    rw [this]
    ring
  · rfl

/-- The points of a grid lie in their cells. -/
theorem mem_cell {w : List K} (h : Grid w) {i : Nat} (hi : i < w.length) :
    cellLeft w i < w.getD i 0 ∧ w.getD i 0 < cellRight w i := by
  have h2 := h.1
  unfold cellLeft cellRight
  constructor
  · split_ifs with h1
    · have := grid_lt h (i := 0) (j := 1) (by omega) (by omega)
      rw [h1]; linarith
    · have := grid_lt h (i := i - 1) (j := i) (by omega) (by omega)
      linarith
  · split_ifs with h1
    · have := grid_lt h (i := i - 1) (j := i) (by omega) (by omega)
      linarith
    · have := grid_lt h (i := i) (j := i + 1) (by omega) (by omega)
      linarith

/-! ## The pointers -/

theorem advance_spec (p : K → Bool) (e : List K) (m : Nat) (hm : m + 1 < e.length)
    (hp : p (e.getD (m + 1) 0) = false) :
    ∀ (fuel i : Nat), i ≤ m → m < fuel + i →
      ∃ k, advance p e fuel i = some k ∧ i ≤ k ∧ k ≤ m ∧ p (e.getD (k + 1) 0) = false ∧
        (k = i ∨ p (e.getD k 0) = true) := by
  intro fuel
  induction fuel with
  | zero => intro i h1 h2; omega
  | succ f ih =>
    intro i h1 h2
    have hi : i + 1 < e.length := by omega
    have hg : e[i + 1]? = some (e.getD (i + 1) 0) := by
      rw [List.getD_eq_getElem _ _ hi, List.getElem?_eq_getElem hi]
    unfold advance
    rw [hg]
    dsimp only
    by_cases hv : p (e.getD (i + 1) 0) = true
    · rw [if_pos hv]
      have : i ≠ m := by rintro rfl; rw [hp] at hv; cases hv
      obtain ⟨k, hk, h3, h4, h5, h6⟩ := ih (i + 1) (by omega) (by omega)
      refine ⟨k, hk, by omega, h4, h5, Or.inr ?_⟩
      rcases h6 with rfl | h6
      · exact hv
      · exact h6
    · rw [if_neg hv]
      exact ⟨i, rfl, le_rfl, h1, by simpa using hv, Or.inl rfl⟩

/-! ## Sums over slices -/

theorem slice_getD (l : List K) (s t k : Nat) (hk : k < t + 1 - s) :
    (slice l s t).getD k 0 = l.getD (s + k) 0 := by
  unfold slice
  simp only [List.getD_eq_getElem?_getD, List.getElem?_take, List.getElem?_drop]
  rw [if_pos hk]

theorem sum_eq_range (l : List K) : l.sum = ∑ k ∈ Finset.range l.length, l.getD k 0 := by
  induction l with
  | nil => simp
  | cons a l ih =>
    rw [List.length_cons, Finset.sum_range_succ']
    simp only [List.getD_cons_zero, List.getD_cons_succ, List.sum_cons, ih]
    ring

theorem slice_sum (l : List K) (s t : Nat) (ht : t < l.length) :
    (slice l s t).sum = ∑ k ∈ Finset.range (t + 1 - s), l.getD (s + k) 0 := by
  have hl : (slice l s t).length = t + 1 - s := by
    unfold slice; rw [List.length_take, List.length_drop]; omega
  rw [sum_eq_range, hl]
  exact Finset.sum_congr rfl fun k hk => slice_getD l s t k (Finset.mem_range.mp hk)

theorem slice_dot (l f : List K) (s t : Nat) (hl : t < l.length) (hf : t < f.length) :
    (List.zipWith (· * ·) (slice l s t) (slice f s t)).sum =
      ∑ k ∈ Finset.range (t + 1 - s), l.getD (s + k) 0 * f.getD (s + k) 0 := by
  have h1 : (slice l s t).length = t + 1 - s := by
    unfold slice; rw [List.length_take, List.length_drop]; omega
  have h2 : (slice f s t).length = t + 1 - s := by
    unfold slice; rw [List.length_take, List.length_drop]; omega
  rw [sum_eq_range, List.length_zipWith, h1, h2, Nat.min_self]
  refine Finset.sum_congr rfl fun k hk => ?_
  have hk := Finset.mem_range.mp hk
  rw [← slice_getD l s t k hk, ← slice_getD f s t k hk,
    List.getD_eq_getElem _ _ (by rw [List.length_zipWith]; omega),
    List.getD_eq_getElem _ _ (by omega), List.getD_eq_getElem _ _ (by omega)]
  simp

theorem modify_getD (l : List K) (g : K → K) (i k : Nat) (hk : k < l.length) :
    (l.modify i g).getD k 0 = if k = i then g (l.getD k 0) else l.getD k 0 := by
  rw [List.getD_eq_getElem _ _ (by rw [List.length_modify]; exact hk), List.getElem_modify,
    List.getD_eq_getElem _ _ hk]
  by_cases h : i = k
  · subst h; simp
  · rw [if_neg h, if_neg (Ne.symm h)]

/-! ## Overlaps -/

theorem overlap_eq {a b l r : K} (hab : a ≤ b) (hlr : l ≤ r) :
    overlap a b l r = max a (min b r) - max a (min b l) := by
  unfold overlap
  rcases le_total b l with h1 | h1
  · rw [min_eq_left h1, min_eq_left (h1.trans hlr), max_eq_right hab,
      max_eq_right (hab.trans h1)]
    simp [h1]
  · rw [min_eq_right h1]
    rcases le_total b r with h2 | h2
    · rw [min_eq_left h2, max_eq_right hab]
      have : max a l ≤ b := max_le hab h1
      rw [max_eq_right (by linarith)]
    · rw [min_eq_right h2]
      rcases le_total a l with h3 | h3
      · rw [max_eq_right h3, max_eq_right (h3.trans hlr), max_eq_right (by linarith)]
      · rw [max_eq_left h3]
        rcases le_total a r with h4 | h4
        · rw [max_eq_right h4, max_eq_right (by linarith)]
        · rw [max_eq_left h4, max_eq_left (by linarith)]; ring

/-- The overlaps of an interval with the cells of a partition add up to its length. -/
theorem overlap_total (n : Nat) (e : Nat → K) (he : ∀ i, i < n → e i ≤ e (i + 1)) {a b : K}
    (hab : a ≤ b) (h0 : e 0 ≤ a) (hn : b ≤ e n) :
    ∑ i ∈ Finset.range n, overlap a b (e i) (e (i + 1)) = b - a := by
  rw [Finset.sum_congr rfl fun i hi => overlap_eq hab (he i (Finset.mem_range.mp hi)),
    Finset.sum_range_sub (fun i => max a (min b (e i)))]
  rw [min_eq_left hn, max_eq_right hab, min_eq_right (h0.trans hab), max_eq_left h0]

/-- Integrals over adjacent intervals add up. -/
theorem integral_add (n : Nat) (e f : Nat → K) (he : ∀ i, i < n → e i ≤ e (i + 1)) {a b c : K}
    (hab : a ≤ b) (hbc : b ≤ c) :
    integral n e f a b + integral n e f b c = integral n e f a c := by
  unfold integral
  rw [← Finset.sum_add_distrib]
  refine Finset.sum_congr rfl fun i hi => ?_
  have h := he i (Finset.mem_range.mp hi)
  rw [overlap_eq hab h, overlap_eq hbc h, overlap_eq (hab.trans hbc) h, ← mul_add]
  congr 1
  have key : ∀ x : K, max a (min b x) + max b (min c x) = max a (min c x) + b := by
    intro x
    rcases le_total b x with h1 | h1
    · rw [min_eq_left h1, max_eq_right hab, max_eq_right (le_min hbc h1),
        max_eq_right (hab.trans (le_min hbc h1))]
      ring
    · rw [min_eq_right h1, min_eq_right (h1.trans hbc), max_eq_left h1]
  have h1 := key (e i)
  have h2 := key (e (i + 1))
  linarith

/-! ## One new bin -/

theorem edges_getD (w : List K) (i : Nat) (hi : i ≤ w.length) :
    ((List.range (w.length + 1)).map (edge w)).getD i 0 = edge w i := by
  rw [List.getD_eq_getElem _ _ (by simp; omega)]
  simp

theorem widths_getD (w : List K) (i : Nat) (hi : i < w.length) :
    ((List.range w.length).map (width w)).getD i 0 = width w i := by
  rw [List.getD_eq_getElem _ _ (by simp; omega)]
  simp

theorem step_spec {w f : List K} (hw : Grid w) (hf : f.length = w.length) (fill : Option K)
    (ne : List K) (st : State K) (j : Nat) (hab : ne.getD j 0 < ne.getD (j + 1) 0)
    (h0 : edge w 0 ≤ ne.getD j 0) (hn : ne.getD (j + 1) 0 ≤ edge w w.length)
    (hst : st.widths = (List.range w.length).map (width w))
    (h1 : st.start < w.length) (h2 : st.stop < w.length)
    (h3 : edge w st.start ≤ ne.getD j 0 ∨ st.start = 0)
    (h4 : edge w st.stop < ne.getD (j + 1) 0 ∨ st.stop = 0) :
    ∃ s t v, step fill ((List.range (w.length + 1)).map (edge w)) f ne st j =
        some (⟨s, t, st.widths⟩, some v) ∧ s < w.length ∧ t < w.length ∧
      edge w s ≤ ne.getD j 0 ∧ edge w t < ne.getD (j + 1) 0 ∧
      v * (ne.getD (j + 1) 0 - ne.getD j 0) =
        integral w.length (edge w) (fun i => f.getD i 0) (ne.getD j 0) (ne.getD (j + 1) 0) := by
  have hlen := hw.1
  set a := ne.getD j 0 with ha
  set b := ne.getD (j + 1) 0 with hb
  set n := w.length with hnn
  set oe := (List.range (n + 1)).map (edge w) with hoe
  have hoel : oe.length = n + 1 := by simp [hoe]
  have hE : ∀ i, i ≤ n → oe.getD i 0 = edge w i := fun i hi => edges_getD w i hi
  obtain ⟨s, hs, hs1, hs2, hs3, hs4⟩ := advance_spec (fun v => decide (v ≤ a)) oe (n - 1)
    (by omega) (by
      have : n - 1 + 1 = n := by omega
      rw [this, hE n le_rfl]; simpa using hab.trans_le hn) oe.length st.start (by omega) (by omega)
  obtain ⟨t, ht, ht1, ht2, ht3, ht4⟩ := advance_spec (fun v => decide (v < b)) oe (n - 1)
    (by omega) (by
      have : n - 1 + 1 = n := by omega
      rw [this, hE n le_rfl]; simpa using hn) oe.length st.stop (by omega) (by omega)
  have hsn : s < n := by omega
  have htn : t < n := by omega
  rw [hE (s + 1) (by omega)] at hs3
  rw [hE (t + 1) (by omega)] at ht3
  rw [hE s (by omega)] at hs4
  rw [hE t (by omega)] at ht4
  have hsa : a < edge w (s + 1) := by simpa using hs3
  have htb : b ≤ edge w (t + 1) := by simpa using ht3
  have hsl : edge w s ≤ a := by
    rcases hs4 with rfl | h
    · rcases h3 with h | h
      · exact h
      · rw [h]; exact h0
    · simpa using h
  have htl : edge w t < b := by
    rcases ht4 with rfl | h
    · rcases h4 with h | h
      · exact h
      · rw [h]; exact h0.trans_lt hab
    · simpa using h
  have hst' : s ≤ t := by
    by_contra hc
    have := edge_mono hw (i := t + 1) (j := s) (by omega) (by omega)
    exact absurd (hab.trans_le (htb.trans (this.trans hsl))) (lt_irrefl _)
  have hmono : ∀ i, i < n → edge w i ≤ edge w (i + 1) := fun i hi => (edge_lt_succ hw hi).le
  have hzero : ∀ i, i < n → i ∉ Finset.Ico s (t + 1) →
      overlap a b (edge w i) (edge w (i + 1)) = 0 := by
    intro i hi hni
    rw [Finset.mem_Ico] at hni
    rw [overlap_eq hab.le (hmono i hi)]
    by_cases hc : i < s
    · have := edge_mono hw (i := i + 1) (j := s) (by omega) (by omega)
      have h5 : edge w (i + 1) ≤ a := this.trans hsl
      have h6 := (hmono i hi).trans h5
      rw [max_eq_left ((min_le_right _ _).trans h5), max_eq_left ((min_le_right _ _).trans h6)]
      ring
    · have h5 := edge_mono hw (i := t + 1) (j := i) (by omega) (by omega)
      have h6 := htb.trans h5
      rw [min_eq_left h6, min_eq_left (h6.trans (hmono i hi))]
      ring
  have hint : ∀ g : Nat → K, integral n (edge w) g a b =
      ∑ i ∈ Finset.Ico s (t + 1), g i * overlap a b (edge w i) (edge w (i + 1)) := by
    intro g
    unfold integral
    symm
    refine Finset.sum_subset ?_ ?_
    · intro i hi
      rw [Finset.mem_Ico] at hi
      rw [Finset.mem_range]; omega
    · intro i hi hni
      rw [hzero i (Finset.mem_range.mp hi) hni, mul_zero]
  have htot : ∑ i ∈ Finset.Ico s (t + 1), overlap a b (edge w i) (edge w (i + 1)) = b - a := by
    have h5 := hint (fun _ => 1)
    simp only [one_mul] at h5
    rw [← h5]
    unfold integral
    simp only [one_mul]
    exact overlap_total n (edge w) hmono hab.le h0 hn
  have hnot : ¬ (a < oe.getD 0 0 ∨ oe.getD (oe.length - 1) 0 < b) := by
    rw [hoel, hE 0 (by omega), Nat.add_sub_cancel, hE n le_rfl]
    rintro (h | h)
    · exact absurd h (not_lt.mpr h0)
    · exact absurd h (not_lt.mpr hn)
  by_cases hts : t = s
  · refine ⟨s, t, f.getD s 0, ?_, hsn, htn, hsl, htl, ?_⟩
    · unfold step
      dsimp only
      rw [if_neg hnot, hs, ht]
      dsimp only
      rw [if_pos hts]
    · rw [hint, hts, Nat.Ico_succ_singleton, Finset.sum_singleton]
      rw [hts, Nat.Ico_succ_singleton, Finset.sum_singleton] at htot
      rw [htot]
  · have hlt : s < t := by omega
    set sf := (oe.getD (s + 1) 0 - a) / (oe.getD (s + 1) 0 - oe.getD s 0) with hsf
    set ef := (b - oe.getD t 0) / (oe.getD (t + 1) 0 - oe.getD t 0) with hef
    rw [hE (s + 1) (by omega), hE s (by omega)] at hsf
    rw [hE (t + 1) (by omega), hE t (by omega)] at hef
    have hws := edge_lt_succ hw hsn
    have hwt := edge_lt_succ hw htn
    have hsf0 : sf ≠ 0 := by
      rw [hsf]; exact (div_pos (by linarith) (by linarith)).ne'
    have hef0 : ef ≠ 0 := by
      rw [hef]; exact (div_pos (by linarith) (by linarith)).ne'
    have hwl : st.widths.length = n := by rw [hst]; simp
    set W := (st.widths.modify s (· * sf)).modify t (· * ef) with hW
    have hWl : W.length = n := by rw [hW, List.length_modify, List.length_modify, hwl]
    have hWi : ∀ i, s ≤ i → i < t + 1 → W.getD i 0 = overlap a b (edge w i) (edge w (i + 1)) := by
      intro i hi1 hi2
      have hin : i < n := by omega
      rw [hW, modify_getD _ _ _ _ (by rw [List.length_modify, hwl]; exact hin),
        modify_getD _ _ _ _ (by rw [hwl]; exact hin), hst, widths_getD w i hin,
        width_eq hw hin, overlap_eq hab.le (hmono i hin)]
      by_cases his : i = s
      · rw [if_neg (by omega), if_pos his, hsf, his]
        have h5 := edge_mono hw (i := s + 1) (j := t) (by omega) (by omega)
        rw [min_eq_right (h5.trans htl.le), max_eq_right hsa.le,
          min_eq_right (hsl.trans hab.le), max_eq_left hsl]
        have : edge w (s + 1) - edge w s ≠ 0 := by intro h; linarith
        field_simp
      · by_cases hit : i = t
        · rw [if_pos hit, if_neg his, hef, hit]
          have h5 := edge_mono hw (i := s + 1) (j := t) (by omega) (by omega)
          rw [min_eq_left htb, max_eq_right hab.le, min_eq_right htl.le,
            max_eq_right (hsa.le.trans h5)]
          have : edge w (t + 1) - edge w t ≠ 0 := by intro h; linarith
          field_simp
        · rw [if_neg hit, if_neg his]
          have h5 := edge_mono hw (i := s + 1) (j := i) (by omega) (by omega)
          have h6 := edge_mono hw (i := i + 1) (j := t) (by omega) (by omega)
          have h7 := hmono i hin
          rw [min_eq_right (h6.trans htl.le), min_eq_right (h7.trans (h6.trans htl.le)),
            max_eq_right (hsa.le.trans h5), max_eq_right (hsa.le.trans (h5.trans h7))]
    have hWsum : (slice W s t).sum = b - a := by
      rw [slice_sum W s t (by omega), ← htot, Finset.sum_Ico_eq_sum_range]
      refine Finset.sum_congr rfl fun k hk => ?_
      have := Finset.mem_range.mp hk
      exact hWi (s + k) (by omega) (by omega)
    have hback : (W.modify s (· / sf)).modify t (· / ef) = st.widths := by
      refine List.ext_getElem (by rw [List.length_modify, List.length_modify, hWl, hwl]) ?_
      intro i hi1 hi2
      have hin : i < n := by omega
      rw [← List.getD_eq_getElem _ 0 hi1, ← List.getD_eq_getElem _ 0 hi2,
        modify_getD _ _ _ _ (by rw [List.length_modify, hWl]; exact hin),
        modify_getD _ _ _ _ (by rw [hWl]; exact hin), hW,
        modify_getD _ _ _ _ (by rw [List.length_modify, hwl]; exact hin),
        modify_getD _ _ _ _ (by rw [hwl]; exact hin)]
      by_cases his : i = s
      · rw [if_neg (by omega), if_pos his, if_neg (by omega), if_pos his]
        field_simp
      · by_cases hit : i = t
        · rw [if_pos hit, if_neg his, if_pos hit, if_neg his]
          field_simp
        · rw [if_neg hit, if_neg his, if_neg hit, if_neg his]
    refine ⟨s, t, (List.zipWith (· * ·) (slice W s t) (slice f s t)).sum / (slice W s t).sum,
      ?_, hsn, htn, hsl, htl, ?_⟩
    · unfold step
      dsimp only
      rw [if_neg hnot, hs, ht]
      dsimp only
      rw [if_neg hts, if_neg (by rw [hWsum]; intro h; linarith), hback]
    · rw [hWsum, div_mul_cancel₀ _ (by intro h; linarith), hint,
        slice_dot W f s t (by omega) (by omega), Finset.sum_Ico_eq_sum_range]
      refine Finset.sum_congr rfl fun k hk => ?_
      have := Finset.mem_range.mp hk
      rw [hWi (s + k) (by omega) (by omega), mul_comm]

/-! ## All new bins -/

theorem integral_eq (w f : List K) (a b : K) :
    integral w.length (edge w) (fun i => f.getD i 0) a b = spectrumIntegral w f a b := by
  unfold integral spectrumIntegral
  refine Finset.sum_congr rfl fun i hi => ?_
  have := Finset.mem_range.mp hi
  rw [edge_left w i this, edge_right w i this]

theorem outside_iff {v w : List K} (hw : Grid w) {j : Nat} (hj : j < v.length) :
    (edge v j < edge w 0 ∨ edge w w.length < edge v (j + 1)) ↔ Outside v w j := by
  have h2 := hw.1
  unfold Outside
  have : w.length = w.length - 1 + 1 := by omega
  rw [edge_left v j hj, edge_right v j hj, edge_left w 0 (by omega)]
  conv_lhs => rw [this, edge_right w (w.length - 1) (by omega)]

theorem loop_spec {v w f : List K} (hw : Grid w) (hv : Grid v) (hf : f.length = w.length)
    (fill : Option K) :
    ∀ (k j : Nat) (st : State K), j + k = v.length →
      st.widths = (List.range w.length).map (width w) → st.start < w.length →
      st.stop < w.length → (j < v.length → edge w st.start ≤ edge v j ∨ st.start = 0) →
      (j < v.length → edge w st.stop < edge v (j + 1) ∨ st.stop = 0) →
      ∃ out, loop fill ((List.range (w.length + 1)).map (edge w)) f
          ((List.range (v.length + 1)).map (edge v)) k j st = some out ∧ out.length = k ∧
        ∀ i, i < k →
          (Outside v w (j + i) → out[i]? = some fill) ∧
          (¬ Outside v w (j + i) → ∃ x, out[i]? = some (some x) ∧
            x * (cellRight v (j + i) - cellLeft v (j + i)) =
              spectrumIntegral w f (cellLeft v (j + i)) (cellRight v (j + i))) := by
  have hlen := hw.1
  intro k
  induction k with
  | zero =>
    intro j st _ _ _ _ _ _
    exact ⟨[], rfl, rfl, by intro i hi; omega⟩
  | succ k ih =>
    intro j st hjk h1 h2 h3 h4 h5
    have hj : j < v.length := by omega
    set oe := (List.range (w.length + 1)).map (edge w) with hoe
    set ne := (List.range (v.length + 1)).map (edge v) with hne
    have hnj : ne.getD j 0 = edge v j := edges_getD v j (by omega)
    have hnj1 : ne.getD (j + 1) 0 = edge v (j + 1) := edges_getD v (j + 1) (by omega)
    have ho0 : oe.getD 0 0 = edge w 0 := edges_getD w 0 (by omega)
    have hon : oe.getD (oe.length - 1) 0 = edge w w.length := by
      have : oe.length - 1 = w.length := by simp [hoe]
      rw [this]; exact edges_getD w _ le_rfl
    have hlt := edge_lt_succ hv hj
    obtain ⟨st', x, hstep, g1, g2, g3, g4, g5, g6⟩ : ∃ st' x,
        step fill oe f ne st j = some (st', x) ∧
        st'.widths = (List.range w.length).map (width w) ∧ st'.start < w.length ∧
        st'.stop < w.length ∧
        (edge w st'.start ≤ edge v (j + 1) ∨ st'.start = 0) ∧
        (j + 1 < v.length → edge w st'.stop < edge v (j + 2) ∨ st'.stop = 0) ∧
        ((Outside v w j → x = fill) ∧ (¬ Outside v w j → ∃ y, x = some y ∧
            y * (cellRight v j - cellLeft v j) =
              spectrumIntegral w f (cellLeft v j) (cellRight v j))) := by
      by_cases ho : Outside v w j
      · refine ⟨st, fill, ?_, h1, h2, h3, ?_, ?_, fun _ => rfl, fun h => absurd ho h⟩
        · unfold step
          dsimp only
          rw [if_pos]
          rw [hnj, hnj1, ho0, hon]
          exact (outside_iff hw hj).mpr ho
        · rcases h4 hj with h | h
          · exact Or.inl (h.trans hlt.le)
          · exact Or.inr h
        · intro hj1
          rcases h5 hj with h | h
          · exact Or.inl (h.trans (edge_lt_succ hv hj1))
          · exact Or.inr h
      · have ho' := mt (outside_iff hw hj).mp ho
        rw [not_or, not_lt, not_lt] at ho'
        obtain ⟨s, t, y, e1, e2, e3, e4, e5, e6⟩ := step_spec hw hf fill ne st j
          (by rw [hnj, hnj1]; exact hlt) (by rw [hnj]; exact ho'.1) (by rw [hnj1]; exact ho'.2)
          h1 h2 h3 (by rw [hnj]; exact h4 hj) (by rw [hnj1]; exact h5 hj)
        refine ⟨_, _, e1, h1, e2, e3, ?_, ?_, fun h => absurd h ho, fun _ => ⟨y, rfl, ?_⟩⟩
        · rw [hnj] at e4
          exact Or.inl (e4.trans hlt.le)
        · intro hj1
          rw [hnj1] at e5
          exact Or.inl (e5.trans (edge_lt_succ hv hj1))
        · rw [hnj, hnj1, integral_eq] at e6
          rw [← edge_left v j hj, ← edge_right v j hj]
          exact e6
    obtain ⟨out, q1, q2, q3⟩ := ih (j + 1) st' (by omega) g1 g2 g3 (fun _ => g4) g5
    refine ⟨x :: out, ?_, by simp [q2], ?_⟩
    · unfold loop
      rw [hstep]
      dsimp only
      rw [q1]
      rfl
    · intro i hi
      cases i with
      | zero =>
        simp only [Nat.add_zero, List.getElem?_cons_zero]
        refine ⟨fun h => by rw [g6.1 h], fun h => ?_⟩
        obtain ⟨y, hy, hy2⟩ := g6.2 h
        exact ⟨y, by rw [hy], hy2⟩
      | succ i =>
        have := q3 i (by omega)
        rw [show j + 1 + i = j + (i + 1) by omega] at this
        simpa only [List.getElem?_cons_succ] using this

/-- Resampling onto any grid never fails. It gives one value per new wavelength: the filler
where the new cell sticks out of the old spectrum, and otherwise the mean of the old
spectrum over the new cell. -/
theorem spectres_spec {v w f : List K} (hw : Grid w) (hv : Grid v) (hf : f.length = w.length)
    (fill : Option K) :
    ∃ out, spectres v w f fill = some out ∧ out.length = v.length ∧
      ∀ j, j < v.length →
        (Outside v w j → out[j]? = some fill) ∧
        (¬ Outside v w j → ∃ x, out[j]? = some (some x) ∧
          x * (cellRight v j - cellLeft v j) =
            spectrumIntegral w f (cellLeft v j) (cellRight v j)) := by
  have h1 := hw.1
  have h2 := hv.1
  obtain ⟨out, q1, q2, q3⟩ := loop_spec hw hv hf fill v.length 0
    ⟨0, 0, (List.range w.length).map (width w)⟩ (by omega) rfl (by dsimp only; omega)
    (by dsimp only; omega) (fun _ => Or.inr rfl) (fun _ => Or.inr rfl)
  refine ⟨out, ?_, q2, ?_⟩
  · unfold spectres makeBins
    rw [if_neg (by omega), if_neg (by omega)]
    exact q1
  · intro j hj
    simpa only [Nat.zero_add] using q3 j hj

theorem cell_lt {w : List K} (h : Grid w) {i : Nat} (hi : i < w.length) :
    cellLeft w i < cellRight w i := (mem_cell h hi).1.trans (mem_cell h hi).2

theorem cell_next {w : List K} {i : Nat} (hi : i + 1 < w.length) :
    cellRight w i = cellLeft w (i + 1) := by
  rw [← edge_right w i (by omega), edge_left w (i + 1) hi]

/-- Overlaps of an interval covered by the spectrum with its cells add up to its length. -/
theorem cells_total {w : List K} (hw : Grid w) {a b : K} (hab : a ≤ b)
    (h0 : cellLeft w 0 ≤ a) (hn : b ≤ cellRight w (w.length - 1)) :
    ∑ i ∈ Finset.range w.length, overlap a b (cellLeft w i) (cellRight w i) = b - a := by
  have h2 := hw.1
  rw [← edge_left w 0 (by omega)] at h0
  rw [← edge_right w (w.length - 1) (by omega), show w.length - 1 + 1 = w.length by omega] at hn
  rw [← overlap_total w.length (edge w) (fun i hi => (edge_lt_succ hw hi).le) hab h0 hn]
  refine Finset.sum_congr rfl fun i hi => ?_
  have := Finset.mem_range.mp hi
  rw [edge_left w i this, edge_right w i this]

theorem overlap_nonneg (a b l r : K) : 0 ≤ overlap a b l r := le_max_left _ _

/-- A resampled value lies between the bounds of the fluxes. -/
theorem spectres_bounds {v w f : List K} (hw : Grid w) (hv : Grid v)
    (hf : f.length = w.length) (fill : Option K) (lo hi : K)
    (hlo : ∀ x ∈ f, lo ≤ x) (hhi : ∀ x ∈ f, x ≤ hi) {out : List (Option K)}
    (h : spectres v w f fill = some out) {j : Nat} (hj : j < v.length) (ho : ¬ Outside v w j) :
    ∃ x, out[j]? = some (some x) ∧ lo ≤ x ∧ x ≤ hi := by
  obtain ⟨out', q1, -, q3⟩ := spectres_spec hw hv hf fill
  rw [h] at q1
  obtain rfl := Option.some.inj q1
  obtain ⟨x, hx, hx2⟩ := (q3 j hj).2 ho
  have hpos := sub_pos.mpr (cell_lt hv hj)
  have hlt := (cell_lt hv hj).le
  rw [Outside, not_or, not_lt, not_lt] at ho
  have htot := cells_total hw hlt ho.1 ho.2
  have hmem : ∀ i, i ∈ Finset.range w.length → f.getD i 0 ∈ f := by
    intro i hi
    have := Finset.mem_range.mp hi
    rw [List.getD_eq_getElem _ _ (by omega)]
    exact List.getElem_mem _
  refine ⟨x, hx, ?_, ?_⟩
  · refine le_of_mul_le_mul_right ?_ hpos
    rw [hx2, ← htot, Finset.mul_sum]
    exact Finset.sum_le_sum fun i hi =>
      mul_le_mul_of_nonneg_right (hlo _ (hmem i hi)) (overlap_nonneg _ _ _ _)
  · refine le_of_mul_le_mul_right ?_ hpos
    rw [hx2, ← htot, Finset.mul_sum]
    exact Finset.sum_le_sum fun i hi =>
      mul_le_mul_of_nonneg_right (hhi _ (hmem i hi)) (overlap_nonneg _ _ _ _)

/-- A flat spectrum stays flat. -/
theorem spectres_const {v w : List K} (hw : Grid w) (hv : Grid v) (fill : Option K) (c : K)
    {out : List (Option K)} (h : spectres v w (List.replicate w.length c) fill = some out)
    {j : Nat} (hj : j < v.length) (ho : ¬ Outside v w j) : out[j]? = some (some c) := by
  obtain ⟨x, hx, h1, h2⟩ := spectres_bounds hw hv (by simp) fill c c
    (fun x hx => (List.eq_of_mem_replicate hx).ge) (fun x hx => (List.eq_of_mem_replicate hx).le)
    h hj ho
  rw [hx, le_antisymm h2 h1]

/-- Resampling onto the grid of the spectrum changes nothing. -/
theorem spectres_self {w f : List K} (hw : Grid w) (hf : f.length = w.length)
    (fill : Option K) : spectres w w f fill = some (f.map some) := by
  have h2 := hw.1
  obtain ⟨out, q1, q2, q3⟩ := spectres_spec hw hw hf fill
  rw [q1]
  congr 1
  refine List.ext_getElem? fun j => ?_
  by_cases hj : j < w.length
  · have ho : ¬ Outside w w j := by
      rw [← outside_iff hw hj, not_or, not_lt, not_lt]
      exact ⟨edge_mono hw (by omega) (by omega), edge_mono hw (by omega) le_rfl⟩
    obtain ⟨x, hx, hx2⟩ := (q3 j hj).2 ho
    have hlt := cell_lt hw hj
    have hsum : spectrumIntegral w f (cellLeft w j) (cellRight w j) =
        f.getD j 0 * (cellRight w j - cellLeft w j) := by
      unfold spectrumIntegral
      rw [Finset.sum_eq_single j]
      · unfold overlap
        rw [min_self, max_self, max_eq_right (by linarith)]
      · intro i hi hij
        have hi := Finset.mem_range.mp hi
        rw [overlap, max_eq_left, mul_zero]
        rcases lt_or_gt_of_ne hij with h | h
        · have h3 := edge_mono hw (i := i + 1) (j := j) (by omega) (by omega)
          rw [edge_right w i hi, edge_left w j hj] at h3
          have h4 := min_le_right (cellRight w j) (cellRight w i)
          have h5 := le_max_left (cellLeft w j) (cellLeft w i)
          linarith
        · have h3 := edge_mono hw (i := j + 1) (j := i) (by omega) (by omega)
          rw [edge_right w j hj, edge_left w i hi] at h3
          have h4 := min_le_left (cellRight w j) (cellRight w i)
          have h5 := le_max_right (cellLeft w j) (cellLeft w i)
          linarith
      · intro h; exact absurd (Finset.mem_range.mpr hj) h
    rw [hsum] at hx2
    have := mul_right_cancel₀ (sub_pos.mpr hlt).ne' hx2
    rw [hx, this, List.getElem?_map, List.getElem?_eq_getElem (by omega : j < f.length),
      List.getD_eq_getElem _ _ (by omega)]
    rfl
  · rw [List.getElem?_eq_none (by omega), List.getElem?_eq_none (by rw [List.length_map]; omega)]

/-- Resampling is linear: it commutes with scaling the spectrum. -/
theorem spectres_smul {v w f : List K} (hw : Grid w) (hv : Grid v) (hf : f.length = w.length)
    (c : K) : spectres v w (f.map (c * ·)) none =
      (spectres v w f none).map (fun out => out.map (Option.map (c * ·))) := by
  obtain ⟨out, q1, q2, q3⟩ := spectres_spec hw hv hf none
  obtain ⟨out', r1, r2, r3⟩ := spectres_spec hw hv (f := f.map (c * ·)) (by simp [hf]) none
  rw [q1, r1]
  simp only [Option.map_some]
  congr 1
  refine List.ext_getElem? fun j => ?_
  rw [List.getElem?_map]
  by_cases hj : j < v.length
  · by_cases ho : Outside v w j
    · rw [(q3 j hj).1 ho, (r3 j hj).1 ho]; rfl
    · obtain ⟨x, hx, hx2⟩ := (q3 j hj).2 ho
      obtain ⟨y, hy, hy2⟩ := (r3 j hj).2 ho
      have hsum : spectrumIntegral w (f.map (c * ·)) (cellLeft v j) (cellRight v j) =
          c * spectrumIntegral w f (cellLeft v j) (cellRight v j) := by
        unfold spectrumIntegral
        rw [Finset.mul_sum]
        refine Finset.sum_congr rfl fun i hi => ?_
        have := Finset.mem_range.mp hi
        rw [List.getD_eq_getElem _ _ (by rw [List.length_map]; omega),
          List.getD_eq_getElem _ _ (by omega), List.getElem_map, mul_assoc]
      rw [hsum, ← hx2, ← mul_assoc] at hy2
      have := mul_right_cancel₀ (sub_pos.mpr (cell_lt hv hj)).ne' hy2
      rw [hx, hy, this]; rfl
  · rw [List.getElem?_eq_none (by omega), List.getElem?_eq_none (by omega)]
    rfl

/-- Resampling is linear: it commutes with adding spectra. -/
theorem spectres_add {v w f g : List K} (hw : Grid w) (hv : Grid v) (hf : f.length = w.length)
    (hg : g.length = w.length) {a b c : List (Option K)} (ha : spectres v w f none = some a)
    (hb : spectres v w g none = some b)
    (hc : spectres v w (List.zipWith (· + ·) f g) none = some c) :
    c = List.zipWith (Option.map₂ (· + ·)) a b := by
  have hfg : (List.zipWith (· + ·) f g).length = w.length := by
    rw [List.length_zipWith, hf, hg, Nat.min_self]
  obtain ⟨a', q1, q2, q3⟩ := spectres_spec hw hv hf none
  obtain ⟨b', r1, r2, r3⟩ := spectres_spec hw hv hg none
  obtain ⟨c', s1, s2, s3⟩ := spectres_spec hw hv hfg none
  rw [ha] at q1; obtain rfl := Option.some.inj q1
  rw [hb] at r1; obtain rfl := Option.some.inj r1
  rw [hc] at s1; obtain rfl := Option.some.inj s1
  refine List.ext_getElem? fun j => ?_
  rw [List.getElem?_zipWith]
  by_cases hj : j < v.length
  · by_cases ho : Outside v w j
    · rw [(q3 j hj).1 ho, (r3 j hj).1 ho, (s3 j hj).1 ho]; rfl
    · obtain ⟨x, hx, hx2⟩ := (q3 j hj).2 ho
      obtain ⟨y, hy, hy2⟩ := (r3 j hj).2 ho
      obtain ⟨z, hz, hz2⟩ := (s3 j hj).2 ho
      have hsum : spectrumIntegral w (List.zipWith (· + ·) f g) (cellLeft v j) (cellRight v j) =
          spectrumIntegral w f (cellLeft v j) (cellRight v j) +
            spectrumIntegral w g (cellLeft v j) (cellRight v j) := by
        unfold spectrumIntegral
        rw [← Finset.sum_add_distrib]
        refine Finset.sum_congr rfl fun i hi => ?_
        have := Finset.mem_range.mp hi
        rw [List.getD_eq_getElem _ _ (by omega), List.getD_eq_getElem _ _ (by omega),
          List.getD_eq_getElem _ _ (by omega), List.getElem_zipWith, add_mul]
      rw [hsum, ← hx2, ← hy2, ← add_mul] at hz2
      have := mul_right_cancel₀ (sub_pos.mpr (cell_lt hv hj)).ne' hz2
      rw [hx, hy, hz, this]; rfl
  · rw [List.getElem?_eq_none (by omega), List.getElem?_eq_none (by omega),
      List.getElem?_eq_none (by omega)]

/-- Flux is conserved: if no new cell sticks out, the new spectrum carries over the whole new
range the flux of the old one. -/
theorem spectres_conserves {v w f : List K} (hw : Grid w) (hv : Grid v)
    (hf : f.length = w.length) (hin : ∀ j, j < v.length → ¬ Outside v w j) :
    ∃ g : List K, spectres v w f none = some (g.map some) ∧ g.length = v.length ∧
      ∑ j ∈ Finset.range v.length, g.getD j 0 * (cellRight v j - cellLeft v j) =
        spectrumIntegral w f (cellLeft v 0) (cellRight v (v.length - 1)) := by
  have h1 := hv.1
  obtain ⟨out, q1, q2, q3⟩ := spectres_spec hw hv hf none
  have hout : ∀ o ∈ out, ∃ x, o = some x := by
    intro o ho
    obtain ⟨j, hj, rfl⟩ := List.getElem_of_mem ho
    obtain ⟨x, hx, -⟩ := (q3 j (by omega)).2 (hin j (by omega))
    rw [List.getElem?_eq_getElem hj] at hx
    exact ⟨x, Option.some.inj hx⟩
  refine ⟨out.map (·.getD 0), ?_, by simp [q2], ?_⟩
  · rw [q1, List.map_map]
    congr 1
    conv_lhs => rw [← List.map_id out]
    refine List.map_congr_left fun o ho => ?_
    obtain ⟨x, rfl⟩ := hout o ho
    rfl
  · have hstep : ∀ m, m < v.length →
        ∑ j ∈ Finset.range (m + 1), (out.map (·.getD 0)).getD j 0 *
          (cellRight v j - cellLeft v j) =
        spectrumIntegral w f (cellLeft v 0) (cellRight v m) := by
      have hterm : ∀ j, j < v.length → (out.map (·.getD 0)).getD j 0 *
          (cellRight v j - cellLeft v j) =
          spectrumIntegral w f (cellLeft v j) (cellRight v j) := by
        intro j hj
        obtain ⟨x, hx, hx2⟩ := (q3 j hj).2 (hin j hj)
        rw [← hx2, List.getD_eq_getElem?_getD, List.getElem?_map, hx]
        rfl
      intro m
      induction m with
      | zero => intro hm; rw [Finset.sum_range_one, hterm 0 hm]
      | succ m ih =>
        intro hm
        rw [Finset.sum_range_succ, ih (by omega), hterm (m + 1) hm, ← cell_next hm,
          ← integral_eq, ← integral_eq, ← integral_eq]
        refine integral_add _ _ _ (fun i hi => (edge_lt_succ hw hi).le) ?_ ?_
        · rw [← edge_left v 0 (by omega), ← edge_right v m (by omega)]
          exact edge_mono hv (by omega) (by omega)
        · rw [cell_next hm]; exact (cell_lt hv hm).le
    have := hstep (v.length - 1) (by omega)
    rwa [show v.length - 1 + 1 = v.length by omega] at this

example : spectres [2, 4] [1, 2, 3, 4, 5] [10, 20, 30, 40, 50] (none : Option ℚ) =
    some [some (45/2 - 5/2), some 40] := by decide +kernel

example : Grid [(2 : ℚ), 4] ∧ Grid [(1 : ℚ), 2, 3, 4, 5] := by
  unfold Grid; decide +kernel

/-! ## Grids inside the spectrum -/

/-- `Sed.resample_sed` warns of a lack of overlap only by comparing the ends of the two
grids, `sed.py:799`. -/
def Warns (v w : List K) : Prop :=
  w.getD (w.length - 1) 0 < v.getD (v.length - 1) 0 ∨ v.getD 0 0 < w.getD 0 0

/-- The claim that a spectrum spanning the new grid is defined on all of it fails: a
coarser grid gets NaN at its ends although there is no warning. -/
theorem spectres_inside_false :
    ¬ ∀ v w f : List ℚ, Grid w → Grid v → f.length = w.length → ¬ Warns v w →
      ∃ g : List ℚ, spectres v w f none = some (g.map some) := by
  intro h
  obtain ⟨g, hg⟩ := h [1, 3, 5] [1, 2, 3, 4, 5] [1, 1, 1, 1, 1]
    (by unfold Grid; decide +kernel) (by unfold Grid; decide +kernel) rfl
    (by unfold Warns; decide +kernel)
  have h2 : spectres [1, 3, 5] [1, 2, 3, 4, 5] [1, 1, 1, 1, 1] (none : Option ℚ) =
      some [none, some 1, none] := by decide +kernel
  rw [h2] at hg
  have := Option.some.inj hg
  cases g with
  | nil => cases this
  | cons x g => simp at this

/-- It holds if moreover the new grid is not coarser at its ends. -/
theorem spectres_inside_partial {v w f : List K} (hw : Grid w) (hv : Grid v)
    (hf : f.length = w.length) (hin : ¬ Warns v w)
    (hl : v.getD 1 0 - v.getD 0 0 ≤ w.getD 1 0 - w.getD 0 0)
    (hr : v.getD (v.length - 1) 0 - v.getD (v.length - 2) 0 ≤
      w.getD (w.length - 1) 0 - w.getD (w.length - 2) 0) :
    ∃ g : List K, spectres v w f none = some (g.map some) := by
  have h1 := hv.1
  have h2 := hw.1
  rw [Warns, not_or, not_lt, not_lt] at hin
  have hA : cellLeft w 0 ≤ cellLeft v 0 := by
    unfold cellLeft
    rw [if_pos rfl, if_pos rfl]
    linarith [hin.2]
  have hB : cellRight v (v.length - 1) ≤ cellRight w (w.length - 1) := by
    unfold cellRight
    rw [if_pos (by omega), if_pos (by omega), show v.length - 1 - 1 = v.length - 2 by omega,
      show w.length - 1 - 1 = w.length - 2 by omega]
    linarith [hin.1]
  have hno : ∀ j, j < v.length → ¬ Outside v w j := by
    intro j hj
    rw [Outside, not_or, not_lt, not_lt]
    constructor
    · refine hA.trans ?_
      rw [← edge_left v 0 (by omega), ← edge_left v j hj]
      exact edge_mono hv (by omega) (by omega)
    · refine le_trans ?_ hB
      rw [← edge_right v j hj, ← edge_right v (v.length - 1) (by omega)]
      exact edge_mono hv (by omega) (by omega)
  obtain ⟨g, hg, -⟩ := spectres_conserves hw hv hf hno
  exact ⟨g, hg⟩

example : ¬ Warns [(2 : ℚ), 3, 4] [1, 2, 3, 4, 5] := by unfold Warns; decide +kernel

/-- On a grid given in decreasing order the result is not that of the same grid in
increasing order. -/
theorem spectres_decreasing_false :
    ¬ ∀ v w f : List ℚ, Grid w → Grid v → f.length = w.length →
      spectres v.reverse w f none = (spectres v w f none).map List.reverse := by
  intro h
  have := h [2, 3, 4] [1, 2, 3, 4, 5] [1, 2, 3, 4, 5] (by unfold Grid; decide +kernel)
    (by unfold Grid; decide +kernel) rfl
  revert this
  decide +kernel

end Verif.Spectres
