import Mathlib.Tactic.Linarith
import Mathlib.Tactic.NormNum
import Mathlib.Tactic.Ring
import Mathlib.Data.Rat.Floor
import Verif.Model.HCurves
import Verif.Props.Bins

/-!
# Properties of curves against H (C613, C614)
-/

namespace Verif.HCurves

variable {K : Type*} [Field K] [LinearOrder K] [FloorRing K] [IsStrictOrderedRing K]

/-! ## Percentiles of a population (C613) -/

/-- The median is the 50th percentile. -/
theorem median_half (d : List K) (hd : d ≠ []) : Bins.pct (1 / 2) d = some (SnResult.median d) := by
  obtain ⟨i, a, b, v, hv, ha, hb, _, hil, hiu, hve, _, _, _⟩ := Bins.pct_spec d (1 / 2) hd (by norm_num) (by norm_num)
  rw [hv, hve]
  have hlen : 0 < d.length := List.length_pos_iff.mpr hd
  have h1 : 2 * i + 1 ≤ d.length := by
    have : (2 * (i : K) + 1) ≤ d.length := by linarith
    exact_mod_cast this
  have h2 : d.length < 2 * i + 3 := by
    have : (d.length : K) < 2 * (i : K) + 3 := by linarith
    exact_mod_cast this
  have hi : (d.length - 1) / 2 = i := by omega
  congr 1
  unfold SnResult.median
  simp only [hi, List.getD_eq_getElem?_getD, ha, Option.getD_some]
  rcases (by omega : d.length = 2 * i + 1 ∨ d.length = 2 * i + 2) with h | h
  · have e : d.length / 2 = i := by omega
    have c : (d.length : K) = 2 * (i : K) + 1 := by exact_mod_cast h
    rw [e, ha, Option.getD_some, c]
    ring
  · have e : d.length / 2 = i + 1 := by omega
    have c : (d.length : K) = 2 * (i : K) + 2 := by exact_mod_cast h
    have hlt : i + 1 < (d.insertionSort (· ≤ ·)).length := by
      rw [List.length_insertionSort]
      omega
    rw [List.getElem?_eq_getElem hlt, Option.getD_some] at hb
    rw [e, List.getElem?_eq_getElem hlt, Option.getD_some, hb, c]
    ring

omit [IsStrictOrderedRing K] in
/-- With two or more H values for all objects, each curve has at each H the reduction of the values of all objects at
this H. -/
theorem clone_curve (bad : K) (own hs : List K) (rows groups : List (List K)) (r : Red K) (h2 : 2 ≤ hs.length)
    (hr : ∀ row ∈ rows, row.length = hs.length) (j : Nat) (hj : j < hs.length) :
    ∃ c, mVals bad ⟨own, some hs⟩ rows groups r = some c ∧ c.length = hs.length ∧
      c[j]? = some (r.apply (rows.map (fun row => row.getD j 0))) := by
  have e1 : (hvals (⟨own, some hs⟩ : Slicer K)).length = hs.length := rfl
  have e2 : ncols (⟨own, some hs⟩ : Slicer K) = hs.length := rfl
  refine ⟨(List.range hs.length).map (fun j => r.apply (rows.filterMap (fun row => row[j]?))), ?_, ?_, ?_⟩
  · unfold mVals
    rw [e1, e2, if_neg (by omega), if_pos rfl]
  · simp
  · have hrows : rows.filterMap (fun row => row[j]?) = rows.map (fun row => row.getD j 0) := by
      induction rows with
      | nil => rfl
      | cons row rows ih =>
        have : j < row.length := by rw [hr row (by simp)]; exact hj
        rw [List.filterMap_cons, List.getElem?_eq_getElem this]
        simp only [List.map_cons, List.getD_eq_getElem?_getD, List.getElem?_eq_getElem this, Option.getD_some]
        rw [ih (fun row h => hr row (List.mem_cons_of_mem _ h))]
        simp [List.getD_eq_getElem?_getD]
    simp [hj, hrows]

/-- Which curves `plot_single` has: the percentiles its labels name, and the mean, of the values of all objects. -/
theorem curves_values (bad : K) (own hs : List K) (rows groups : List (List K)) (h2 : 2 ≤ hs.length) (hne : rows ≠ [])
    (hr : ∀ row ∈ rows, row.length = hs.length) (j : Nat) (hj : j < hs.length) (d : List K)
    (hd : d = rows.map (fun row => row.getD j 0)) :
    ∃ c95 c75 c50 cm c25 c5,
      plotSingle bad ⟨own, some hs⟩ rows groups = some [c95, c75, c50, cm, c25, c5] ∧
      c95[j]? = some (Bins.pct (95 / 100) d) ∧ c75[j]? = some (Bins.pct (75 / 100) d) ∧
      c50[j]? = some (Bins.pct (1 / 2) d) ∧ cm[j]? = some (some (d.sum / d.length)) ∧
      c25[j]? = some (Bins.pct (25 / 100) d) ∧ c5[j]? = some (Bins.pct (5 / 100) d) := by
  have hd' : d ≠ [] := by
    rw [hd]
    simpa using hne
  have key := fun r => clone_curve bad own hs rows groups r h2 hr j hj
  rw [← hd] at key
  obtain ⟨c95, a95, _, b95⟩ := key (.pct (95 / 100))
  obtain ⟨c75, a75, _, b75⟩ := key (.pct (75 / 100))
  obtain ⟨c50, a50, _, b50⟩ := key .median
  obtain ⟨cm, am, _, bm⟩ := key .mean
  obtain ⟨c25, a25, _, b25⟩ := key (.pct (25 / 100))
  obtain ⟨c5, a5, _, b5⟩ := key (.pct (5 / 100))
  simp only [Red.apply, List.length_eq_zero_iff, if_neg hd'] at b50 bm
  refine ⟨c95, c75, c50, cm, c25, c5, ?_, b95, b75, ?_, bm, b25, b5⟩
  · unfold plotSingle
    simp [a95, a75, a50, am, a25, a5, collect]
  · rw [b50, median_half d hd']

/-- The curves of `plot_single` do not cross: at each H the 5th percentile, the 25th, the median, the 75th and the 95th
are in this order. -/
theorem curves_ordered (bad : K) (own hs : List K) (rows groups : List (List K)) (h2 : 2 ≤ hs.length) (hne : rows ≠ [])
    (hr : ∀ row ∈ rows, row.length = hs.length) (j : Nat) (hj : j < hs.length) :
    ∃ c95 c75 c50 cm c25 c5 p95 p75 p50 p25 p5,
      plotSingle bad ⟨own, some hs⟩ rows groups = some [c95, c75, c50, cm, c25, c5] ∧
      c95[j]? = some (some p95) ∧ c75[j]? = some (some p75) ∧ c50[j]? = some (some p50) ∧ c25[j]? = some (some p25) ∧
      c5[j]? = some (some p5) ∧ p5 ≤ p25 ∧ p25 ≤ p50 ∧ p50 ≤ p75 ∧ p75 ≤ p95 := by
  have hd : rows.map (fun row => row.getD j 0) ≠ [] := by simpa using hne
  have key := fun r => clone_curve bad own hs rows groups r h2 hr j hj
  obtain ⟨c95, a95, _, b95⟩ := key (.pct (95 / 100))
  obtain ⟨c75, a75, _, b75⟩ := key (.pct (75 / 100))
  obtain ⟨c50, a50, _, b50⟩ := key .median
  obtain ⟨cm, am, _, _⟩ := key .mean
  obtain ⟨c25, a25, _, b25⟩ := key (.pct (25 / 100))
  obtain ⟨c5, a5, _, b5⟩ := key (.pct (5 / 100))
  have hm : Red.median.apply (rows.map (fun row => row.getD j 0)) = Bins.pct (1 / 2) (rows.map (fun row => row.getD j 0)) := by
    rw [median_half _ hd]
    simp only [Red.apply, List.length_eq_zero_iff, if_neg hd]
  rw [hm] at b50
  obtain ⟨p5, p25, e5, e25, o1⟩ := Bins.pct_mono _ (5 / 100 : K) (25 / 100) hd (by norm_num) (by norm_num) (by norm_num)
  obtain ⟨p25', p50, e25', e50, o2⟩ := Bins.pct_mono _ (25 / 100 : K) (1 / 2) hd (by norm_num) (by norm_num) (by norm_num)
  obtain ⟨p50', p75, e50', e75, o3⟩ := Bins.pct_mono _ (1 / 2 : K) (75 / 100) hd (by norm_num) (by norm_num) (by norm_num)
  obtain ⟨p75', p95, e75', e95, o4⟩ := Bins.pct_mono _ (75 / 100 : K) (95 / 100) hd (by norm_num) (by norm_num) (by norm_num)
  rw [e25] at e25'
  rw [e50] at e50'
  rw [e75] at e75'
  cases e25'
  cases e50'
  cases e75'
  refine ⟨c95, c75, c50, cm, c25, c5, p95, p75, p50, p25, p5, ?_, ?_, ?_, ?_, ?_, ?_, o1, o2, o3, o4⟩
  · unfold plotSingle
    simp [a95, a75, a50, am, a25, a5, collect]
  · rw [b95]
    exact congrArg some e95
  · rw [b75]
    exact congrArg some e75
  · rw [b50, e50]
  · rw [b25]
    exact congrArg some e25
  · rw [b5]
    exact congrArg some e5

omit [IsStrictOrderedRing K] in
/-- That the curves can be plotted for each population is false: with an own H of each object the percentiles are
exceptions. -/
theorem own_error (bad : K) (own : List K) (rows groups : List (List K)) (h2 : 2 ≤ own.length) (g : List K)
    (hg : g ∈ groups) (hne : g ≠ []) : plotSingle bad ⟨own, none⟩ rows groups = none := by
  have e1 : (hvals (⟨own, none⟩ : Slicer K)).length = own.length := rfl
  have e2 : ncols (⟨own, none⟩ : Slicer K) = 1 := rfl
  have hany : groups.any (fun g => decide (0 < g.length)) = true := by
    rw [List.any_eq_true]
    exact ⟨g, hg, by simpa using List.length_pos_of_ne_nil hne⟩
  have h : mVals bad ⟨own, none⟩ rows groups (.pct (95 / 100)) = none := by
    unfold mVals
    rw [e1, e2, if_neg (by omega), if_neg (by omega), hany]
    rfl
  unfold plotSingle
  simp [h, collect]

/-! ## One value of H (C614) -/

/-- Each curve has the reduction over all objects, also with one H for all of them. -/
def Reduced (K : Type*) [Field K] [LinearOrder K] [FloorRing K] [IsStrictOrderedRing K] : Prop :=
  ∀ (bad : K) (own hs : List K) (rows groups : List (List K)) (r : Red K), 1 ≤ hs.length → rows ≠ [] →
    (∀ row ∈ rows, row.length = hs.length) → ∀ j, j < hs.length →
    ∃ c, mVals bad ⟨own, some hs⟩ rows groups r = some c ∧ c[j]? = some (r.apply (rows.map (fun row => row.getD j 0)))

omit [IsStrictOrderedRing K] in
/-- With one H the curve is the value of the first object, for each reduction. -/
theorem one_first (bad : K) (own : List K) (h : K) (v : K) (rows groups : List (List K)) (r : Red K) :
    mVals bad ⟨own, some [h]⟩ ([v] :: rows) groups r = some [some v] := by
  have e1 : (hvals (⟨own, some [h]⟩ : Slicer K)).length = 1 := rfl
  unfold mVals
  rw [e1, if_pos rfl]
  rfl

theorem reduced_false : ¬ Reduced ℚ := by
  intro h
  obtain ⟨c, hc, hj⟩ := h 0 [20, 20] [20] [[1], [3]] [] .mean (by simp) (by simp) (by simp) 0 (by simp)
  rw [one_first] at hc
  cases hc
  revert hj
  simp only [Red.apply]
  norm_num

omit [IsStrictOrderedRing K] in
/-- The full statement is `Reduced`; missing: one H for more than one object. -/
theorem reduced_partial (bad : K) (own hs : List K) (rows groups : List (List K)) (r : Red K)
    (h : 2 ≤ hs.length) (hr : ∀ row ∈ rows, row.length = hs.length) (j : Nat) (hj : j < hs.length) :
    ∃ c, mVals bad ⟨own, some hs⟩ rows groups r = some c ∧
      c[j]? = some (r.apply (rows.map (fun row => row.getD j 0))) := by
  obtain ⟨c, h1, _, h3⟩ := clone_curve bad own hs rows groups r h hr j hj
  exact ⟨c, h1, h3⟩

omit [IsStrictOrderedRing K] in
/-- A single row, as of a completeness, is plotted as it is with the mean. -/
theorem one_row (bad : K) (own hs row : List K) (groups : List (List K))
    (hr : row.length = hs.length) :
    mVals bad ⟨own, some hs⟩ [row] groups .mean = some (row.map some) := by
  have e1 : (hvals (⟨own, some hs⟩ : Slicer K)).length = hs.length := rfl
  have e2 : ncols (⟨own, some hs⟩ : Slicer K) = hs.length := rfl
  unfold mVals
  rw [e1, e2]
  by_cases h : hs.length = 1
  · rw [if_pos h]
    rfl
  · rw [if_neg h, if_pos rfl, Option.some.injEq]
    apply List.ext_getElem?
    intro j
    by_cases hj : j < hs.length
    · have : j < row.length := by omega
      simp [hj, this, Red.apply]
    · have : ¬ j < row.length := by omega
      simp [hj, this]

/-- Two objects at two H. -/
example : mVals 0 ⟨[20, 20], some [18, 20]⟩ [[1, 2], [3, 6]] [] .mean = some [some 2, some (4 : ℚ)] := by
  simp [mVals, hvals, ncols, Red.apply, List.range_succ]
  norm_num

end Verif.HCurves
