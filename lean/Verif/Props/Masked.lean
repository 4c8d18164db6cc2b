import Verif.Model.Masked
import Mathlib.Tactic.Common

/-!
# Properties of reduce functions and summary statistics (C17)
-/

namespace Verif.Masked
variable {V R S : Type*}

/-- What a user sees of a masked array: `none` where masked. -/
def MArr.view (m : MArr V) : List (Option V) :=
  (m.data.zip m.mask).map (fun x => if x.2 then none else some x.1)

/-- **C17**, reduce: slice by slice, a masked slice stays masked; an unmasked slice
holds the reduced value of exactly its own metric value and is masked if (and only
if) that reduced value is the bad value. In particular neither values under the
mask nor the initial content of the new array matter. -/
theorem reduce_spec (f : V → R) (isBad : R → Bool) (m : MArr V) (garbage : List R)
    (hg : garbage.length = m.mask.length) :
    (reduceMetric f isBad m garbage hg).view =
      m.view.map (fun o => o.bind (fun v => if isBad (f v) then none else some (f v))) := by
  unfold MArr.view reduceMetric
  simp only
  obtain ⟨vs, ms, hl⟩ := m
  simp only at *
  induction ms generalizing vs garbage with
  | nil =>
    have : garbage = [] := List.length_eq_zero_iff.mp hg
    subst this
    have : vs = [] := List.length_eq_zero_iff.mp hl
    subst this
    rfl
  | cons b ms ih =>
    cases vs with
    | nil => simp at hl
    | cons v vs =>
      cases garbage with
      | nil => simp at hg
      | cons g gs =>
        have ih' := ih gs vs (by simpa using hl) (by simpa using hg)
        unfold reduceLoop
        cases b
        · cases hb : isBad (f v)
          · simp [hb]; simpa using ih'
          · simp [hb]; simpa using ih'
        · simp; simpa using ih'

theorem compressed_eq_view (m : MArr V) : m.compressed = m.view.filterMap id := by
  unfold MArr.compressed MArr.view
  generalize m.data.zip m.mask = l
  induction l with
  | nil => rfl
  | cons x l ih =>
    obtain ⟨v, b⟩ := x
    cases b
    · simpa using ih
    · simpa using ih

theorem filled_eq_view (m : MArr V) (v : V) : m.filled v = m.view.map (fun o => o.getD v) := by
  unfold MArr.filled MArr.view
  rw [List.map_map]
  apply List.map_congr_left
  rintro ⟨x, b⟩ _
  cases b <;> rfl

theorem dictGet_set (d : List (String × S)) (k k' : String) (v : S) :
    dictGet (dictSet d k v) k' = if k' = k then some v else dictGet d k' := by
  unfold dictSet dictGet
  by_cases hany : d.any (fun e => e.1 == k) = true
  · rw [if_pos hany]
    induction d with
    | nil => simp at hany
    | cons e d ih =>
      rw [List.map_cons, List.find?_cons, List.find?_cons]
      by_cases he : e.1 = k
      · have h1 : (e.1 == k) = true := by simpa using he
        simp only [h1, if_true]
        by_cases hk : k' = k
        · subst hk
          simp
        · have h2 : (k == k') = false := by
            rw [beq_eq_false_iff_ne]; exact fun e => hk e.symm
          have h3 : (e.1 == k') = false := by rw [he]; exact h2
          simp only [h2, h3, hk, if_false]
          clear ih hany
          induction d with
          | nil => rfl
          | cons x d ih2 =>
            rw [List.map_cons, List.find?_cons, List.find?_cons]
            by_cases hx : x.1 = k
            · have h4 : (x.1 == k) = true := by simpa using hx
              have h5 : (x.1 == k') = false := by rw [hx]; exact h2
              simp only [h4, if_true, h2, h5]
              exact ih2
            · have h4 : (x.1 == k) = false := by simpa using hx
              simp only [h4, Bool.false_eq_true, if_false]
              split
              · rfl
              · exact ih2
      · have h1 : (e.1 == k) = false := by simpa using he
        simp only [h1, Bool.false_eq_true, if_false]
        rw [List.any_cons, h1, Bool.false_or] at hany
        have ih := ih hany
        by_cases hx : e.1 = k'
        · have h4 : (e.1 == k') = true := by simpa using hx
          have h5 : k' ≠ k := by rw [← hx]; exact he
          simp [h4, h5]
        · have h4 : (e.1 == k') = false := by simpa using hx
          simp only [h4]
          exact ih
  · rw [if_neg hany]
    rw [List.find?_append]
    have hnone : ∀ x ∈ d, x.1 ≠ k := by
      intro x hx e
      apply hany
      rw [List.any_eq_true]
      exact ⟨x, hx, by simpa using e⟩
    by_cases hk : k' = k
    · subst hk
      have : d.find? (fun e => e.1 == k') = none := by
        rw [List.find?_eq_none]
        intro x hx
        simpa using hnone x hx
      simp [this]
    · have h2 : (k == k') = false := by
        rw [beq_eq_false_iff_ne]; exact fun e => hk e.symm
      simp [h2, hk]

/-- **C17**, summary statistics: after `compute_summary_stats` the value stored
under a name is that of the *last* summary metric with that name; a metric
without a mask value is evaluated on exactly the unmasked values in slice order
and gets the slicer's bad value if there are none; a metric with a mask value
sees all slices, masked ones replaced. -/
theorem summary_spec (slicerBad : S) (m : MArr V) (pre post : List (Summary V S)) (s : Summary V S)
    (start : List (String × S)) (hlast : ∀ s' ∈ post, s'.name ≠ s.name) :
    dictGet (computeSummaryStats slicerBad m (pre ++ s :: post) start) s.name = some (
      match s.maskVal with
      | none => if m.view.filterMap id = [] then slicerBad else s.run (m.view.filterMap id)
      | some v => if m.view = [] then slicerBad else s.run (m.view.map (fun o => o.getD v))) := by
  have hpost : ∀ (l : List (Summary V S)) (d : List (String × S)) (n : String),
      (∀ s' ∈ l, s'.name ≠ n) → dictGet (computeSummaryStats slicerBad m l d) n = dictGet d n := by
    intro l
    induction l with
    | nil => intro d n _; rfl
    | cons a l ih =>
      intro d n h
      unfold computeSummaryStats
      rw [List.foldl_cons]
      rw [show l.foldl (fun d s => dictSet d s.name (summaryValue slicerBad m s))
        (dictSet d a.name (summaryValue slicerBad m a)) =
        computeSummaryStats slicerBad m l (dictSet d a.name (summaryValue slicerBad m a)) from rfl]
      rw [ih _ _ (fun s' hs' => h s' (List.mem_cons_of_mem _ hs')), dictGet_set]
      rw [if_neg (fun e => h a List.mem_cons_self e.symm)]
  have : computeSummaryStats slicerBad m (pre ++ s :: post) start =
      computeSummaryStats slicerBad m post (dictSet (computeSummaryStats slicerBad m pre start) s.name
        (summaryValue slicerBad m s)) := by
    unfold computeSummaryStats
    rw [List.foldl_append, List.foldl_cons]
  rw [this, hpost post _ _ hlast, dictGet_set, if_pos rfl]
  unfold summaryValue
  cases hv : s.maskVal with
  | none => simp only [compressed_eq_view, List.length_eq_zero_iff]
  | some v => simp only [filled_eq_view, List.length_eq_zero_iff, List.map_eq_nil_iff]

/-- **C17**, noninterference: two metric arrays that look the same (same mask, same
unmasked values) have the same summary statistics and the same reduced values. -/
theorem masked_noninterference (m m' : MArr V) (h : m.view = m'.view) (slicerBad : S)
    (ss : List (Summary V S)) (start : List (String × S)) :
    computeSummaryStats slicerBad m ss start = computeSummaryStats slicerBad m' ss start := by
  unfold computeSummaryStats
  congr 1
  funext d s
  unfold summaryValue
  cases s.maskVal with
  | none => simp only [compressed_eq_view, h]
  | some v => simp only [filled_eq_view, h]

/-- Example for C17: sum over three slices, the middle one masked. -/
example :
    let m : MArr Nat := ⟨[1, 100, 3], [false, true, false], rfl⟩
    computeSummaryStats (-666 : Int) m [⟨"Sum", none, fun l => l.sum⟩, ⟨"Filled", some 5, fun l => l.sum⟩] [] =
      [("Sum", 4), ("Filled", 9)] ∧
    (reduceMetric (R := Nat) (fun v => v + 1) (fun r => r == 4) m [7, 7, 7] rfl).view = [some 2, none, none] := by
  decide

end Verif.Masked
