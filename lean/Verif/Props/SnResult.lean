import Mathlib.Tactic.Linarith
import Mathlib.Tactic.NormNum
import Mathlib.Tactic.Ring
import Mathlib.Algebra.Order.Ring.Rat
import Mathlib.Algebra.Field.Rat
import Mathlib.Algebra.BigOperators.Group.List.Basic
import Mathlib.Algebra.Order.BigOperators.Group.List
import Verif.Model.SnResult

/-!
# Properties of the number of supernovae at a point (C602, C603)
-/

namespace Verif.SnResult

variable {K : Type*} [Field K] [LinearOrder K]

/-! ## Specification -/

/-- The rows with a season of the other table. -/
def Both (zs ns : List (Nat × K)) (r : Nat × K) : Prop := r ∈ zs ∧ ∃ q ∈ ns, q.1 = r.1

/-- The number of supernovae of a season. -/
def seasonTotal (ns : List (Nat × K)) (s : Nat) : K := ((ns.filter (fun q => decide (q.1 = s))).map Prod.snd).sum

/-! ## Lemmas -/

omit [Field K] [LinearOrder K] in
theorem mem_merge (zs ns : List (Nat × K)) (p : K × K) :
    p ∈ merge zs ns ↔ ∃ s, (s, p.1) ∈ zs ∧ (s, p.2) ∈ ns := by
  unfold merge
  rw [List.mem_flatMap]
  constructor
  · rintro ⟨⟨s, z⟩, hr, hp⟩
    obtain ⟨⟨s', n⟩, hq, rfl⟩ := List.mem_map.mp hp
    have h := List.mem_filter.mp hq
    simp only [decide_eq_true_eq] at h
    exact ⟨s, hr, h.2 ▸ h.1⟩
  · rintro ⟨s, hz, hn⟩
    refine ⟨(s, p.1), hz, List.mem_map.mpr ⟨(s, p.2), List.mem_filter.mpr ⟨hn, by simp⟩, rfl⟩⟩

theorem median_mem (l : List K) (hl : l ≠ []) :
    ∃ a ∈ l, ∃ b ∈ l, median l = (a + b) / 2 := by
  unfold median
  simp only
  have hlen : (l.insertionSort (· ≤ ·)).length = l.length := List.length_insertionSort _ _
  have hpos : 0 < l.length := List.length_pos_iff.mpr hl
  have h1 : (l.length - 1) / 2 < (l.insertionSort (· ≤ ·)).length := by omega
  have h2 : l.length / 2 < (l.insertionSort (· ≤ ·)).length := by omega
  refine ⟨_, (List.mem_insertionSort (r := (· ≤ ·))).mp (List.getElem_mem h1), _,
    (List.mem_insertionSort (r := (· ≤ ·))).mp (List.getElem_mem h2), ?_⟩
  simp only [List.getD_eq_getElem?_getD, List.getElem?_eq_getElem h1, List.getElem?_eq_getElem h2, Option.getD_some]

theorem median_perm (a b : List K) (h : a.Perm b) : median a = median b := by
  have hs : a.insertionSort (· ≤ ·) = b.insertionSort (· ≤ ·) := by
    apply List.Perm.eq_of_pairwise (le := (· ≤ ·))
    · intro x y _ _ h1 h2
      exact le_antisymm h1 h2
    · exact List.pairwise_insertionSort _ _
    · exact List.pairwise_insertionSort _ _
    · exact ((List.perm_insertionSort _ a).trans h).trans (List.perm_insertionSort _ b).symm
  unfold median
  rw [hs, h.length_eq]

section
variable [IsStrictOrderedRing K]

theorem median_bounds (l : List K) (hl : l ≠ []) (lo hi : K) (h : ∀ x ∈ l, lo ≤ x ∧ x ≤ hi) :
    lo ≤ median l ∧ median l ≤ hi := by
  obtain ⟨a, ha, b, hb, he⟩ := median_mem l hl
  have h1 := h a ha
  have h2 := h b hb
  rw [he]
  constructor
  · linarith [h1.1, h2.1]
  · linarith [h1.2, h2.2]

/-! ## The value at a point (C602) -/

omit [IsStrictOrderedRing K] in
/-- There is a value exactly if there are tables and a season of both has a redshift limit above zero. -/
theorem run_some_iff (zs : Option (List (Nat × K))) (ns : List (Nat × K) → Option (List (Nat × K))) :
    (runSn zs ns).isSome ↔ ∃ z n, zs = some z ∧ ns z = some n ∧ ∃ r, Both z n r ∧ 0 < r.2 := by
  unfold runSn
  cases zs with
  | none => simp
  | some z =>
    simp only [Option.some.injEq]
    split_ifs with ha
    · simp only [Option.isSome_none, Bool.false_eq_true, false_iff, not_exists]
      rintro z' n ⟨rfl, _, r, hr, h0⟩
      rw [List.all_eq_true] at ha
      have := ha r hr.1
      rw [decide_eq_true_eq] at this
      exact absurd (lt_trans this h0) (lt_irrefl _)
    · cases hn : ns z with
      | none =>
        simp only [Option.isSome_none, Bool.false_eq_true, false_iff, not_exists]
        rintro z' n ⟨rfl, h, _⟩
        rw [hn] at h
        cases h
      | some n =>
        simp only [final]
        have key : 0 < ((merge z n).filter (fun p => decide (0 < p.1))).length ↔ ∃ r, Both z n r ∧ 0 < r.2 := by
          rw [List.length_pos_iff_exists_mem]
          constructor
          · rintro ⟨p, hp⟩
            rw [List.mem_filter, mem_merge, decide_eq_true_eq] at hp
            obtain ⟨⟨s, hz, hq⟩, h0⟩ := hp
            exact ⟨(s, p.1), ⟨hz, (s, p.2), hq, rfl⟩, h0⟩
          · rintro ⟨⟨s, c⟩, ⟨hz, ⟨s', m⟩, hq, he⟩, h0⟩
            simp only at he
            subst he
            refine ⟨(c, m), ?_⟩
            rw [List.mem_filter, mem_merge, decide_eq_true_eq]
            exact ⟨⟨s', hz, hq⟩, h0⟩
        split_ifs with hl
        · simp only [Option.isSome_some, true_iff]
          exact ⟨z, n, rfl, hn, key.mp hl⟩
        · simp only [Option.isSome_none, Bool.false_eq_true, false_iff]
          rintro ⟨z', n', rfl, h, hr⟩
          rw [hn, Option.some.injEq] at h
          subst h
          exact hl (key.mpr hr)

omit [IsStrictOrderedRing K] in
/-- The number is the sum over the seasons with a redshift limit above zero. -/
theorem number_sum (zs ns : List (Nat × K)) (r : K × K) (h : final (merge zs ns) = some r) :
    r.1 = ((zs.filter (fun q => decide (0 < q.2))).map (fun q => seasonTotal ns q.1)).sum := by
  unfold final at h
  simp only at h
  split_ifs at h
  rw [Option.some.injEq] at h
  subst h
  simp only
  clear * -
  induction zs with
  | nil => rfl
  | cons q zs ih =>
    have hm : merge (q :: zs) ns = (ns.filter (fun p => decide (p.1 = q.1))).map (fun p => (q.2, p.2)) ++ merge zs ns := by
      unfold merge
      rw [List.flatMap_cons]
    rw [hm, List.filter_append, List.map_append, List.sum_append, ih]
    by_cases h0 : 0 < q.2
    · rw [List.filter_cons_of_pos (by simpa using h0), List.map_cons, List.sum_cons]
      congr 1
      rw [List.filter_eq_self.mpr, List.map_map]
      · rfl
      · intro p hp
        obtain ⟨x, _, rfl⟩ := List.mem_map.mp hp
        simpa using h0
    · rw [List.filter_cons_of_neg (by simpa using h0), List.filter_eq_nil_iff.mpr]
      · simp
      · intro p hp
        obtain ⟨x, _, rfl⟩ := List.mem_map.mp hp
        simpa using h0

/-- The redshift limit is a middle of the limits of seasons above zero: above zero, and between any bounds of them. -/
theorem zlim_bounds (zs ns : List (Nat × K)) (r : K × K) (h : final (merge zs ns) = some r) (lo hi : K)
    (hb : ∀ q ∈ zs, 0 < q.2 → lo ≤ q.2 ∧ q.2 ≤ hi) : lo ≤ r.2 ∧ r.2 ≤ hi ∧ 0 < r.2 := by
  unfold final at h
  simp only at h
  split_ifs at h with hl
  rw [Option.some.injEq] at h
  subst h
  have hne : ((merge zs ns).filter (fun p => decide (0 < p.1))).map Prod.fst ≠ [] := by
    intro he
    rw [List.map_eq_nil_iff] at he
    rw [he] at hl
    exact absurd hl (lt_irrefl _)
  have hmem : ∀ x ∈ ((merge zs ns).filter (fun p => decide (0 < p.1))).map Prod.fst, 0 < x ∧ lo ≤ x ∧ x ≤ hi := by
    intro x hx
    obtain ⟨p, hp, rfl⟩ := List.mem_map.mp hx
    rw [List.mem_filter, mem_merge, decide_eq_true_eq] at hp
    obtain ⟨⟨s, hz, _⟩, h0⟩ := hp
    exact ⟨h0, hb _ hz h0⟩
  refine ⟨(median_bounds _ hne lo hi (fun x hx => (hmem x hx).2)).1,
    (median_bounds _ hne lo hi (fun x hx => (hmem x hx).2)).2, ?_⟩
  obtain ⟨a, ha, b, hb', he⟩ := median_mem _ hne
  simp only
  rw [he]
  have h1 := (hmem a ha).1
  have h2 := (hmem b hb').1
  linarith

omit [IsStrictOrderedRing K] in
/-- Seasons without a redshift limit do not change the value, wherever they are. -/
theorem bad_season (pre post ns : List (Nat × K)) (s : Nat) (z : K) (hz : z ≤ 0) :
    final (merge (pre ++ (s, z) :: post) ns) = final (merge (pre ++ post) ns) := by
  have : (merge (pre ++ (s, z) :: post) ns).filter (fun p => decide (0 < p.1))
      = (merge (pre ++ post) ns).filter (fun p => decide (0 < p.1)) := by
    unfold merge
    rw [List.flatMap_append, List.flatMap_append, List.flatMap_cons, List.filter_append, List.filter_append,
      List.filter_append]
    congr 1
    have he : ((ns.filter (fun q => decide (q.1 = s))).map (fun q => (z, q.2))).filter (fun p => decide (0 < p.1)) = [] := by
      rw [List.filter_eq_nil_iff]
      intro p hp
      obtain ⟨x, _, rfl⟩ := List.mem_map.mp hp
      simpa using hz
    simp only
    rw [he, List.nil_append]
  unfold final
  rw [this]

omit [IsStrictOrderedRing K] in
/-- The order of the seasons is of no importance. -/
theorem order_free (a b ns : List (Nat × K)) (h : a.Perm b) : final (merge a ns) = final (merge b ns) := by
  have hm : ((merge a ns).filter (fun p => decide (0 < p.1))).Perm ((merge b ns).filter (fun p => decide (0 < p.1))) :=
    (h.flatMap_right _).filter _
  unfold final
  simp only
  rw [hm.length_eq, (hm.map Prod.snd).sum_eq, median_perm _ _ (hm.map Prod.fst)]

/-- The reductions give the number and the limit of the value. -/
theorem reductions (zs ns : List (Nat × K)) (r : K × K) (bad : K) (h : final (merge zs ns) = some r) :
    reduceN r = r.1 ∧ reduceZ bad r = r.2 := by
  have hp : ∀ x : K, median [x] = x := by
    intro x
    unfold median
    simp
  refine ⟨by simp [reduceN], ?_⟩
  unfold reduceZ
  rw [List.map_singleton, hp]
  split_ifs with h0
  · exfalso
    have h1 : ∀ (l : List (Nat × K)), ∃ hi : K, ∀ q ∈ l, q.2 ≤ hi := by
      intro l
      induction l with
      | nil => exact ⟨0, by simp⟩
      | cons q l ih =>
        obtain ⟨hi, hh⟩ := ih
        refine ⟨max q.2 hi, ?_⟩
        intro x hx
        rcases List.mem_cons.mp hx with rfl | hx
        · exact le_max_left _ _
        · exact (hh x hx).trans (le_max_right _ _)
    obtain ⟨hi, hh⟩ := h1 zs
    have := (zlim_bounds zs ns r h 0 hi (fun q hq hq0 => ⟨le_of_lt hq0, hh q hq⟩)).2.2
    exact absurd (lt_trans this h0) (lt_irrefl _)
  · rfl

/-! ## The sentinel (C603) -/

/-- If the numbers of seasons are not negative, the sum is not. -/
theorem number_nonneg_partial (zs ns : List (Nat × K)) (hn : ∀ q ∈ ns, 0 ≤ q.2) (r : K × K)
    (h : final (merge zs ns) = some r) : 0 ≤ r.1 := by
  rw [number_sum zs ns r h]
  apply List.sum_nonneg
  intro x hx
  obtain ⟨q, _, rfl⟩ := List.mem_map.mp hx
  apply List.sum_nonneg
  intro y hy
  obtain ⟨p, hp, rfl⟩ := List.mem_map.mp hy
  exact hn p (List.mem_filter.mp hp).1

omit [IsStrictOrderedRing K] in
/-- A season with a redshift limit, but with the sentinel of too few supernovae, takes one off the sum. -/
theorem sentinel_false (zs ns : List (Nat × K)) (s : Nat) (z : K) (effis : List K) (value : K) (hz : 0 < z)
    (hs : ∀ q ∈ zs, q.1 ≠ s) (hn : ∀ q ∈ ns, q.1 ≠ s) (he : ¬ 2 / 100 < effis.sum / effis.length) (r r' : K × K)
    (h : final (merge zs ns) = some r)
    (h' : final (merge ((s, z) :: zs) ((s, seasonN effis value) :: ns)) = some r') : r'.1 = r.1 - 1 := by
  rw [number_sum _ _ _ h, number_sum _ _ _ h', List.filter_cons_of_pos (by simpa using hz), List.map_cons, List.sum_cons]
  have h1 : seasonTotal ((s, seasonN effis value) :: ns) s = -1 := by
    unfold seasonTotal
    rw [List.filter_cons_of_pos (by simp), List.filter_eq_nil_iff.mpr (fun q hq => by simpa using hn q hq)]
    unfold seasonN
    rw [if_neg he]
    simp
  have h2 : (zs.filter (fun q => decide (0 < q.2))).map (fun q => seasonTotal ((s, seasonN effis value) :: ns) q.1)
      = (zs.filter (fun q => decide (0 < q.2))).map (fun q => seasonTotal ns q.1) := by
    apply List.map_congr_left
    intro q hq
    have := hs q (List.mem_filter.mp hq).1
    unfold seasonTotal
    rw [List.filter_cons_of_neg (by simpa using fun e => this e.symm)]
  simp only
  rw [h1, h2]
  ring

omit [IsStrictOrderedRing K] in
/-- A season has a redshift limit only with two redshifts and a mean efficiency above two percent. -/
theorem seasonZ_pos (effis : List K) (value : K) (h1 : (-1 : K) ≤ 0) (h : 0 < seasonZ effis value) :
    2 ≤ effis.length ∧ 2 / 100 < effis.sum / effis.length ∧ seasonZ effis value = value := by
  unfold seasonZ at h ⊢
  split_ifs at h ⊢ with hc
  · exact ⟨hc.2, hc.1, rfl⟩
  · exact absurd (lt_of_lt_of_le h h1) (lt_irrefl _)

omit [Field K] [LinearOrder K] [IsStrictOrderedRing K] in
/-- Rows are kept exactly for seasons with at least two of them, and then all of them. -/
theorem checkDur_iff (rows : List (Nat × K)) (r : Nat × K) :
    r ∈ checkDur rows ↔ r ∈ rows ∧ 2 ≤ rows.countP (fun q => decide (q.1 = r.1)) := by
  unfold checkDur
  rw [List.mem_filter, decide_eq_true_eq, List.countP_eq_length_filter]

/-- Three seasons, the second without a limit; with a fourth that has the sentinel the number is lower. -/
example : final (merge [(1, 3 / 10), (2, -1), (3, (1 / 2 : ℚ))] [(1, 4), (3, 6)]) = some (10, 2 / 5)
    ∧ final (merge [(1, 3 / 10), (2, -1), (3, (1 / 2 : ℚ)), (4, 4 / 10)]
        [(1, 4), (3, 6), (4, seasonN [0, 1 / 100] 5)]) = some (9, 2 / 5)
    ∧ runSn (some [(1, (-1 : ℚ))]) (fun _ => some [(1, 4)]) = none
    ∧ checkDur [(1, (1 / 10 : ℚ)), (2, 1 / 10), (1, 1 / 5)] = [(1, 1 / 10), (1, 1 / 5)] := by
  decide +kernel

end

end Verif.SnResult
