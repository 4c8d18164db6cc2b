import Mathlib.Algebra.Order.Field.Basic
import Mathlib.Algebra.Order.BigOperators.Group.List
import Mathlib.Algebra.BigOperators.Group.List.Lemmas
import Mathlib.Algebra.BigOperators.Ring.List
import Mathlib.Tactic.Linarith
import Mathlib.Tactic.Ring
import Mathlib.Tactic.NormNum
import Mathlib.Tactic.Positivity
import Mathlib.Tactic.FieldSimp
import Mathlib.Data.Rat.Cast.Order
import Verif.Model.StringCount

/-! # C95, C96: counting strings -/

namespace Verif.Strings

/-! ## C95: clipped ends -/

theorem splitSep_ne (s : Str) : splitSep s ≠ [] := by
  fun_induction splitSep s <;> simp

theorem join_split (s : Str) : joinSep (splitSep s) = s := by
  fun_induction splitSep s with
  | case1 => rfl
  | case2 l ih =>
    cases h : splitSep l with
    | nil => exact absurd h (splitSep_ne l)
    | cons a t => rw [h] at ih; simp [joinSep, ih]
  | case3 c l _ h ih => exact absurd h (splitSep_ne l)
  | case4 c l _ h t hs ih =>
    rw [hs] at ih
    cases t with
    | nil => simpa [joinSep] using ih
    | cons a t => simpa [joinSep] using ih

/-- The text split at a separator. -/
theorem split_append (s t : Str) : splitSep (s ++ ',' :: ' ' :: t) = splitSep s ++ splitSep t := by
  fun_induction splitSep s with
  | case1 => rfl
  | case2 l ih => simp [splitSep, ih]
  | case3 c l _ h ih => exact absurd h (splitSep_ne l)
  | case4 c l hc h r hs ih =>
    rw [hs] at ih
    have e : splitSep (c :: (l ++ ',' :: ' ' :: t)) = (match splitSep (l ++ ',' :: ' ' :: t) with | [] => [[c]] | h :: t => (c :: h) :: t) := by
      apply splitSep.eq_3
      intro l' h1 h2
      cases l with
      | nil =>
        simp only [List.nil_append, List.cons.injEq] at h2
        exact absurd h2.1 (by decide)
      | cons a l =>
        simp only [List.cons_append, List.cons.injEq] at h2
        exact hc l h1 (by rw [h2.1])
    rw [List.cons_append, e, ih]
    rfl

theorem split_nosep (d : Str) (h : ',' ∉ d) : splitSep d = [d] := by
  fun_induction splitSep d with
  | case1 => rfl
  | case2 l ih => simp at h
  | case3 c l _ hs ih => exact absurd hs (splitSep_ne l)
  | case4 c l _ h' t hs ih =>
    rw [ih (by simp at h; exact h.2)] at hs
    simp only [List.cons.injEq] at hs
    rw [← hs.1, ← hs.2]

theorem hasSep_iff (s : Str) : hasSep s = true ↔ ∃ a b, s = a ++ ',' :: ' ' :: b := by
  fun_induction hasSep s with
  | case1 => simp
  | case2 l => simp only [true_iff]; exact ⟨[], l, rfl⟩
  | case3 c l hc ih =>
    rw [ih]
    constructor
    · rintro ⟨a, b, rfl⟩
      exact ⟨c :: a, b, rfl⟩
    · rintro ⟨a, b, h⟩
      cases a with
      | nil =>
        simp only [List.nil_append, List.cons.injEq] at h
        exact absurd h.2 (hc b h.1)
      | cons x a =>
        simp only [List.cons_append, List.cons.injEq] at h
        exact ⟨a, b, h.2⟩

theorem split_single (s : Str) (h : (splitSep s).length = 1) : hasSep s = false := by
  by_contra hn
  rw [Bool.not_eq_false, hasSep_iff] at hn
  obtain ⟨a, b, rfl⟩ := hn
  rw [split_append, List.length_append] at h
  have h1 := List.length_pos_of_ne_nil (splitSep_ne a)
  have h2 := List.length_pos_of_ne_nil (splitSep_ne b)
  omega

theorem join_append (l : List Str) (h : l ≠ []) (c : Str) : joinSep (l ++ [c]) = joinSep l ++ ',' :: ' ' :: c := by
  induction l with
  | nil => exact absurd rfl h
  | cons a l ih =>
    cases l with
    | nil => rfl
    | cons b l => simpa [joinSep] using ih (by simp)

/-- A comma, a space and a number at the end are removed. -/
theorem clip_number (dig : Char → Bool) (hd : dig ',' = false) (s d : Str) (hne : d ≠ []) (h : ∀ c ∈ d, dig c = true) :
    clip dig (s ++ ',' :: ' ' :: d) = s := by
  unfold clip
  have hs : hasSep (s ++ ',' :: ' ' :: d) = true := (hasSep_iff _).mpr ⟨s, d, rfl⟩
  have hc : ',' ∉ d := by
    intro hm
    have := h _ hm
    rw [hd] at this
    cases this
  rw [if_pos hs]
  simp only [split_append, split_nosep d hc, List.getLast?_append, List.getLast?_singleton, Option.some_or, List.dropLast_concat]
  have h1 : (!d.isEmpty && d.all dig) = true := by
    simp only [Bool.and_eq_true, Bool.not_eq_true', List.all_eq_true]
    exact ⟨by cases d <;> simp_all, h⟩
  rw [if_pos h1, join_split]

/-- Nothing else is changed. -/
theorem clip_other (dig : Char → Bool) (val : Str)
    (h : ∀ s d, val = s ++ ',' :: ' ' :: d → d ≠ [] → ¬ ∀ c ∈ d, dig c = true) : clip dig val = val := by
  unfold clip
  split
  · rename_i hsep
    simp only
    split
    · rename_i c hc
      split
      · rename_i hd
        exfalso
        simp only [Bool.and_eq_true, Bool.not_eq_true', List.all_eq_true] at hd
        have hsplit : splitSep val = (splitSep val).dropLast ++ [c] := by
          have := List.dropLast_append_getLast (splitSep_ne val)
          rw [List.getLast?_eq_some_getLast (splitSep_ne val), Option.some.injEq] at hc
          rw [hc] at this
          exact this.symm
        have hdrop : (splitSep val).dropLast ≠ [] := by
          intro h0
          have : (splitSep val).length = 1 := by rw [hsplit, h0]; rfl
          rw [split_single val this] at hsep
          cases hsep
        have hv : val = joinSep (splitSep val).dropLast ++ ',' :: ' ' :: c := by
          rw [← join_append _ hdrop, ← hsplit, join_split]
        exact h _ c hv (by rintro rfl; simp at hd) hd.2
      · rfl
    · rfl
  · rfl

example : clip Char.isDigit "dd:cosmos, u, 12".toList = "dd:cosmos, u".toList := by decide
example : clip Char.isDigit "pairs, ".toList = "pairs, ".toList := by decide

/-! ## C96: counts and percentages -/

theorem counter_keys (xs : List Str) (k : Str) : k ∈ (counter xs).map Prod.fst ↔ k ∈ xs := by
  simp [counter, Function.comp_def]

theorem counter_nodup (xs : List Str) : ((counter xs).map Prod.fst).Nodup := by
  unfold counter
  rw [List.map_map]
  have : (Prod.fst ∘ fun k : Str => (k, xs.count k)) = id := rfl
  rw [this, List.map_id, List.nodup_reverse]
  exact List.nodup_dedup _

theorem counter_entry (xs : List Str) (e : Str × Nat) (h : e ∈ counter xs) : e.2 = xs.count e.1 := by
  unfold counter at h
  obtain ⟨k, _, rfl⟩ := List.mem_map.mp h
  rfl

/-- An exception is raised exactly if there are both empty strings and the string
`blank`. -/
theorem stringCount_error (xs : List Str) :
    stringCount xs = none ↔ [] ∈ xs ∧ ['b', 'l', 'a', 'n', 'k'] ∈ xs := by
  unfold stringCount
  simp only
  have hkey : ((counter xs).map (fun e => label e.1)) = ((counter xs).map Prod.fst).map label := by
    rw [List.map_map]
    rfl
  rw [hkey]
  have hnd := counter_nodup xs
  have hmem := counter_keys xs
  generalize (counter xs).map Prod.fst = ks at hnd hmem
  have hiff : ((ks.map label).Nodup) ↔ ¬ ([] ∈ xs ∧ ['b', 'l', 'a', 'n', 'k'] ∈ xs) := by
    rw [← hmem, ← hmem]
    constructor
    · intro h ⟨h1, h2⟩
      have := List.inj_on_of_nodup_map h h1 h2 (by rfl)
      cases this
    · intro h
      apply List.Nodup.map_on _ hnd
      intro a ha b hb hab
      unfold label at hab
      split at hab <;> split at hab
      · rename_i h1 h2
        rw [h1, h2]
      · rename_i h1 h2
        subst h1
        subst hab
        exact absurd ⟨ha, hb⟩ h
      · rename_i h1 h2
        subst h2
        subst hab
        exact absurd ⟨hb, ha⟩ h
      · exact hab
  split
  · rename_i h
    simp only [reduceCtorEq, false_iff]
    exact hiff.mp h
  · rename_i h
    simp only [true_iff]
    exact Classical.not_not.mp (fun hn => h (hiff.mpr hn))

/-- The total of the counts. -/
theorem counter_sum (xs : List Str) : ((counter xs).map Prod.snd).sum = xs.length := by
  unfold counter
  rw [List.map_map]
  have e : (Prod.snd ∘ fun k : Str => (k, xs.count k)) = fun k => xs.count k := rfl
  rw [e, List.map_reverse, List.sum_reverse]
  have h := List.sum_map_count_dedup_eq_length xs.reverse
  rw [List.length_reverse] at h
  rw [← h]
  congr 1
  apply List.map_congr_left
  intro k _
  unfold List.count
  rw [List.countP_reverse]
  congr 1
  funext x
  rw [Bool.eq_iff_iff]
  simp

/-- Otherwise each string has its number, under its own name or as `blank` if it is empty. -/
theorem stringCount_spec (xs : List Str) (m : List (Str × Nat)) (h : stringCount xs = some m) :
    (m.map Prod.fst).Nodup ∧ (m.map Prod.snd).sum = xs.length ∧
    (∀ k ∈ xs, (if k = [] then ['b', 'l', 'a', 'n', 'k'] else k, xs.count k) ∈ m) ∧
    ∀ e ∈ m, ∃ k ∈ xs, e = (if k = [] then ['b', 'l', 'a', 'n', 'k'] else k, xs.count k) := by
  unfold stringCount at h
  simp only at h
  split at h
  · rename_i hnd
    rw [Option.some.injEq] at h
    subst h
    refine ⟨?_, ?_, ?_, ?_⟩
    · rw [List.map_map]
      exact hnd
    · rw [List.map_map]
      exact counter_sum xs
    · intro k hk
      rw [← counter_keys] at hk
      obtain ⟨e, he, rfl⟩ := List.mem_map.mp hk
      rw [List.mem_map]
      exact ⟨e, he, by rw [counter_entry xs e he]; rfl⟩
    · intro e he
      obtain ⟨c, hc, rfl⟩ := List.mem_map.mp he
      refine ⟨c.1, (counter_keys xs c.1).mp (List.mem_map_of_mem hc), ?_⟩
      rw [counter_entry xs c hc]
      rfl
  · cases h

/-- "Count up the number of times each string appears": never an exception. -/
def CountsAll : Prop := ∀ xs : List Str, stringCount xs ≠ none

theorem countsAll_false : ¬ CountsAll := by
  intro h
  exact h [[], ['b', 'l', 'a', 'n', 'k']] ((stringCount_error _).mpr (by simp))

/-- The percentages add up to a hundred, and each is its share. -/
theorem percent_sum {K : Type*} [Field K] [LinearOrder K] [IsStrictOrderedRing K] (xs : List Str) (hne : xs ≠ []) (m : List (Str × Nat))
    (h : stringCount xs = some m) :
    ((percent (K := K) m).map Prod.snd).sum = 100 ∧
    (percent (K := K) m).map Prod.fst = m.map Prod.fst ∧
    ∀ e ∈ percent (K := K) m, ∃ c, (e.1, c) ∈ m ∧ e.2 = 100 * (c : K) / (xs.length : K) := by
  obtain ⟨_, hsum, _, _⟩ := stringCount_spec xs m h
  have hn : (xs.length : K) ≠ 0 := by
    have := List.length_pos_of_ne_nil hne
    positivity
  have hs : (m.map (fun e => (e.2 : K))).sum = (xs.length : K) := by
    rw [← hsum]
    clear * -
    induction m with
    | nil => simp
    | cons a m ih => simp [ih]
  unfold percent
  simp only [hs, List.map_map]
  refine ⟨?_, rfl, ?_⟩
  · have e : (Prod.snd ∘ fun e : Str × Nat => (e.1, (e.2 : K) / ((xs.length : K) / 100))) = fun e => (e.2 : K) * (100 / (xs.length : K)) := by
      funext e
      simp only [Function.comp]
      field_simp
    rw [e, List.sum_map_mul_right, hs]
    field_simp
  · intro e he
    obtain ⟨c, hc, rfl⟩ := List.mem_map.mp he
    refine ⟨c.2, hc, ?_⟩
    simp only
    field_simp

/-! ## C97: reduce functions -/

theorem mem_reduceNames (ms : List (List (Str × Nat))) (n : Str) :
    n ∈ reduceNames ms ↔ ∃ m ∈ ms, n ∈ m.map Prod.fst := by
  have key : ∀ (ms : List (List (Str × Nat))) (acc : List Str),
      n ∈ ms.foldl (fun names m => names ++ (m.map Prod.fst).filter (fun n => !names.contains n)) acc ↔
        n ∈ acc ∨ ∃ m ∈ ms, n ∈ m.map Prod.fst := by
    intro ms
    induction ms with
    | nil => simp
    | cons m ms ih =>
      intro acc
      rw [List.foldl_cons, ih]
      simp only [List.mem_append, List.mem_filter, Bool.not_eq_true', List.mem_cons, exists_eq_or_imp]
      by_cases h : n ∈ acc
      · simp [h]
      · have : acc.contains n = false := by simpa using h
        simp only [h, false_or, this, and_true]
  rw [reduceNames, key]
  simp

theorem lookup_isSome (m : List (Str × Nat)) (n : Str) : (m.lookup n).isSome ↔ n ∈ m.map Prod.fst := by
  induction m with
  | nil => simp
  | cons a m ih =>
    rw [List.lookup_cons]
    by_cases h : n = a.1
    · simp [h]
    · have : (n == a.1) = false := by simpa using h
      simp only [this, List.map_cons, List.mem_cons, h, false_or]
      exact ih

theorem reduceValues_isSome (n : Str) (ms : List (List (Str × Nat))) :
    (reduceValues n ms).isSome ↔ ∀ m ∈ ms, n ∈ m.map Prod.fst := by
  induction ms with
  | nil => simp [reduceValues]
  | cons m ms ih =>
    rw [reduceValues, List.forall_mem_cons, ← ih, ← lookup_isSome]
    cases m.lookup n <;> cases reduceValues n ms <;> simp

/-- The reduce functions work on all slices exactly if all slices have the same strings. -/
theorem reduce_works (ms : List (List (Str × Nat))) :
    (∀ n ∈ reduceNames ms, reduceValues n ms ≠ none) ↔
      ∀ m ∈ ms, ∀ m' ∈ ms, ∀ n, n ∈ m.map Prod.fst ↔ n ∈ m'.map Prod.fst := by
  simp only [← Option.isSome_iff_ne_none, reduceValues_isSome, mem_reduceNames]
  constructor
  · intro h m hm m' hm' n
    exact ⟨fun hn => h n ⟨m, hm, hn⟩ m' hm', fun hn => h n ⟨m', hm', hn⟩ m hm⟩
  · rintro h n ⟨m, hm, hn⟩ m' hm'
    exact (h m hm m' hm' n).mp hn

/-- "Dynamically builds reduce functions for each unique string value": they should work
whatever the strings of the slices. -/
def ReducesAll : Prop :=
  ∀ (slices : List (List Str)) (ms : List (List (Str × Nat))), slices.mapM stringCount = some ms →
    ∀ n ∈ reduceNames ms, reduceValues n ms ≠ none

theorem reducesAll_false : ¬ ReducesAll := by
  intro h
  have := h [[['u']], [['g']]] [[(['u'], 1)], [(['g'], 1)]] (by decide) ['u'] (by decide)
  exact this (by decide)

/-- With one slice (UniSlicer) they work, and give the counts. -/
theorem reduce_partial (xs : List Str) (m : List (Str × Nat)) (h : stringCount xs = some m) (k : Str) (hk : k ∈ xs)
    (hb : k ≠ []) : k ∈ reduceNames [m] ∧ reduceValues k [m] = some [xs.count k] := by
  obtain ⟨h1, -, h3, -⟩ := stringCount_spec xs m h
  have hm := h3 k hk
  rw [if_neg hb] at hm
  have hin : k ∈ m.map Prod.fst := List.mem_map.mpr ⟨_, hm, rfl⟩
  refine ⟨(mem_reduceNames _ _).mpr ⟨m, by simp, hin⟩, ?_⟩
  have hl : m.lookup k = some (xs.count k) := by
    clear h h3 hin
    induction m with
    | nil => simp at hm
    | cons a m ih =>
      rw [List.map_cons, List.nodup_cons] at h1
      rw [List.lookup_cons]
      rcases List.mem_cons.mp hm with rfl | hm
      · simp
      · have : (k == a.1) = false := by
          rw [beq_eq_false_iff_ne]
          rintro rfl
          exact h1.1 (List.mem_map.mpr ⟨_, hm, rfl⟩)
        rw [this]
        exact ih h1.2 hm
  simp [reduceValues, hl]

example : stringCount [['u'], [], ['u'], ['g']] = some [(['u'], 2), (['b', 'l', 'a', 'n', 'k'], 1), (['g'], 1)] := by decide

end Verif.Strings
