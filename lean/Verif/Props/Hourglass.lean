import Verif.Model.Hourglass
import Verif.Lemmas.NumpyMore
import Mathlib.Tactic.Linarith
import Mathlib.Tactic.NormNum
import Mathlib.Data.List.Sort
import Mathlib.Data.List.Dedup
import Mathlib.Algebra.Order.Ring.Rat
import Mathlib.Algebra.Order.Round
import Mathlib.Data.Rat.Floor
import Mathlib.Tactic.Tauto

/-!
# Hourglass metric: C297–C298
-/

namespace Verif.Hourglass

theorem mem_uniqN (l : List ℕ) (x : ℕ) : x ∈ uniqN l ↔ x ∈ l := by
  unfold uniqN
  rw [(List.perm_insertionSort _ _).mem_iff, List.mem_dedup]

theorem uniqN_sorted (l : List ℕ) : (uniqN l).Pairwise (· < ·) := by
  have h1 : (uniqN l).Pairwise (· ≤ ·) := List.pairwise_insertionSort _ _
  have h2 : (uniqN l).Nodup := (List.perm_insertionSort _ _).nodup_iff.mpr (List.nodup_dedup _)
  exact (h1.and h2).imp (fun h => lt_of_le_of_ne h.1 h.2)

section
variable {F K : Type} [DecidableEq F] [Field K] [LinearOrder K]

/-! ## C297: blocks -/

/-- The indices of a block. -/
def span (b : ℕ × ℕ) : List ℕ := List.range' b.1 (b.2 + 1 - b.1)

/-- Ends of ranges between the breaks. -/
theorem spans (a n : ℕ) (l : List ℕ) (hs : (a :: l).Pairwise (· < ·)) (hl : (a :: l).getLast (by simp) = n) :
    (((a :: l).dropLast).zip (l.map (· - 1))).flatMap span = List.range' a (n - a) := by
  induction l generalizing a with
  | nil =>
    simp at hl
    subst hl
    simp
  | cons b l ih =>
    have hab : a < b := (List.pairwise_cons.mp hs).1 b (by simp)
    have hs' := (List.pairwise_cons.mp hs).2
    have hl' : (b :: l).getLast (by simp) = n := by simpa using hl
    have hbn : b ≤ n := by
      have : n ∈ b :: l := hl' ▸ List.getLast_mem _
      rcases List.mem_cons.mp this with h | h
      · omega
      · exact ((List.pairwise_cons.mp hs').1 n h).le
    rw [show (a :: b :: l).dropLast = a :: (b :: l).dropLast from rfl, List.map_cons, List.zip_cons_cons, List.flatMap_cons, ih b hs' hl']
    unfold span
    rw [show b - 1 + 1 - a = b - a by omega, show n - a = (b - a) + (n - b) by omega, ← List.range'_append, show a + 1 * (b - a) = b by omega]

/-- Facts on the breaks. -/
theorem good_cases (gap : K) (v : List (Visit F K)) (hne : v ≠ []) : ∃ l, uniqN ((List.range v.length).filter (isBreak gap v) ++ [0] ++ [v.length]) = 0 :: l ∧
    (0 :: l).getLast (by simp) = v.length ∧ (0 :: l).Pairwise (· < ·) ∧ ∀ i, i ∈ 0 :: l ↔ i = 0 ∨ i = v.length ∨ (i < v.length ∧ isBreak gap v i = true) := by
  have hs := uniqN_sorted ((List.range v.length).filter (isBreak gap v) ++ [0] ++ [v.length])
  have hm : ∀ i, i ∈ uniqN ((List.range v.length).filter (isBreak gap v) ++ [0] ++ [v.length]) ↔ i = 0 ∨ i = v.length ∨ (i < v.length ∧ isBreak gap v i = true) := by
    intro i
    rw [mem_uniqN]
    simp only [List.mem_append, List.mem_filter, List.mem_range, List.mem_singleton]
    tauto
  generalize uniqN ((List.range v.length).filter (isBreak gap v) ++ [0] ++ [v.length]) = g at hs hm
  cases g with
  | nil => have := (hm 0).mpr (Or.inl rfl); simp at this
  | cons a l =>
    have ha : a = 0 := by
      rcases List.mem_cons.mp ((hm 0).mpr (Or.inl rfl)) with h | h
      · exact h.symm
      · have := (List.pairwise_cons.mp hs).1 0 h; omega
    subst ha
    refine ⟨l, rfl, ?_, hs, hm⟩
    have hle : ∀ i ∈ 0 :: l, i ≤ v.length := fun i hi => by
      rcases (hm i).mp hi with h | h | h <;> omega
    have h1 := hle _ (List.getLast_mem (l := 0 :: l) (by simp))
    have h2 : v.length ≤ (0 :: l).getLast (by simp) := by
      have hv : v.length ∈ 0 :: l := (hm _).mpr (Or.inr (Or.inl rfl))
      rcases (0 :: l).eq_nil_or_concat with h | ⟨m, a, h⟩
      · simp at h
      · rw [List.concat_eq_append] at h
        have hg : (0 :: l).getLast (by simp) = a := by
          have : ∀ (u : List ℕ) (hu : u ≠ []), u = m ++ [a] → u.getLast hu = a := by rintro u hu rfl; simp
          exact this _ _ h
        rw [hg]
        rw [h] at hv hs
        rcases List.mem_append.mp hv with h' | h'
        · exact ((List.pairwise_append.mp hs).2.2 _ h' a (by simp)).le
        · simp at h'; omega
    omega

/-- The blocks cover all visits, in order, each visit once. -/
theorem blocks_cover (gap : K) (v : List (Visit F K)) (hne : v ≠ []) : (blocks gap v).flatMap span = List.range v.length := by
  obtain ⟨l, h1, h2, h3, _⟩ := good_cases gap v hne
  unfold blocks
  dsimp only
  rw [h1, List.tail_cons, spans 0 v.length l h3 h2, List.range_eq_range']
  rfl

/-- The start of each block is 0 or a break, and no other index of it is a break. -/
theorem zip_breaks (a : ℕ) (l : List ℕ) (hs : (a :: l).Pairwise (· < ·)) : ∀ b ∈ ((a :: l).dropLast).zip (l.map (· - 1)), b.1 ∈ a :: l ∧ b.1 ≤ b.2 ∧ b.2 + 1 ∈ l ∧ ∀ i, b.1 < i → i ≤ b.2 → i ∉ a :: l := by
  induction l generalizing a with
  | nil => simp
  | cons c l ih =>
    have hac : a < c := (List.pairwise_cons.mp hs).1 c (by simp)
    have hs' := (List.pairwise_cons.mp hs).2
    intro b hb
    rw [show (a :: c :: l).dropLast = a :: (c :: l).dropLast from rfl, List.map_cons, List.zip_cons_cons] at hb
    rcases List.mem_cons.mp hb with rfl | hb
    · refine ⟨by simp, by dsimp only; omega, by simp [show c - 1 + 1 = c by omega], fun i h1 h2 hi => ?_⟩
      dsimp only at h1 h2
      rcases List.mem_cons.mp hi with h | h
      · omega
      · rcases List.mem_cons.mp h with h | h
        · omega
        · have := (List.pairwise_cons.mp hs').1 i h; omega
    · obtain ⟨i1, i2, i3, i4⟩ := ih c hs' b hb
      refine ⟨List.mem_cons_of_mem _ i1, i2, List.mem_cons_of_mem _ i3, fun i h1 h2 hi => ?_⟩
      rcases List.mem_cons.mp hi with h | h
      · have : c ≤ b.1 := by
          rcases List.mem_cons.mp i1 with h | h
          · omega
          · exact ((List.pairwise_cons.mp hs').1 _ h).le
        omega
      · exact i4 i h1 h2 h

/-- A break between two visits that follow each other: another filter or a gap. -/
def Apart (gap : K) (a b : Visit F K) : Prop := a.2 ≠ b.2 ∨ gap < |a.1 - b.1|

theorem isBreak_iff (gap : K) (v : List (Visit F K)) (i : ℕ) (a b : Visit F K) (ha : v[i]? = some a) (hb : v[i + 1]? = some b) : isBreak gap v (i + 1) = true ↔ Apart gap a b := by
  unfold isBreak prev Apart
  rw [hb, if_neg (by omega), Nat.add_sub_cancel, ha]
  simp only [Bool.or_eq_true, decide_eq_true_eq]
  constructor
  · rintro (h | h)
    · exact Or.inl (fun e => h e.symm)
    · exact Or.inr h
  · rintro (h | h)
    · exact Or.inl (fun e => h e.symm)
    · exact Or.inr h

/-- Visits in a block are in one filter and without gaps; those of two blocks are apart. -/
theorem blocks_spec (gap : K) (v : List (Visit F K)) (hne : v ≠ []) : ∀ b ∈ blocks gap v, b.1 ≤ b.2 ∧ b.2 < v.length ∧
    (∀ (i : ℕ) (x y : Visit F K), b.1 ≤ i → i < b.2 → v[i]? = some x → v[i + 1]? = some y → ¬ Apart gap x y) ∧
    (∀ x y : Visit F K, v[b.2]? = some x → v[b.2 + 1]? = some y → Apart gap x y) := by
  obtain ⟨l, h1, h2, h3, h4⟩ := good_cases gap v hne
  unfold blocks
  dsimp only
  rw [h1, List.tail_cons]
  intro b hb
  obtain ⟨i1, i2, i3, i4⟩ := zip_breaks 0 l h3 b hb
  refine ⟨i2, ?_, ?_, ?_⟩
  · rcases (h4 _).mp (List.mem_cons_of_mem _ i3) with h | h | h <;> omega
  · intro i x y hi1 hi2 hx hy hap
    apply i4 (i + 1) (by omega) (by omega)
    rw [h4]
    have : i + 1 < v.length := (List.getElem?_eq_some_iff.mp hy).1
    exact Or.inr (Or.inr ⟨this, (isBreak_iff gap v i x y hx hy).mpr hap⟩)
  · intro x y hx hy
    have hlt : b.2 + 1 < v.length := (List.getElem?_eq_some_iff.mp hy).1
    rcases (h4 _).mp (List.mem_cons_of_mem _ i3) with h | h | h
    · omega
    · omega
    · exact (isBreak_iff gap v b.2 x y hx hy).mp h.2

/-- All visits of a block are in the filter of its first. -/
theorem block_filter (gap : K) (v : List (Visit F K)) (hne : v ≠ []) (b : ℕ × ℕ) (hb : b ∈ blocks gap v) (x : Visit F K) (hx : v[b.1]? = some x) (k : ℕ) (y : Visit F K)
    (hk : b.1 + k ≤ b.2) (hy : v[b.1 + k]? = some y) : y.2 = x.2 := by
  obtain ⟨_, h2, h3, _⟩ := blocks_spec gap v hne b hb
  induction k generalizing y with
  | zero => rw [Nat.add_zero, hx] at hy; cases hy; rfl
  | succ k ih =>
    have hlt : b.1 + k < v.length := by omega
    obtain ⟨z, hz⟩ : ∃ z, v[b.1 + k]? = some z := ⟨_, List.getElem?_eq_getElem hlt⟩
    have hzx := ih z (by omega) hz
    have hna := h3 (b.1 + k) z y (by omega) (by omega) hz (by rw [← hy]; rfl)
    unfold Apart at hna
    push Not at hna
    rw [← hna.1, hzx]

end

example : blocks (2 : ℚ) [(0, 'g'), (1, 'g'), (2, 'r'), (3, 'r'), (9, 'r')] = [(0, 1), (2, 3), (4, 4)] := by decide +kernel

/-! ## C298: midnights -/

theorem searchsorted_split {K : Type} [LinearOrder K] (l : List K) (hs : l.Pairwise (· ≤ ·)) (x : K) :
    Np.searchsortedLeft l x ≤ l.length ∧ (∀ (i : ℕ) (y : K), l[i]? = some y → i < Np.searchsortedLeft l x → y < x) ∧ (∀ (i : ℕ) (y : K), l[i]? = some y → Np.searchsortedLeft l x ≤ i → x ≤ y) := by
  unfold Np.searchsortedLeft
  induction l with
  | nil => simp
  | cons a l ih =>
    obtain ⟨h1, h2, h3⟩ := ih (List.pairwise_cons.mp hs).2
    by_cases ha : a < x
    · rw [List.takeWhile_cons_of_pos (by simpa using ha)]
      refine ⟨by simpa using h1, ?_, ?_⟩
      · intro i y hy hi
        cases i with
        | zero => simp at hy; subst hy; exact ha
        | succ i => exact h2 i y (by simpa using hy) (by simpa using hi)
      · intro i y hy hi
        cases i with
        | zero => simp at hi
        | succ i => exact h3 i y (by simpa using hy) (by simpa using hi)
    · rw [List.takeWhile_cons_of_neg (by simpa using ha)]
      refine ⟨by simp, by simp, ?_⟩
      intro i y hy _
      cases i with
      | zero => simp at hy; subst hy; exact not_lt.mp ha
      | succ i => exact (not_lt.mp ha).trans ((List.pairwise_cons.mp hs).1 y (List.mem_of_getElem? (by simpa using hy)))

section
variable {K : Type} [Field K] [LinearOrder K] [IsStrictOrderedRing K]

/-- The midnight of a time is the nearest. -/
theorem midnight_nearest (mids : List K) (hs : mids.Pairwise (· ≤ ·)) (hne : mids ≠ []) (x : K) : ∃ m, midnightOf mids x = some m ∧ m ∈ mids ∧ ∀ y ∈ mids, |x - m| ≤ |x - y| := by
  have hlen : 0 < mids.length := List.length_pos_iff.mpr hne
  obtain ⟨h1, h2, h3⟩ := searchsorted_split mids hs x
  have hmono : ∀ (i j : ℕ) (y z : K), mids[i]? = some y → mids[j]? = some z → i ≤ j → y ≤ z := by
    intro i j y z hy hz hij
    obtain ⟨hi, rfl⟩ := List.getElem?_eq_some_iff.mp hy
    obtain ⟨hj, rfl⟩ := List.getElem?_eq_some_iff.mp hz
    rcases hij.lt_or_eq with h | h
    · exact List.pairwise_iff_getElem.mp hs i j hi hj h
    · subst h; exact le_rfl
  have hget : ∀ i : ℕ, i < mids.length → ∃ y, mids[i]? = some y := fun i hi => ⟨_, List.getElem?_eq_getElem hi⟩
  unfold midnightOf
  dsimp only
  generalize hi : Np.searchsortedLeft mids x = i at h1 h2 h3
  rcases Nat.eq_zero_or_pos i with h0 | h0
  · subst h0
    obtain ⟨b, hb⟩ := hget (mids.length - 1) (by omega)
    obtain ⟨m, hm⟩ := hget 0 hlen
    have e1 := h3 0 m hm le_rfl
    have e2 := hmono 0 (mids.length - 1) m b hm hb (by omega)
    have hp : prev mids.length 0 = mids.length - 1 := rfl
    rw [hp, hb]
    dsimp only
    rw [if_neg (by omega), hm]
    dsimp only
    rw [if_neg (by rw [abs_of_nonpos (by linarith), abs_of_nonpos (by linarith)]; linarith)]
    refine ⟨m, rfl, List.mem_of_getElem? hm, fun y hy => ?_⟩
    obtain ⟨k, hk⟩ := List.mem_iff_getElem?.mp hy
    have := hmono 0 k m y hm hk (by omega)
    rw [abs_of_nonpos (by linarith), abs_of_nonpos (by linarith)]
    linarith
  · obtain ⟨b, hb⟩ := hget (i - 1) (by omega)
    have hp : prev mids.length i = i - 1 := by unfold prev; rw [if_neg (by omega)]
    have e1 := h2 (i - 1) b hb (by omega)
    rw [hp, hb]
    dsimp only
    by_cases hlt : i < mids.length
    · obtain ⟨m, hm⟩ := hget i hlt
      have e2 := h3 i m hm le_rfl
      rw [if_neg (by omega), hm]
      dsimp only
      rw [hp, hb]
      rw [abs_of_pos (show 0 < x - b by linarith), abs_of_nonpos (show x - m ≤ 0 by linarith)]
      split_ifs with hc
      · refine ⟨b, rfl, List.mem_of_getElem? hb, fun y hy => ?_⟩
        obtain ⟨k, hk⟩ := List.mem_iff_getElem?.mp hy
        rw [abs_of_pos (show 0 < x - b by linarith)]
        by_cases hki : k < i
        · have := hmono k (i - 1) y b hk hb (by omega)
          exact le_trans (by linarith) (le_abs_self _)
        · have := hmono i k m y hm hk (by omega)
          exact le_trans (by linarith) (neg_le_abs _)
      · refine ⟨m, rfl, List.mem_of_getElem? hm, fun y hy => ?_⟩
        obtain ⟨k, hk⟩ := List.mem_iff_getElem?.mp hy
        rw [abs_of_nonpos (show x - m ≤ 0 by linarith)]
        by_cases hki : k < i
        · have := hmono k (i - 1) y b hk hb (by omega)
          exact le_trans (by linarith) (le_abs_self _)
        · have := hmono i k m y hm hk (by omega)
          exact le_trans (by linarith) (neg_le_abs _)
    · rw [if_pos (by omega), hb]
      dsimp only
      rw [if_neg (lt_irrefl _)]
      refine ⟨b, rfl, List.mem_of_getElem? hb, fun y hy => ?_⟩
      obtain ⟨k, hk⟩ := List.mem_iff_getElem?.mp hy
      have hkl : k < mids.length := (List.getElem?_eq_some_iff.mp hk).1
      have := hmono k (i - 1) y b hk hb (by omega)
      rw [abs_of_pos (by linarith)]
      exact le_trans (by linarith) (le_abs_self _)

example : midnightOf [(0 : ℚ), 1, 2] (7 / 4) = some 2 ∧ midnightOf [(0 : ℚ), 1, 2] (-3) = some 0 ∧ midnightOf [(0 : ℚ), 1, 2] 5 = some 2 := by decide +kernel

/-- `nearest_val`: a nearest value. -/
theorem nearest_spec (l : List K) (x : K) (hne : l ≠ []) : ∃ m, nearestVal l x = some m ∧ m ∈ l ∧ ∀ y ∈ l, |m - x| ≤ |y - x| := by
  cases l with
  | nil => exact absurd rfl hne
  | cons a l =>
    refine ⟨_, rfl, ?_⟩
    have : ∀ (l : List K) (a : K), (l.foldl (fun best b => if |b - x| < |best - x| then b else best) a ∈ a :: l) ∧
        ∀ y ∈ a :: l, |l.foldl (fun best b => if |b - x| < |best - x| then b else best) a - x| ≤ |y - x| := by
      intro l
      induction l with
      | nil => intro a; simp
      | cons b l ih =>
        intro a
        rw [List.foldl_cons]
        split_ifs with h
        · obtain ⟨i1, i2⟩ := ih b
          refine ⟨List.mem_cons_of_mem _ i1, fun y hy => ?_⟩
          rcases List.mem_cons.mp hy with rfl | hy
          · exact (i2 b (by simp)).trans h.le
          · exact i2 y hy
        · obtain ⟨i1, i2⟩ := ih a
          refine ⟨?_, fun y hy => ?_⟩
          · rcases List.mem_cons.mp i1 with h' | h'
            · rw [h']; simp
            · simp [h']
          · rcases List.mem_cons.mp hy with rfl | hy
            · exact i2 _ (by simp)
            · rcases List.mem_cons.mp hy with rfl | hy
              · exact (i2 a (by simp)).trans (not_lt.mp h)
              · exact i2 y (by simp [hy])
    exact this l a

/-- The midnights that are kept: some of those given, one for each tenth of a day that occurs, in the order of tenths. -/
theorem oneEach_keys (key : K → ℤ) (mids : List K) : (∀ m ∈ oneEach key mids, m ∈ mids) ∧ ((oneEach key mids).map key).Pairwise (· < ·) ∧ ∀ m ∈ mids, key m ∈ (oneEach key mids).map key := by
  have hmap : (oneEach key mids).map key = List.insertionSort (· ≤ ·) (mids.map key).dedup := by
    unfold oneEach
    have hall : ∀ k ∈ List.insertionSort (· ≤ ·) (mids.map key).dedup, k ∈ mids.map key := fun k hk => by
      rw [(List.perm_insertionSort _ _).mem_iff, List.mem_dedup] at hk; exact hk
    generalize List.insertionSort (· ≤ ·) (mids.map key).dedup = ks at hall
    induction ks with
    | nil => rfl
    | cons k ks ih =>
      obtain ⟨m, hm, hk⟩ := List.mem_map.mp (hall k (by simp))
      obtain ⟨w, hw⟩ : ∃ w, mids.find? (fun m => decide (key m = k)) = some w := by
        rw [← Option.isSome_iff_exists, List.find?_isSome]
        exact ⟨m, hm, by simpa using hk⟩
      have hkw : key w = k := by have := List.find?_some hw; simpa using this
      rw [List.filterMap_cons, hw]
      dsimp only
      rw [List.map_cons, ih (fun k' h => hall k' (by simp [h])), hkw]
  refine ⟨?_, ?_, ?_⟩
  · intro m hm
    unfold oneEach at hm
    obtain ⟨k, _, h⟩ := List.mem_filterMap.mp hm
    exact List.mem_of_find?_eq_some h
  · rw [hmap]
    have h1 : (List.insertionSort (· ≤ ·) (mids.map key).dedup).Pairwise (· ≤ ·) := List.pairwise_insertionSort _ _
    have h2 : (List.insertionSort (· ≤ ·) (mids.map key).dedup).Nodup := (List.perm_insertionSort _ _).nodup_iff.mpr (List.nodup_dedup _)
    exact (h1.and h2).imp (fun h => lt_of_le_of_ne h.1 h.2)
  · intro m hm
    rw [hmap, (List.perm_insertionSort _ _).mem_iff, List.mem_dedup]
    exact List.mem_map.mpr ⟨m, hm, rfl⟩

/-- With rounding to tenths: every midnight has one kept within a tenth of a day, and those farther apart than that are not merged. -/
theorem oneEach_near (key : K → ℤ) (hk : ∀ m, |(key m : K) - m * 10| ≤ 1 / 2) (mids : List K) :
    (∀ m ∈ mids, ∃ r ∈ oneEach key mids, |r - m| ≤ 1 / 10) ∧ ∀ a ∈ mids, ∀ b ∈ mids, 1 / 10 < |a - b| → key a ≠ key b := by
  have near : ∀ a b : K, key a = key b → |a - b| ≤ 1 / 10 := by
    intro a b hab
    have h1 := abs_le.mp (hk a)
    have h2 := abs_le.mp (hk b)
    rw [hab] at h1
    rw [abs_le]
    constructor <;> linarith [h1.1, h1.2, h2.1, h2.2]
  constructor
  · intro m hm
    obtain ⟨r, hr, he⟩ := List.mem_map.mp ((oneEach_keys key mids).2.2 m hm)
    exact ⟨r, hr, near r m he⟩
  · intro a _ b _ hab he
    exact absurd (near a b he) (not_le.mpr hab)

end

/-- The repeats are chopped off, as in the comment: midnights within a minute are one. -/
def RepeatClaim : Prop := ∀ (key : ℚ → ℤ), (∀ m, |(key m : ℚ) - m * 10| ≤ 1 / 2) → ∀ mids : List ℚ, ∀ a ∈ oneEach key mids, ∀ b ∈ oneEach key mids, |a - b| < 1 / 1440 → a = b

/-- False for two values of one midnight on two sides of an odd twentieth of a day. -/
theorem repeat_false : ¬ RepeatClaim := by
  intro h
  have h1 : ∀ m : ℚ, |((round (m * 10) : ℤ) : ℚ) - m * 10| ≤ 1 / 2 := fun m => by
    have := abs_sub_round (m * 10)
    rw [abs_sub_comm]; exact this
  have := h (fun m => round (m * 10)) h1 [499 / 10000, 501 / 10000] (499 / 10000) (by decide +kernel) (501 / 10000) (by decide +kernel) (by norm_num [abs_lt])
  norm_num at this

end Verif.Hourglass
