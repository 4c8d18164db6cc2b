import Mathlib.Tactic.LinearCombination
import Mathlib.Tactic.NormNum
import Mathlib.Tactic.Linarith
import Mathlib.Tactic.Ring
import Mathlib.Tactic.FieldSimp
import Mathlib.Tactic.Positivity
import Mathlib.Algebra.Order.Floor.Ring
import Mathlib.Algebra.Order.Ring.Abs
import Mathlib.Data.Rat.Floor
import Mathlib.Data.List.Sort
import Verif.Model.HgPlot

/-!
# Hourglass plots, second generation: properties
-/

namespace Verif.HgPlot

/-! ## C475: nights and civil hours -/

section
variable {K : Type*} [Field K] [LinearOrder K] [IsStrictOrderedRing K] [FloorRing K]

private theorem civil_fst (m : K) : (civil m).1 = ⌊m - 1 / 2⌋ := by
  unfold civil
  simp only
  congr 1
  ring

/-- **C475.** The hours are from noon (-12) to noon (12), the night is the whole day number of the evening before that midnight, and together they are the
time. -/
theorem civil_spec (m : K) (n : ℤ) (h : K) :
    civil m = (n, h) ↔ (-12 ≤ h ∧ h < 12 ∧ m = (n : K) + 1 + h / 24) := by
  have e1 := civil_fst m
  have e2 : (civil m).2 = (m - 1 - ((civil m).1 : K)) * 24 := by
    unfold civil
    simp only
    ring
  rw [Prod.ext_iff]
  simp only
  rw [e2, e1]
  constructor
  · rintro ⟨hn, hh⟩
    rw [Int.floor_eq_iff] at hn
    have hn' : (⌊m - 1 / 2⌋ : K) = (n : K) := by
      rw [Int.floor_eq_iff.mpr hn]
    rw [hn'] at hh
    refine ⟨by linarith [hn.1], by linarith [hn.2], by rw [← hh]; ring⟩
  · rintro ⟨h1, h2, h3⟩
    have hn : ⌊m - 1 / 2⌋ = n := by
      rw [Int.floor_eq_iff, h3]
      constructor <;> linarith
    refine ⟨hn, ?_⟩
    rw [hn, h3]
    ring

/-- All times from one noon to the next are on one row, in order. -/
theorem civil_noon (n : ℤ) (m m' : K) (h1 : (n : K) + 1 / 2 ≤ m) (h2 : m < m') (h3 : m' < (n : K) + 3 / 2) :
    (civil m).1 = n ∧ (civil m').1 = n ∧ (civil m).2 < (civil m').2 := by
  have a : civil m = (n, (m - 1 - n) * 24) := (civil_spec m n _).mpr ⟨by linarith, by linarith, by ring⟩
  have b : civil m' = (n, (m' - 1 - n) * 24) := (civil_spec m' n _).mpr ⟨by linarith, by linarith, by ring⟩
  rw [a, b]
  exact ⟨rfl, rfl, by simp only; linarith⟩

end

example : civil (60000 + 3 / 4 : ℚ) = (60000, -6) ∧ civil (60001 + 1 / 4 : ℚ) = (60000, 6) := by decide +kernel

/-! ## C476: solar hours -/

section
variable {K : Type*} [Field K] [LinearOrder K] [IsStrictOrderedRing K] [FloorRing K]

private theorem wrap_range (x : K) : -180 ≤ wrap180 x ∧ wrap180 x < 180 := by
  unfold wrap180
  have h1 := Int.floor_le ((x + 180) / 360)
  have h2 := Int.lt_floor_add_one ((x + 180) / 360)
  rw [le_div_iff₀ (by norm_num)] at h1
  rw [div_lt_iff₀ (by norm_num)] at h2
  constructor <;> linarith

private theorem wrap_eq (x y : K) (k : ℤ) (h : x = y + 360 * (k : K)) (h1 : -180 ≤ y) (h2 : y < 180) : wrap180 x = y := by
  unfold wrap180
  have : ⌊(x + 180) / 360⌋ = k := by
    rw [Int.floor_eq_iff, le_div_iff₀ (by norm_num), div_lt_iff₀ (by norm_num), h]
    constructor <;> linarith
  rw [this, h]
  ring

/-- **C476 (part).** The hours are those from the mean solar midnight of the longitude, from -12 to 12; if the clock and the sun agree which noon was the
last one, they are the hours of that night. -/
theorem solar_partial (off lon t : K) :
    (-12 ≤ (solar off lon t).2 ∧ (solar off lon t).2 < 12) ∧
      (∃ k : ℤ, t + lon / 360 = (k : K) + (solar off lon t).2 / 24) ∧
      ((civil (t + off)).1 = (civil (t + lon / 360)).1 → solar off lon t = civil (t + lon / 360)) := by
  have hr := wrap_range ((t + lon / 360) * 360)
  refine ⟨?_, ?_, ?_⟩
  · unfold solar
    simp only
    constructor
    · linarith [hr.1]
    · linarith [hr.2]
  · refine ⟨⌊((t + lon / 360) * 360 + 180) / 360⌋, ?_⟩
    unfold solar wrap180
    simp only
    ring
  · intro h
    obtain ⟨h1, h2, h3⟩ := (civil_spec (t + lon / 360) (civil (t + lon / 360)).1 (civil (t + lon / 360)).2).mp rfl
    have hn : (solar off lon t).1 = (civil (t + off)).1 := rfl
    have hh : (solar off lon t).2 = (civil (t + lon / 360)).2 := by
      unfold solar
      simp only
      rw [wrap_eq ((t + lon / 360) * 360) ((civil (t + lon / 360)).2 * 15) ((civil (t + lon / 360)).1 + 1)
        (by push_cast; linarith [h3]) (by linarith) (by linarith)]
      ring
    exact Prod.ext (by rw [hn, h]) hh

/-- Between the two noons a time is drawn on the row of the wrong night: a day too early or too late. -/
theorem solar_row (off lon t : K) :
    t + lon / 360 = ((solar off lon t).1 : K) + 1 + (solar off lon t).2 / 24 ↔ (civil (t + off)).1 = (civil (t + lon / 360)).1 := by
  constructor
  · intro h
    obtain ⟨⟨h1, h2⟩, _, _⟩ := solar_partial off lon t
    have := (civil_spec (t + lon / 360) (solar off lon t).1 (solar off lon t).2).mpr ⟨h1, h2, h⟩
    rw [this]
    rfl
  · intro h
    have e := (solar_partial off lon t).2.2 h
    rw [e]
    exact ((civil_spec (t + lon / 360) (civil (t + lon / 360)).1 (civil (t + lon / 360)).2).mp rfl).2.2

end

/-- So the time is not always that of the row and the hours: with the clock four hours behind and a longitude of 71 degrees west. -/
theorem solar_false : ¬ ∀ t : ℚ, t + (-71) / 360 = ((solar (-1 / 6) (-71) t).1 : ℚ) + 1 + (solar (-1 / 6) (-71) t).2 / 24 := by
  intro h
  have := h (60000 + 1 / 2 + 1 / 6 + 1 / 100)
  revert this
  decide +kernel

example : solar (-1 / 6) (-72) (60001 + 1 / 5 : ℚ) = (60000, 0) := by decide +kernel

/-! ## C477: rows of a month -/

section
variable {K : Type*} [Field K] [LinearOrder K] [IsStrictOrderedRing K] [FloorRing K]

/-- The row of a block is the day of the month of its evening. -/
theorem row_eq (off : K) (first : ℤ) (t : K) (d : ℕ) :
    row off first t = (d : K) ↔ ((first : K) + (d : K) - 1 + 1 / 2 ≤ t + off ∧ t + off < (first : K) + (d : K) + 1 / 2) := by
  have e : row off first t = (((civil (t + off)).1 - first + 1 : ℤ) : K) := by
    unfold row
    push_cast
    ring
  rw [e, civil_fst]
  have : (((⌊t + off - 1 / 2⌋ - first + 1 : ℤ) : K) = (d : K)) ↔ ⌊t + off - 1 / 2⌋ = first + d - 1 := by
    rw [show (d : K) = (((d : ℤ)) : K) by push_cast; rfl, Int.cast_inj]
    constructor <;> intro h <;> omega
  rw [this, Int.floor_eq_iff]
  push_cast
  constructor
  · rintro ⟨h1, h2⟩; exact ⟨by linarith, by linarith⟩
  · rintro ⟨h1, h2⟩; exact ⟨by linarith, by linarith⟩

/-- **C477 (part).** A block that begins in the night of a day of the month, by the clock, is in the month and on the row of that day, unless it begins within the
distance of the clock from UTC of noon. -/
theorem month_partial (off : K) (first : ℤ) (days d : ℕ) (t : K) (hd : 1 ≤ d) (hd' : d ≤ days)
    (h1 : (first : K) + (d : K) - 1 + 1 / 2 + |off| < t + off) (h2 : t + off < (first : K) + (d : K) + 1 / 2 - |off|) :
    inMonth first (first + days) t = true ∧ row off first t = (d : K) := by
  have hd1 : (1 : K) ≤ (d : K) := by exact_mod_cast hd
  have hd2 : (d : K) ≤ (days : K) := by exact_mod_cast hd'
  have a1 := le_abs_self off
  have a2 := neg_abs_le off
  have a3 := abs_nonneg off
  constructor
  · simp only [inMonth, Bool.and_eq_true, decide_eq_true_eq]
    push_cast
    constructor <;> linarith
  · rw [row_eq]
    constructor <;> linarith

omit [FloorRing K] in
/-- No block is in two months of which one ends before the other begins, -/
theorem month_disjoint (f n f' n' : ℤ) (t : K) (h : n ≤ f') : ¬ (inMonth f n t = true ∧ inMonth f' n' t = true) := by
  have : (n : K) ≤ (f' : K) := by exact_mod_cast h
  simp only [inMonth, Bool.and_eq_true, decide_eq_true_eq]
  rintro ⟨⟨_, h1⟩, h2, _⟩
  linarith

omit [IsStrictOrderedRing K] [FloorRing K] in
/-- and it is in one of two months that follow each other unless it begins at noon UTC of the first of the month. -/
theorem month_cover (f n g : ℤ) (t : K) (h1 : (f : K) + 1 / 2 < t) (h2 : t < (g : K) + 1 / 2) :
    (inMonth f n t = true ∨ inMonth n g t = true) ↔ t ≠ (n : K) + 1 / 2 := by
  simp only [inMonth, Bool.and_eq_true, decide_eq_true_eq]
  constructor
  · rintro (⟨_, h⟩ | ⟨h, _⟩)
    · exact h.ne
    · exact h.ne'
  · intro h
    rcases lt_or_gt_of_ne h with h | h
    · exact Or.inl ⟨h1, h⟩
    · exact Or.inr ⟨h, h2⟩

end

/-- With a clock four hours behind UTC, a block in the late morning is in the month that begins that day, on a row that is not there. -/
theorem month_row_false :
    ¬ ∀ (off : ℚ) (first : ℤ) (days : ℕ) (t : ℚ), inMonth first (first + days) t = true → ∃ d : ℕ, 1 ≤ d ∧ d ≤ days ∧ row off first t = (d : ℚ) := by
  intro h
  obtain ⟨d, h1, _, h3⟩ := h (-1 / 6) 60000 31 (60000 + 1 / 2 + 1 / 10) (by decide +kernel)
  rw [row_eq] at h3
  have : (1 : ℚ) ≤ (d : ℚ) := by exact_mod_cast h1
  have h3' := h3.1
  norm_num at h3'
  linarith

example : inMonth 60000 60031 (60004 + 1 / 4 : ℚ) = true ∧ row (-1 / 6) 60000 (60004 + 1 / 4 : ℚ) = 4 := by decide +kernel

/-! ## C478: colours of values -/

section
variable {K : Type*} [Field K] [LinearOrder K]

/-- The place of a value in a colour bar with limits. -/
def place (lim : K × K) (x : K) : K := (x - lim.1) / (lim.2 - lim.1)

private theorem foldl_max_spec : ∀ (vs : List K) (v : K), (vs.foldl max v = v ∨ vs.foldl max v ∈ vs) ∧ v ≤ vs.foldl max v ∧ ∀ x ∈ vs, x ≤ vs.foldl max v
  | [], v => by simp
  | y :: vs, v => by
    obtain ⟨h1, h2, h3⟩ := foldl_max_spec vs (max v y)
    rw [List.foldl_cons]
    refine ⟨?_, le_trans (le_max_left _ _) h2, ?_⟩
    · rcases h1 with h | h
      · rcases max_choice v y with e | e
        · left; rw [h, e]
        · right; rw [h, e]; simp
      · right; exact List.mem_cons_of_mem _ h
    · intro x hx
      rcases List.mem_cons.mp hx with rfl | hx
      · exact le_trans (le_max_right _ _) h2
      · exact h3 x hx

private theorem foldl_min_spec : ∀ (vs : List K) (v : K), (vs.foldl min v = v ∨ vs.foldl min v ∈ vs) ∧ vs.foldl min v ≤ v ∧ ∀ x ∈ vs, vs.foldl min v ≤ x
  | [], v => by simp
  | y :: vs, v => by
    obtain ⟨h1, h2, h3⟩ := foldl_min_spec vs (min v y)
    rw [List.foldl_cons]
    refine ⟨?_, le_trans h2 (min_le_left _ _), ?_⟩
    · rcases h1 with h | h
      · rcases min_choice v y with e | e
        · left; rw [h, e]
        · right; rw [h, e]; simp
      · right; exact List.mem_cons_of_mem _ h
    · intro x hx
      rcases List.mem_cons.mp hx with rfl | hx
      · exact le_trans h2 (min_le_right _ _)
      · exact h3 x hx

private theorem extremes_eq (v : K) (vs : List K) : vs.foldl max v = vs.foldl min v ↔ ∀ x ∈ vs, x = v := by
  obtain ⟨_, a2, a3⟩ := foldl_max_spec vs v
  obtain ⟨_, b2, b3⟩ := foldl_min_spec vs v
  constructor
  · intro h x hx
    have h1 := a3 x hx
    have h2 := b3 x hx
    rw [h] at h1 a2
    exact le_antisymm (h1.trans b2) (a2.trans h2)
  · intro h
    obtain ⟨a1, _, _⟩ := foldl_max_spec vs v
    obtain ⟨b1, _, _⟩ := foldl_min_spec vs v
    have e1 : vs.foldl max v = v := a1.elim id (fun m => h _ m)
    have e2 : vs.foldl min v = v := b1.elim id (fun m => h _ m)
    rw [e1, e2]

/-- If all values are the same there is an error, whether or not limits are given. -/
theorem mapColors_equal (limits : Option (K × K)) (v : K) (vs : List K) : (∃ e, mapColors limits v vs = .error e) ↔ ∀ x ∈ vs, x = v := by
  rw [← extremes_eq]
  unfold mapColors
  constructor
  · rintro ⟨e, he⟩
    by_contra hne
    simp only [if_neg hne] at he
    cases he
  · intro h
    exact ⟨.unbound, by simp only [if_pos h]⟩

/-- **C478 (part).** Otherwise each value has its place in the colour bar; without limits the smallest value has place 0 and the largest 1. -/
theorem mapColors_partial [IsStrictOrderedRing K] (limits : Option (K × K)) (v : K) (vs : List K) (h : ∃ x ∈ vs, x ≠ v) :
    ∃ lim, mapColors limits v vs = .ok ((v :: vs).map (place lim), lim) ∧ (∀ l, limits = some l → lim = l) ∧
      (limits = none → lim.1 ∈ v :: vs ∧ lim.2 ∈ v :: vs ∧ ∀ x ∈ v :: vs, lim.1 ≤ x ∧ x ≤ lim.2 ∧ 0 ≤ place lim x ∧ place lim x ≤ 1) := by
  have hne : ¬ vs.foldl max v = vs.foldl min v := by
    rw [extremes_eq]
    push Not
    exact h
  obtain ⟨a1, a2, a3⟩ := foldl_max_spec vs v
  obtain ⟨b1, b2, b3⟩ := foldl_min_spec vs v
  refine ⟨limits.getD (vs.foldl min v, vs.foldl max v), ?_, ?_, ?_⟩
  · unfold mapColors
    simp only [if_neg hne]
    rfl
  · rintro l rfl; rfl
  · rintro rfl
    simp only [Option.getD_none]
    have hlt : vs.foldl min v < vs.foldl max v := lt_of_le_of_ne (b2.trans a2) (fun e => hne e.symm)
    refine ⟨?_, ?_, ?_⟩
    · rcases b1 with e | e
      · rw [e]; simp
      · exact List.mem_cons_of_mem _ e
    · rcases a1 with e | e
      · rw [e]; simp
      · exact List.mem_cons_of_mem _ e
    · intro x hx
      have hx1 : vs.foldl min v ≤ x := by
        rcases List.mem_cons.mp hx with rfl | hx
        · exact b2
        · exact b3 x hx
      have hx2 : x ≤ vs.foldl max v := by
        rcases List.mem_cons.mp hx with rfl | hx
        · exact a2
        · exact a3 x hx
      refine ⟨hx1, hx2, ?_, ?_⟩
      · exact div_nonneg (sub_nonneg.mpr hx1) (sub_nonneg.mpr hlt.le)
      · unfold place
        rw [div_le_one (sub_pos.mpr hlt)]
        simp only
        linarith

/-- With limits the places in all months are those in the colour bar. -/
theorem yearColors_limits (l : K × K) (ms : List (List K)) (cs : List (List K)) (bar : Option (K × K)) (h : yearColors (some l) ms = .ok (cs, bar)) :
    cs = ms.map (fun m => m.map (place l)) ∧ (∀ b, bar = some b → b = l) := by
  induction ms generalizing cs bar with
  | nil =>
    simp only [yearColors, Except.ok.injEq, Prod.mk.injEq] at h
    rw [← h.1, ← h.2]
    simp
  | cons m ms ih =>
    cases hr : yearColors (some l) ms with
    | error e =>
      cases m with
      | nil => simp [yearColors, hr] at h
      | cons v vs =>
        cases hm : mapColors (some l) v vs with
        | error e' => simp [yearColors, hm] at h
        | ok p => simp [yearColors, hr, hm] at h
    | ok p =>
      obtain ⟨cs', bar'⟩ := p
      obtain ⟨i1, i2⟩ := ih cs' bar' hr
      cases m with
      | nil =>
        simp only [yearColors, hr, Except.ok.injEq, Prod.mk.injEq] at h
        obtain ⟨h1, h2⟩ := h
        refine ⟨by rw [← h1, i1]; rfl, ?_⟩
        intro b hb
        rw [← h2] at hb
        split at hb
        · cases hb
        · exact i2 b hb
      | cons v vs =>
        by_cases hne : vs.foldl max v = vs.foldl min v
        · simp [yearColors, mapColors, hne] at h
        · simp only [yearColors, mapColors, if_neg hne, hr, Option.getD_some, Except.ok.injEq, Prod.mk.injEq] at h
          obtain ⟨h1, h2⟩ := h
          refine ⟨by rw [← h1, i1]; rfl, ?_⟩
          intro b hb
          rw [← h2] at hb
          split at hb
          · exact (Option.some.inj hb).symm
          · exact i2 b hb

/-- A month with values that are all the same, for instance with one block, spoils the year. -/
theorem yearColors_error (limits : Option (K × K)) (ms : List (List K)) (v : K) (vs : List K) (hm : v :: vs ∈ ms) (h : ∀ x ∈ vs, x = v) :
    ∃ e, yearColors limits ms = .error e := by
  induction ms with
  | nil => simp at hm
  | cons m ms ih =>
    rcases List.mem_cons.mp hm with rfl | hm
    · obtain ⟨e, he⟩ := (mapColors_equal limits v vs).mpr h
      exact ⟨e, by simp only [yearColors, he]⟩
    · obtain ⟨e, he⟩ := ih hm
      cases m with
      | nil => exact ⟨e, by simp only [yearColors, he]⟩
      | cons w ws =>
        cases hw : mapColors limits w ws with
        | error e' => exact ⟨e', by simp only [yearColors, hw]⟩
        | ok p => exact ⟨e, by simp only [yearColors, hw, he]⟩

end

/-- Without limits the colour bar is that of the last month only: the places of the other months are not those in it, -/
theorem yearColors_bar_false :
    ¬ ∀ (ms cs : List (List ℚ)) (l : ℚ × ℚ), yearColors none ms = .ok (cs, some l) → cs = ms.map (fun m => m.map (place l)) := by
  intro h
  have := h [[0, 10], [0, 20]] [[0, 1], [0, 1]] (0, 20) (by decide +kernel)
  revert this
  decide +kernel

/-- and there is none if the last month has no blocks. -/
theorem yearColors_none_false : ¬ ∀ (ms cs : List (List ℚ)) (b : Option (ℚ × ℚ)), (∃ m ∈ ms, m ≠ []) → yearColors none ms = .ok (cs, b) → b ≠ none := by
  intro h
  exact h [[0, 10], []] [[0, 1], []] none ⟨[0, 10], by simp, by simp⟩ (by decide +kernel) rfl

example : yearColors none [[2, 4, 3], [0, 10, 5]] = .ok ([[0, 1, 1 / 2], [0, 1, 1 / 2]], some ((0 : ℚ), 10)) := by decide +kernel

/-! ## C479: colours of categories -/

section
variable {C : Type*} [DecidableEq C]

private theorem lookup_put {V : Type*} : ∀ (m : List (String × V)) (k : String) (v : V) (x : String), (put m k v).lookup x = if x = k then some v else m.lookup x
  | [], k, v, x => by
    by_cases h : x = k
    · simp [put, h]
    · have : (x == k) = false := by simpa using h
      simp [put, h, List.lookup_cons, this]
  | (k', v') :: l, k, v, x => by
    unfold put
    by_cases hk : k' = k
    · rw [if_pos hk]
      subst hk
      by_cases h : x = k'
      · simp [h]
      · have : (x == k') = false := by simpa using h
        simp [h, List.lookup_cons, this]
    · rw [if_neg hk, List.lookup_cons, List.lookup_cons, lookup_put l k v x]
      by_cases h : x = k'
      · subst h
        simp [hk]
      · have : (x == k') = false := by simpa using h
        simp [this]

/-- A good state: the free colours are coloured, different and not in use; the colours in use are coloured and different. -/
private def Good (cmap : ℕ → C) (gray : C → Bool) (N : ℕ) (av : List ℕ) (m : List (String × C)) : Prop :=
  av.Nodup ∧ (∀ i ∈ av, i < N ∧ gray (cmap i) = false) ∧
    (∀ u c, m.lookup u = some c → ∃ i < N, cmap i = c ∧ gray c = false ∧ i ∉ av) ∧
    (∀ u u' c, m.lookup u = some c → m.lookup u' = some c → u = u')

private theorem good_step (cmap : ℕ → C) (gray : C → Bool) (N : ℕ) (hinj : ∀ i < N, ∀ j < N, cmap i = cmap j → i = j) (av : List ℕ) (m : List (String × C))
    (u : String) (i : ℕ) (hi : i ∈ av) (hu : m.lookup u = none) (h : Good cmap gray N av m) : Good cmap gray N (av.erase i) (put m u (cmap i)) := by
  obtain ⟨h1, h2, h3, h4⟩ := h
  have hnew : ∀ v c, m.lookup v = some c → c ≠ cmap i := by
    rintro v c hv rfl
    obtain ⟨j, hj, e, _, hn⟩ := h3 v _ hv
    exact hn (hinj j hj i (h2 i hi).1 e ▸ hi)
  refine ⟨h1.erase i, fun j hj => h2 j (List.mem_of_mem_erase hj), ?_, ?_⟩
  · intro v c hv
    rw [lookup_put] at hv
    split at hv
    · cases hv
      exact ⟨i, (h2 i hi).1, rfl, (h2 i hi).2, h1.not_mem_erase⟩
    · obtain ⟨j, hj, e, hg, hn⟩ := h3 v c hv
      exact ⟨j, hj, e, hg, fun hm => hn (List.mem_of_mem_erase hm)⟩
  · intro v v' c hv hv'
    rw [lookup_put] at hv hv'
    by_cases e1 : v = u
    · by_cases e2 : v' = u
      · rw [e1, e2]
      · rw [if_pos e1] at hv
        rw [if_neg e2] at hv'
        cases hv
        exact absurd rfl (hnew v' _ hv')
    · by_cases e2 : v' = u
      · rw [if_neg e1] at hv
        rw [if_pos e2] at hv'
        cases hv'
        exact absurd rfl (hnew v _ hv)
      · rw [if_neg e1] at hv
        rw [if_neg e2] at hv'
        exact h4 v v' c hv hv'

private theorem available_eq (cmap : ℕ → C) (gray : C → Bool) : ∀ (is av : List ℕ), available cmap gray [] is av = .ok (is.foldl (fun av i => if gray (cmap i) then av.erase i else av) av)
  | [], av => rfl
  | i :: is, av => by
    simp only [available, List.contains_nil, Bool.false_eq_true, if_false, List.foldl_cons]
    exact available_eq cmap gray is _

private theorem available_mem (cmap : ℕ → C) (gray : C → Bool) : ∀ (is av : List ℕ), av.Nodup →
    (is.foldl (fun av i => if gray (cmap i) then av.erase i else av) av).Nodup ∧
      ∀ j, j ∈ is.foldl (fun av i => if gray (cmap i) then av.erase i else av) av ↔ j ∈ av ∧ (j ∈ is → gray (cmap j) = false)
  | [], av, h => by simp [h]
  | i :: is, av, h => by
    rw [List.foldl_cons]
    by_cases hg : gray (cmap i) = true
    · rw [if_pos hg]
      obtain ⟨h1, h2⟩ := available_mem cmap gray is (av.erase i) (h.erase i)
      refine ⟨h1, fun j => ?_⟩
      rw [h2, h.mem_erase_iff, List.mem_cons]
      constructor
      · rintro ⟨⟨a, b⟩, c⟩
        exact ⟨b, fun hj => hj.elim (fun e => absurd e a) c⟩
      · rintro ⟨a, b⟩
        refine ⟨⟨?_, a⟩, fun hj => b (Or.inr hj)⟩
        rintro rfl
        rw [b (Or.inl rfl)] at hg
        exact absurd hg (by simp)
    · rw [if_neg hg]
      obtain ⟨h1, h2⟩ := available_mem cmap gray is av h
      refine ⟨h1, fun j => ?_⟩
      rw [h2, List.mem_cons]
      constructor
      · rintro ⟨a, b⟩
        refine ⟨a, fun hj => hj.elim ?_ b⟩
        rintro rfl
        simpa using hg
      · rintro ⟨a, b⟩
        exact ⟨a, fun hj => b (Or.inr hj)⟩

private theorem assign_ok (cmap : ℕ → C) (gray : C → Bool) (N : ℕ) (hinj : ∀ i < N, ∀ j < N, cmap i = cmap j → i = j) :
    ∀ (as : List (String × ℕ)) (av : List ℕ) (m : List (String × C)), Good cmap gray N av m → (as.map Prod.fst).Nodup → (as.map Prod.snd).Nodup →
      (∀ a ∈ as, a.2 ∈ av ∧ m.lookup a.1 = none) →
      ∃ av' m', assign cmap as av m = .ok (av', m') ∧ Good cmap gray N av' m' ∧ av'.length + as.length = av.length ∧
        (∀ a ∈ as, m'.lookup a.1 = some (cmap a.2)) ∧ (∀ u, u ∉ as.map Prod.fst → m'.lookup u = m.lookup u)
  | [], av, m, hg, _, _, _ => ⟨av, m, rfl, hg, rfl, by simp, fun _ _ => rfl⟩
  | (u, i) :: as, av, m, hg, hk, hv, ha => by
    obtain ⟨hi, hu⟩ := ha (u, i) (by simp)
    simp only at hi hu
    rw [List.map_cons, List.nodup_cons] at hk hv
    obtain ⟨av', m', e, g, hl, h1, h2⟩ := assign_ok cmap gray N hinj as (av.erase i) (put m u (cmap i)) (good_step cmap gray N hinj av m u i hi hu hg) hk.2 hv.2 (by
      intro a hm
      obtain ⟨b1, b2⟩ := ha a (by simp [hm])
      refine ⟨(List.mem_erase_of_ne ?_).mpr b1, ?_⟩
      · intro e
        exact hv.1 (List.mem_map.mpr ⟨a, hm, e⟩)
      · rw [lookup_put, if_neg, b2]
        intro e
        exact hk.1 (List.mem_map.mpr ⟨a, hm, e⟩))
    refine ⟨av', m', ?_, g, ?_, ?_, ?_⟩
    · rw [assign, if_pos (by simpa using hi), e]
    · rw [List.length_erase_of_mem hi] at hl
      have := List.length_pos_of_mem hi
      simp only [List.length_cons]
      omega
    · intro a hm
      rcases List.mem_cons.mp hm with rfl | hm
      · rw [h2 u hk.1, lookup_put, if_pos rfl]
      · exact h1 a hm
    · intro v hv'
      rw [List.map_cons, List.mem_cons, not_or] at hv'
      rw [h2 v hv'.2, lookup_put, if_neg hv'.1]

private theorem fill_ok (cmap : ℕ → C) (gray : C → Bool) (N : ℕ) (hinj : ∀ i < N, ∀ j < N, cmap i = cmap j → i = j) :
    ∀ (us : List String) (av : List ℕ) (m : List (String × C)), Good cmap gray N av m → us.Nodup →
      (if (us.filter (fun u => (m.lookup u).isNone)).length ≤ av.length then
        ∃ m', fill cmap us av m = .ok m' ∧ Good cmap gray N [] m' ∧ (∀ u ∈ us, (m'.lookup u).isSome = true) ∧ (∀ u c, m.lookup u = some c → m'.lookup u = some c) ∧
          (∀ u, (m'.lookup u).isSome = true → u ∈ us ∨ (m.lookup u).isSome = true)
      else fill cmap us av m = .error .index)
  | [], av, m, hg, _ => by
    simp only [List.filter_nil, List.length_nil, Nat.zero_le, if_true, fill, Except.ok.injEq]
    obtain ⟨h1, h2, h3, h4⟩ := hg
    exact ⟨m, rfl, ⟨List.nodup_nil, by simp, fun u c h => (by obtain ⟨i, a, b, c', _⟩ := h3 u c h; exact ⟨i, a, b, c', by simp⟩), h4⟩, by simp, fun u c h => h, fun u h => Or.inr h⟩
  | u :: us, av, m, hg, hn => by
    rw [List.nodup_cons] at hn
    cases hu : m.lookup u with
    | some c =>
      have ih := fill_ok cmap gray N hinj us av m hg hn.2
      rw [List.filter_cons_of_neg (by simp [hu])]
      rw [fill.eq_def]
      simp only [hu]
      split at ih
      · rename_i hle
        rw [if_pos hle]
        obtain ⟨m', e, g, a, b, d⟩ := ih
        refine ⟨m', e, g, ?_, b, ?_⟩
        · intro v hv
          rcases List.mem_cons.mp hv with rfl | hv
          · rw [b v c hu]; rfl
          · exact a v hv
        · intro v hv
          rcases d v hv with h | h
          · exact Or.inl (List.mem_cons_of_mem _ h)
          · exact Or.inr h
      · rename_i hle
        rw [if_neg hle]
        exact ih
    | none =>
      rw [List.filter_cons_of_pos (by simp [hu]), List.length_cons]
      rw [fill.eq_def]
      simp only [hu]
      cases av with
      | nil => rw [if_neg (by simp)]
      | cons i av =>
        have hg' := good_step cmap gray N hinj (i :: av) m u i (by simp) hu hg
        rw [List.erase_cons_head] at hg'
        have ih := fill_ok cmap gray N hinj us av (put m u (cmap i)) hg' hn.2
        have hf : us.filter (fun v => ((put m u (cmap i)).lookup v).isNone) = us.filter (fun v => (m.lookup v).isNone) := by
          apply List.filter_congr
          intro v hv
          rw [lookup_put, if_neg]
          rintro rfl
          exact hn.1 hv
        rw [hf] at ih
        simp only [List.length_cons, Nat.add_le_add_iff_right]
        split at ih
        · rename_i hle
          rw [if_pos hle]
          obtain ⟨m', e, g, a, b, d⟩ := ih
          refine ⟨m', e, g, ?_, ?_, ?_⟩
          · intro v hv
            rcases List.mem_cons.mp hv with rfl | hv
            · rw [b v (cmap i) (by rw [lookup_put, if_pos rfl])]; rfl
            · exact a v hv
          · intro v c hv
            apply b
            rw [lookup_put, if_neg, hv]
            rintro rfl
            rw [hu] at hv
            cases hv
          · intro v hv
            rcases d v hv with h | h
            · exact Or.inl (List.mem_cons_of_mem _ h)
            · rw [lookup_put] at h
              split at h
              · rename_i e; exact Or.inl (by simp [e])
              · exact Or.inr h
        · rename_i hle
          rw [if_neg hle]
          exact ih

/-- **C479 (part).** Given a map of different colours and wanted colours for different categories that are different colours of the map and not gray: if there
are enough colours, each category has one, the wanted one if there is one, no two the same and none gray; otherwise it is an IndexError. -/
theorem categoryColors_partial (cmap : ℕ → C) (gray : C → Bool) (N : ℕ) (hinj : ∀ i < N, ∀ j < N, cmap i = cmap j → i = j) (uses : List String) (hu : uses.Nodup)
    (assigned : List (String × ℕ)) (h1 : (assigned.map Prod.fst).Nodup) (h2 : (assigned.map Prod.snd).Nodup)
    (h3 : ∀ a ∈ assigned, a.2 < N ∧ gray (cmap a.2) = false) :
    if (uses.filter (fun u => !(assigned.map Prod.fst).contains u)).length + assigned.length ≤ ((List.range N).filter (fun i => !gray (cmap i))).length then
      ∃ m, categoryColors cmap gray N uses [] assigned = .ok m ∧ (∀ a ∈ assigned, m.lookup a.1 = some (cmap a.2)) ∧
        (∀ u, (m.lookup u).isSome = true ↔ u ∈ uses ∨ u ∈ assigned.map Prod.fst) ∧
        (∀ u c, m.lookup u = some c → gray c = false ∧ ∃ i < N, cmap i = c) ∧
        (∀ u u' c, m.lookup u = some c → m.lookup u' = some c → u = u')
    else categoryColors cmap gray N uses [] assigned = .error .index := by
  obtain ⟨a1, a2⟩ := available_mem cmap gray (List.range N) (List.range N) List.nodup_range
  set av := (List.range N).foldl (fun av i => if gray (cmap i) then av.erase i else av) (List.range N) with hav
  have hav2 : available cmap gray [] (List.range N) (List.range N) = .ok av := available_eq cmap gray _ _
  have hlen : av.length = ((List.range N).filter (fun i => !gray (cmap i))).length := by
    apply List.Perm.length_eq
    rw [List.perm_ext_iff_of_nodup a1 (List.nodup_range.filter _)]
    intro j
    rw [a2, List.mem_filter]
    constructor
    · rintro ⟨h, h'⟩; exact ⟨h, by simp [h' h]⟩
    · rintro ⟨h, h'⟩; exact ⟨h, fun _ => by simpa using h'⟩
  have hgood : Good cmap gray N av [] := by
    refine ⟨a1, fun i hi => ?_, by simp, by simp⟩
    have := (a2 i).mp hi
    exact ⟨List.mem_range.mp this.1, this.2 this.1⟩
  obtain ⟨av', m', e, g, hl, b1, b2⟩ := assign_ok cmap gray N hinj assigned av [] hgood h1 h2 (by
    intro a ha
    refine ⟨(a2 a.2).mpr ⟨List.mem_range.mpr (h3 a ha).1, fun _ => (h3 a ha).2⟩, rfl⟩)
  have hfill := fill_ok cmap gray N hinj uses av' m' g hu
  have hfl : uses.filter (fun u => (m'.lookup u).isNone) = uses.filter (fun u => !(assigned.map Prod.fst).contains u) := by
    apply List.filter_congr
    intro u _
    by_cases hm : u ∈ assigned.map Prod.fst
    · obtain ⟨a, ha, rfl⟩ := List.mem_map.mp hm
      rw [b1 a ha]
      rw [List.contains_iff_mem.mpr hm]; rfl
    · rw [b2 u hm]
      have : (assigned.map Prod.fst).contains u = false := by
        rw [← Bool.not_eq_true, List.contains_iff_mem]; exact hm
      rw [this]; rfl
  rw [hfl] at hfill
  have hcat : categoryColors cmap gray N uses [] assigned = fill cmap uses av' m' := by
    unfold categoryColors
    simp only [List.map_nil, hav2, e]
  rw [hcat]
  by_cases hle : (uses.filter (fun u => !(assigned.map Prod.fst).contains u)).length ≤ av'.length
  · rw [if_pos (by omega)]
    rw [if_pos hle] at hfill
    obtain ⟨m, e', g', c1, c2, c3⟩ := hfill
    refine ⟨m, e', fun a ha => c2 _ _ (b1 a ha), ?_, ?_, g'.2.2.2⟩
    · intro u
      constructor
      · intro h
        rcases c3 u h with h | h
        · exact Or.inl h
        · by_contra hc
          push Not at hc
          rw [b2 u hc.2] at h
          simp at h
      · rintro (h | h)
        · exact c1 u h
        · obtain ⟨a, ha, rfl⟩ := List.mem_map.mp h
          rw [c2 _ _ (b1 a ha)]; rfl
    · intro u c h
      obtain ⟨i, hi, e1, e2, _⟩ := g'.2.2.1 u c h
      exact ⟨e2, i, hi, e1⟩
  · rw [if_neg (by omega)]
    rw [if_neg hle] at hfill
    exact hfill

/-- A gray colour that is wanted is an error. -/
theorem categoryColors_gray (cmap : ℕ → C) (gray : C → Bool) (N : ℕ) (uses : List String) (u : String) (i : ℕ) (hg : gray (cmap i) = true) :
    categoryColors cmap gray N uses [] [(u, i)] = .error .key := by
  obtain ⟨_, a2⟩ := available_mem cmap gray (List.range N) (List.range N) List.nodup_range
  unfold categoryColors
  simp only [List.map_nil, available_eq, assign]
  rw [if_neg]
  · rfl
  · rw [List.contains_iff_mem, a2]
    rintro ⟨hm, h'⟩
    rw [h' hm] at hg
    exact absurd hg (by simp)

/-- In a year the colours that are wanted are the same in each month. -/
theorem monthMaps_assigned (cmap : ℕ → C) (gray : C → Bool) (N : ℕ) (hinj : ∀ i < N, ∀ j < N, cmap i = cmap j → i = j) (assigned : List (String × ℕ))
    (h1 : (assigned.map Prod.fst).Nodup) (h2 : (assigned.map Prod.snd).Nodup) (h3 : ∀ a ∈ assigned, a.2 < N ∧ gray (cmap a.2) = false)
    (months : List (List String)) (hu : ∀ m ∈ months, m.Nodup) (maps : List (List (String × C))) (h : monthMaps cmap gray N assigned months = .ok maps) :
    maps.length = months.length ∧ ∀ m ∈ maps, ∀ a ∈ assigned, m.lookup a.1 = some (cmap a.2) := by
  induction months generalizing maps with
  | nil =>
    simp only [monthMaps, Except.ok.injEq] at h
    rw [← h]; simp
  | cons uses months ih =>
    rw [monthMaps] at h
    have hp := categoryColors_partial cmap gray N hinj uses (hu uses (by simp)) assigned h1 h2 h3
    split at hp
    · obtain ⟨m, e, c1, _⟩ := hp
      rw [e] at h
      simp only at h
      cases hr : monthMaps cmap gray N assigned months with
      | error e' => rw [hr] at h; cases h
      | ok ms =>
        rw [hr] at h
        simp only [Except.ok.injEq] at h
        obtain ⟨i1, i2⟩ := ih (fun m hm => hu m (by simp [hm])) ms hr
        rw [← h]
        refine ⟨by simp [i1], ?_⟩
        intro m' hm' a ha
        rcases List.mem_cons.mp hm' with rfl | hm'
        · exact c1 a ha
        · exact i2 m' hm' a ha
    · rw [hp] at h
      cases h

end

/-- Other categories are not the same colour in each month, although there is one legend. -/
theorem monthMaps_false :
    ¬ ∀ (months : List (List String)) (maps : List (List (String × ℕ))) (u : String) (c c' : ℕ), monthMaps id (fun _ => false) 10 [] months = .ok maps →
      (∃ m ∈ maps, m.lookup u = some c) → (∃ m ∈ maps, m.lookup u = some c') → c = c' := by
  intro h
  have := h [["b"], ["a", "b"]] [[("b", 0)], [("a", 0), ("b", 1)]] "b" 0 1 (by decide +kernel) ⟨[("b", 0)], by simp, by decide⟩
    ⟨[("a", 0), ("b", 1)], by simp, by decide⟩
  omega

example : categoryColors id (fun c => decide (c = 1)) 5 ["a", "b", "c"] [] [("b", 0)] = .ok [("b", (0 : ℕ)), ("a", 2), ("c", 3)] := by decide +kernel

/-! ## C480: legend -/

section
variable {H : Type*}

private theorem foldl_put (l : List (String × H)) : ∀ (d : List (String × H)) (x : String),
    (l.foldl (fun d p => put d p.1 p.2) d).lookup x = ((l.reverse.lookup x).or (d.lookup x)) := by
  induction l with
  | nil => simp
  | cons p l ih =>
    intro d x
    rw [List.foldl_cons, ih, lookup_put, List.reverse_cons, List.lookup_append]
    obtain ⟨k, v⟩ := p
    simp only
    by_cases h : x = k
    · subst h
      cases l.reverse.lookup x <;> simp
    · have : (x == k) = false := by simpa using h
      cases l.reverse.lookup x <;> simp [h, List.lookup_cons, this]

private theorem foldl_put_if (w : List String) (l : List (String × H)) : ∀ (d : List (String × H)) (x : String), x ∈ w →
    (l.foldl (fun d p => if w.contains p.1 then put d p.1 p.2 else d) d).lookup x = ((l.reverse.lookup x).or (d.lookup x)) := by
  induction l with
  | nil => simp
  | cons p l ih =>
    intro d x hx
    rw [List.foldl_cons, ih _ x hx, List.reverse_cons, List.lookup_append]
    obtain ⟨k, v⟩ := p
    simp only
    by_cases h : x = k
    · subst h
      rw [if_pos (by simpa using hx), lookup_put]
      cases l.reverse.lookup x <;> simp
    · have hb : (x == k) = false := by simpa using h
      split
      · rw [lookup_put]
        cases l.reverse.lookup x <;> simp [h, List.lookup_cons, hb]
      · cases l.reverse.lookup x <;> simp [List.lookup_cons, hb]

/-- **C480.** If elements are asked for, the legend has those of them that are there, in the order in which they were asked for, with the handle from the
axes if there is one and otherwise the patch of the colour. -/
theorem legend_wanted (patches auto : List (String × H)) (w : List String) :
    legend patches auto (some w) = w.filterMap (fun l => ((auto.reverse.lookup l).or (patches.reverse.lookup l)).map (fun h => (l, h))) := by
  unfold legend
  simp only
  apply List.filterMap_congr
  intro l hl
  rw [foldl_put, foldl_put_if w patches [] l hl]
  simp

private theorem put_keys (d : List (String × H)) (k : String) (v : H) : (put d k v).map Prod.fst = if k ∈ d.map Prod.fst then d.map Prod.fst else d.map Prod.fst ++ [k] := by
  induction d with
  | nil => simp [put]
  | cons p d ih =>
    obtain ⟨k', v'⟩ := p
    unfold put
    by_cases h : k' = k
    · simp [h]
    · rw [if_neg h]
      simp only [List.map_cons, ih, List.mem_cons]
      have h' : ¬ k = k' := fun e => h e.symm
      by_cases hm : k ∈ d.map Prod.fst
      · simp [hm]
      · simp [hm, h']

private theorem foldl_keys (l : List (String × H)) : ∀ d : List (String × H), (d.map Prod.fst).Nodup →
    ((l.foldl (fun d p => put d p.1 p.2) d).map Prod.fst).Nodup ∧
      ∀ x, x ∈ (l.foldl (fun d p => put d p.1 p.2) d).map Prod.fst ↔ x ∈ d.map Prod.fst ∨ x ∈ l.map Prod.fst := by
  induction l with
  | nil => intro d h; simp [h]
  | cons p l ih =>
    intro d h
    rw [List.foldl_cons]
    have hk : ((put d p.1 p.2).map Prod.fst).Nodup := by
      rw [put_keys]
      split
      · exact h
      · rename_i hm
        rw [List.nodup_append]
        refine ⟨h, by simp, ?_⟩
        intro a ha b hb
        rw [List.mem_singleton] at hb
        rintro rfl
        exact hm (hb ▸ ha)
    obtain ⟨i1, i2⟩ := ih _ hk
    refine ⟨i1, fun x => ?_⟩
    rw [i2, put_keys, List.map_cons, List.mem_cons]
    split
    · rename_i hm
      constructor
      · rintro (h | h)
        · exact Or.inl h
        · exact Or.inr (Or.inr h)
      · rintro (h | rfl | h)
        · exact Or.inl h
        · exact Or.inl hm
        · exact Or.inr h
    · rw [List.mem_append, List.mem_singleton, or_assoc]

/-- Otherwise it has every label once. -/
theorem legend_all (patches auto : List (String × H)) :
    ((legend patches auto none).map Prod.fst).Nodup ∧
      ∀ l h, (l, h) ∈ legend patches auto none ↔ (auto.reverse.lookup l).or (patches.reverse.lookup l) = some h := by
  unfold legend
  simp only
  set d0 := patches.foldl (fun d p => put d p.1 p.2) ([] : List (String × H)) with hd0
  set d := auto.foldl (fun d p => put d p.1 p.2) d0 with hd
  obtain ⟨k1, k2⟩ := foldl_keys patches [] (by simp)
  obtain ⟨k3, k4⟩ := foldl_keys auto d0 k1
  have hlook : ∀ x, d.lookup x = (auto.reverse.lookup x).or (patches.reverse.lookup x) := by
    intro x
    rw [hd, foldl_put, hd0, foldl_put]
    simp
  have hmem : ∀ x h, d.lookup x = some h → x ∈ d.map Prod.fst := by
    intro x h hx
    by_contra hc
    have : d.lookup x = none := by
      rw [List.lookup_eq_none_iff]
      intro p hp
      rw [bne_iff_ne]
      rintro rfl
      exact hc (List.mem_map.mpr ⟨p, hp, rfl⟩)
    rw [this] at hx
    cases hx
  constructor
  · have : ((d.map Prod.fst).filterMap (fun l => (d.lookup l).map (fun h => (l, h)))).map Prod.fst = (d.map Prod.fst).filter (fun l => (d.lookup l).isSome) := by
      generalize d.map Prod.fst = ks
      induction ks with
      | nil => rfl
      | cons k ks ih =>
        cases hk : d.lookup k with
        | none => simp only [List.filterMap_cons, hk, Option.map_none, ih, List.filter_cons, Option.isSome_none, Bool.false_eq_true, if_false]
        | some v => simp only [List.filterMap_cons, hk, Option.map_some, List.map_cons, ih, List.filter_cons, Option.isSome_some, if_true]
    rw [this]
    exact k3.filter _
  · intro l h
    rw [List.mem_filterMap, ← hlook]
    constructor
    · rintro ⟨x, hx, e⟩
      rw [Option.map_eq_some_iff] at e
      obtain ⟨v, hv, e⟩ := e
      cases e
      exact hv
    · intro e
      exact ⟨l, hmem l h e, by rw [e]; rfl⟩

end

example : legend [("a", 1), ("b", 2)] [("moon", 3), ("b", 4)] (some ["moon", "x", "b"]) = [("moon", 3), ("b", 4)] ∧
    legend [("a", 1), ("b", 2)] [("moon", 3)] none = [("a", 1), ("b", 2), ("moon", 3)] := by decide

/-! ## C481: lines without wrapping -/

section
variable {K : Type*} [LinearOrder K]

private theorem labels_snd : ∀ (xs : List K) (p : K) (k : ℕ), (labels p k xs).map Prod.snd = xs
  | [], _, _ => rfl
  | x :: xs, p, k => by simp [labels, labels_snd xs]

private theorem labels_ge : ∀ (xs : List K) (p : K) (k : ℕ), ∀ q ∈ labels p k xs, k < q.1 ∨ (k = q.1 ∧ p ≤ q.2)
  | [], _, _, q, hq => by simp [labels] at hq
  | x :: xs, p, k, q, hq => by
    simp only [labels, List.mem_cons] at hq
    rcases hq with rfl | hq
    · by_cases h : x < p
      · left; simp [h]
      · right; simp [h, not_lt.mp h]
    · have := labels_ge xs x _ q hq
      by_cases h : x < p
      · simp only [if_pos h] at this
        left
        rcases this with a | ⟨a, _⟩ <;> omega
      · simp only [if_neg h] at this
        rcases this with a | ⟨a, b⟩
        · exact Or.inl a
        · exact Or.inr ⟨a, (not_lt.mp h).trans b⟩

private theorem labels_pairwise : ∀ (xs : List K) (p : K) (k : ℕ), (labels p k xs).Pairwise (fun a b => a.1 < b.1 ∨ (a.1 = b.1 ∧ a.2 ≤ b.2))
  | [], _, _ => List.Pairwise.nil
  | x :: xs, p, k => by
    simp only [labels, List.pairwise_cons]
    exact ⟨fun q hq => labels_ge xs x _ q hq, labels_pairwise xs x _⟩

/-- The number of places at which a list goes down, after `p`. -/
def descents (p : K) : List K → ℕ
  | [] => 0
  | x :: xs => (if x < p then 1 else 0) + descents x xs

private theorem labels_mem : ∀ (xs : List K) (p : K) (k j : ℕ), xs ≠ [] → (k < j ∨ (k = j ∧ ∀ x ∈ xs.head?, ¬ x < p)) →
    (j ∈ (labels p k xs).map Prod.fst ↔ j ≤ k + descents p xs)
  | [], _, _, _, h, _ => absurd rfl h
  | [x], p, k, j, _, hj => by
    simp only [labels, List.map_cons, List.map_nil, List.mem_singleton, descents, List.head?_cons, Option.mem_def, Option.some.injEq, forall_eq'] at hj ⊢
    by_cases h : x < p
    · simp only [if_pos h]
      rcases hj with hj | ⟨_, hj⟩
      · omega
      · exact absurd h hj
    · simp only [if_neg h]
      rcases hj with hj | ⟨hj, _⟩ <;> omega
  | x :: y :: xs, p, k, j, _, hj => by
    have ih := labels_mem (y :: xs) x (if x < p then k + 1 else k) j (by simp)
    have e : labels p k (x :: y :: xs) = ((if x < p then k + 1 else k), x) :: labels x (if x < p then k + 1 else k) (y :: xs) := by rw [labels]
    have ed : descents p (x :: y :: xs) = (if x < p then 1 else 0) + descents x (y :: xs) := by rw [descents]
    rw [e, ed, List.map_cons, List.mem_cons]
    simp only [List.head?_cons, Option.mem_def, Option.some.injEq, forall_eq'] at hj ih
    by_cases h : x < p
    · simp only [if_pos h] at ih ⊢
      have hj' : k < j := by
        rcases hj with hj | ⟨_, hj⟩
        · exact hj
        · exact absurd h hj
      by_cases hjk : j = k + 1
      · subst hjk
        simp
      · rw [ih (Or.inl (by omega))]
        constructor
        · rintro (h' | h')
          · exact absurd h' hjk
          · omega
        · intro h'; right; omega
    · simp only [if_neg h] at ih ⊢
      by_cases hjk : j = k
      · subst hjk
        simp
      · have : k < j := by
          rcases hj with hj | ⟨hj, _⟩
          · exact hj
          · exact absurd hj.symm hjk
        rw [ih (Or.inl this)]
        constructor
        · rintro (h' | h')
          · exact absurd h' hjk
          · omega
        · intro h'; right; omega

private theorem split_sorted : ∀ (n a : ℕ) (L : List (ℕ × K)), L.Pairwise (fun p q => p.1 ≤ q.1) → (∀ p ∈ L, a ≤ p.1 ∧ p.1 < a + n) →
    (List.range' a n).flatMap (fun k => L.filter (fun p => decide (p.1 = k))) = L
  | 0, a, L, _, h => by
    have : L = [] := by
      apply List.eq_nil_iff_forall_not_mem.mpr
      intro p hp
      have := h p hp
      omega
    simp [this]
  | n + 1, a, L, hs, h => by
    rw [List.range'_succ, List.flatMap_cons]
    have hsplit : ∀ M : List (ℕ × K), M.Pairwise (fun p q => p.1 ≤ q.1) → (∀ p ∈ M, a ≤ p.1) →
        M.filter (fun p => decide (p.1 = a)) ++ M.filter (fun p => decide (p.1 ≠ a)) = M := by
      intro M hM hMa
      induction M with
      | nil => rfl
      | cons p M ih =>
        rw [List.pairwise_cons] at hM
        by_cases hp : p.1 = a
        · rw [List.filter_cons_of_pos (by simpa using hp), List.filter_cons_of_neg (by simpa using hp), List.cons_append, ih hM.2 (fun q hq => hMa q (by simp [hq]))]
        · have h1 : (p :: M).filter (fun p => decide (p.1 = a)) = [] := by
            rw [List.filter_eq_nil_iff]
            intro q hq
            have hpa : a < p.1 := lt_of_le_of_ne (hMa p (by simp)) (fun e => hp e.symm)
            rcases List.mem_cons.mp hq with rfl | hq
            · simpa using hp
            · have := hM.1 q hq
              simp only [decide_eq_true_eq]
              omega
          have h2 : (p :: M).filter (fun p => decide (p.1 ≠ a)) = p :: M := by
            rw [List.filter_eq_self]
            intro q hq
            have := List.filter_eq_nil_iff.mp h1 q hq
            simpa using this
          rw [h1, h2, List.nil_append]
    have ih := split_sorted n (a + 1) (L.filter (fun p => decide (p.1 ≠ a))) (hs.sublist List.filter_sublist) (by
      intro p hp
      rw [List.mem_filter] at hp
      have := h p hp.1
      have h' : p.1 ≠ a := by simpa using hp.2
      omega)
    have hcong : (List.range' (a + 1) n).flatMap (fun k => (L.filter (fun p => decide (p.1 ≠ a))).filter (fun p => decide (p.1 = k))) =
        (List.range' (a + 1) n).flatMap (fun k => L.filter (fun p => decide (p.1 = k))) := by
      apply List.flatMap_congr
      intro k hk
      rw [List.filter_filter]
      apply List.filter_congr
      intro p _
      have hka : a + 1 ≤ k := (List.mem_range'_1.mp hk).1
      by_cases hpk : p.1 = k
      · have : p.1 ≠ a := by omega
        simp [hpk]
        omega
      · simp [hpk]
    rw [hcong] at ih
    rw [ih]
    exact hsplit L hs (fun p hp => (h p hp).1)

private theorem flatMap_filter_nil {α : Type*} (l : List ℕ) (P : ℕ → Bool) (g : ℕ → List α) (h : ∀ k ∈ l, P k = false → g k = []) :
    (l.filter P).flatMap g = l.flatMap g := by
  induction l with
  | nil => rfl
  | cons k l ih =>
    have ih := ih (fun k hk => h k (by simp [hk]))
    cases hk : P k with
    | true => rw [List.filter_cons_of_pos hk, List.flatMap_cons, List.flatMap_cons, ih]
    | false => rw [List.filter_cons_of_neg (by simp [hk]), List.flatMap_cons, h k (by simp) hk, ih, List.nil_append]

/-- **C481.** The lines together are the points in their order; along each line the hours do not decrease; and there are no more lines than needed for
that: one more than there are places at which the hours decrease. -/
theorem lines_spec (x : K) (xs : List K) :
    (lines (x :: xs)).flatten = x :: xs ∧ (∀ l ∈ lines (x :: xs), l ≠ [] ∧ l.Pairwise (· ≤ ·)) ∧ (lines (x :: xs)).length = descents x xs + 1 := by
  set L := labels x 0 (x :: xs) with hL
  have hmem : ∀ j, j ∈ L.map Prod.fst ↔ j ≤ descents x xs := by
    intro j
    have := labels_mem (x :: xs) x 0 j (by simp) (by
      rcases Nat.eq_zero_or_pos j with rfl | h
      · exact Or.inr ⟨rfl, by simp⟩
      · exact Or.inl h)
    rw [hL, this]
    simp [descents]
  have hdlen : ∀ (ys : List K) (p : K), descents p ys ≤ ys.length := by
    intro ys
    induction ys with
    | nil => intro p; simp [descents]
    | cons y ys ih =>
      intro p
      have := ih y
      simp only [descents, List.length_cons]
      split <;> omega
  have hks : (List.range (x :: xs).length).filter (fun k => (L.map Prod.fst).contains k) = List.range (descents x xs + 1) := by
    have h1 : (List.range (x :: xs).length).filter (fun k => (L.map Prod.fst).contains k) = (List.range (x :: xs).length).filter (fun k => decide (k < descents x xs + 1)) := by
      apply List.filter_congr
      intro k _
      rw [Bool.eq_iff_iff, List.contains_iff_mem, hmem, decide_eq_true_eq]
      omega
    rw [h1]
    have hle : descents x xs + 1 ≤ (x :: xs).length := by
      have := hdlen xs x
      simp only [List.length_cons]
      omega
    obtain ⟨c, hc⟩ := Nat.exists_eq_add_of_le hle
    rw [hc, List.range_add, List.filter_append, List.filter_eq_self.mpr (by intro k hk; simpa using hk), List.filter_eq_nil_iff.mpr, List.append_nil]
    intro k hk
    obtain ⟨j, _, rfl⟩ := List.mem_map.mp hk
    simp
  have hlines : lines (x :: xs) = (List.range (descents x xs + 1)).map (fun k => (L.filter (fun p => decide (p.1 = k))).map Prod.snd) := by
    rw [← hks]
    rfl
  have hpw := labels_pairwise (x :: xs) x 0
  rw [← hL] at hpw
  rw [hlines]
  refine ⟨?_, ?_, by simp⟩
  · have hs := split_sorted (descents x xs + 1) 0 L (hpw.imp (by rintro a b (h | ⟨h, _⟩) <;> omega)) (by
      intro p hp
      have := (hmem p.1).mp (List.mem_map.mpr ⟨p, hp, rfl⟩)
      omega)
    have : ((List.range (descents x xs + 1)).map (fun k => (L.filter (fun p => decide (p.1 = k))).map Prod.snd)).flatten =
        ((List.range' 0 (descents x xs + 1)).flatMap (fun k => L.filter (fun p => decide (p.1 = k)))).map Prod.snd := by
      rw [List.map_flatMap, ← List.range_eq_range', List.flatMap_def]
    rw [this, hs, hL, labels_snd]
  · intro l hl
    obtain ⟨k, hk, rfl⟩ := List.mem_map.mp hl
    constructor
    · intro he
      rw [List.map_eq_nil_iff, List.filter_eq_nil_iff] at he
      have : k ∈ L.map Prod.fst := (hmem k).mpr (by rw [List.mem_range] at hk; omega)
      obtain ⟨p, hp, e⟩ := List.mem_map.mp this
      exact he p hp (by simpa using e)
    · rw [List.pairwise_map]
      have h1 := hpw.sublist (List.filter_sublist (p := fun p : ℕ × K => decide (p.1 = k)))
      refine h1.imp_of_mem ?_
      intro a b ha hb hab
      rw [List.mem_filter, decide_eq_true_eq] at ha hb
      rcases hab with h | ⟨_, h⟩
      · omega
      · exact h

end

example : lines [(3 : ℤ), 5, 11, -12, -7, -9, 2] = [[3, 5, 11], [-12, -7], [-9, 2]] := by decide

/-! ## C482: transits -/

section
variable {K : Type*} [Field K] [LinearOrder K] [IsStrictOrderedRing K] [FloorRing K]

private theorem wrap_mod (x : K) : ∃ k : ℤ, x = wrap180 x + 360 * (k : K) := ⟨⌊(x + 180) / 360⌋, by unfold wrap180; ring⟩

/-- **C482.** For a body whose hour angle grows by `360 r` degrees in a day, `0 < r < 2`: a step takes the time by at most half a day to one at which the
remaining hour angle is `1 - r` of what it was. -/
theorem transit_step (a r t : K) (h0 : 0 < r) (h2 : r < 2) :
    |transitStep a r t - t| ≤ 1 / 2 ∧ wrap180 (a + 360 * r * transitStep a r t) = (1 - r) * wrap180 (a + 360 * r * t) := by
  set h := wrap180 (a + 360 * r * t) with hh
  obtain ⟨w1, w2⟩ := wrap_range (a + 360 * r * t)
  rw [← hh] at w1 w2
  have hst : transitStep a r t = t - h / 360 := rfl
  constructor
  · rw [hst, abs_le]
    constructor <;> linarith
  · obtain ⟨k, hk⟩ := wrap_mod (a + 360 * r * t)
    rw [← hh] at hk
    by_cases hz : h = 0
    · apply wrap_eq _ _ k
      · rw [hst]
        linear_combination hk
      · rw [hz]; simp
      · rw [hz]; simp
    · have hb : |1 - r| < 1 := by rw [abs_lt]; constructor <;> linarith
      have hpos : 0 < |h| := abs_pos.mpr hz
      have hle : |h| ≤ 180 := by rw [abs_le]; exact ⟨w1, w2.le⟩
      have : |(1 - r) * h| < 180 := by
        rw [abs_mul]
        nlinarith
      rw [abs_lt] at this
      apply wrap_eq _ _ k
      · rw [hst]
        linear_combination hk
      · linarith [this.1]
      · exact this.2

/-- For the sun or a star at exactly one turn a day one step is the transit. -/
theorem transit_exact (a t : K) : wrap180 (a + 360 * transitStep a 1 t) = 0 := by
  have := (transit_step a 1 t (by norm_num) (by norm_num)).2
  simpa using this

/-- For the moon there are three steps: the hour angle that remains is at most 180 degrees times the third power of `1 - r`, which is less than 1/100 of a degree for
the moon (`r` about 0.966). -/
theorem transit_moon (a r t : K) (h0 : 0 < r) (h2 : r < 2) :
    wrap180 (a + 360 * r * moonTransit a r t) = (1 - r) ^ 3 * wrap180 (a + 360 * r * t) ∧
      |wrap180 (a + 360 * r * moonTransit a r t)| ≤ 180 * |1 - r| ^ 3 := by
  have e : wrap180 (a + 360 * r * moonTransit a r t) = (1 - r) ^ 3 * wrap180 (a + 360 * r * t) := by
    have : moonTransit a r t = transitStep a r (transitStep a r (transitStep a r t)) := rfl
    rw [this, (transit_step a r _ h0 h2).2, (transit_step a r _ h0 h2).2, (transit_step a r _ h0 h2).2]
    ring
  refine ⟨e, ?_⟩
  rw [e, abs_mul, abs_pow]
  obtain ⟨w1, w2⟩ := wrap_range (a + 360 * r * t)
  have : |wrap180 (a + 360 * r * t)| ≤ 180 := by rw [abs_le]; exact ⟨w1, w2.le⟩
  have hp : 0 ≤ |1 - r| ^ 3 := by positivity
  nlinarith

/-! ## C483: rows of lines and bars -/

omit [IsStrictOrderedRing K] [FloorRing K] [LinearOrder K] in
private theorem bar_eq [CharZero K] (epoch night : ℤ) : (barRow epoch night : K) = (night : K) - (epoch : K) := by
  unfold barRow
  ring

omit [FloorRing K] in
/-- **C483 (part).** Twilight and transits of a night are on the row of its bars exactly if the axis begins at one half, as it does by default for a month and a
year. -/
theorem rows_agree (yMin : K) (epoch night : ℤ) : lineRow yMin epoch night = barRow epoch night ↔ yMin = 1 / 2 := by
  rw [bar_eq]
  unfold lineRow
  simp only
  constructor
  · intro h; linarith
  · intro h; rw [h]; ring

omit [FloorRing K] in
/-- If it begins at another day, they are shifted by as many rows. -/
theorem rows_shift (yMin : K) (epoch night : ℤ) : (lineRow yMin epoch night : K) = barRow epoch night - (yMin - 1 / 2) := by
  rw [bar_eq]
  unfold lineRow
  ring

end

theorem rows_false : ¬ ∀ (yMin : ℚ) (epoch night : ℤ), lineRow yMin epoch night = barRow epoch night := by
  intro h
  have := (rows_agree (10 + 1 / 2 : ℚ) 60000 60012).mp (h _ _ _)
  norm_num at this

example : lineRow (1 / 2 : ℚ) 60000 60012 = 12 ∧ barRow (K := ℚ) 60000 60012 = 12 := by decide +kernel

/-! ## C484: plots that do not work -/

/-- **C484 (stated as it is).** A plot of a range of dates, or the general one, always ends in an error; that of a month or year works if drawing does. -/
theorem plot_kind (k : Kind) (drawn : Except PyErr Unit) : (∃ u, plot k drawn = .ok u) ↔ (k = .month ∨ k = .year) ∧ drawn = .ok () := by
  cases k <;> cases drawn <;> simp [plot]

example : plot .range (.ok ()) = .error .type ∧ plot .year (.ok ()) = .ok () := ⟨rfl, rfl⟩

end Verif.HgPlot
