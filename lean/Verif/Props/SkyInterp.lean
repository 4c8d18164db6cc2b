import Mathlib.Tactic.NormNum
import Mathlib.Tactic.Linarith
import Mathlib.Tactic.FieldSimp
import Mathlib.Tactic.Ring
import Mathlib.Algebra.Order.Field.Rat
import Mathlib.Analysis.SpecialFunctions.Pow.Real
import Verif.Lemmas.NumpyMore
import Verif.Props.Seasons
import Verif.Model.SkyInterp

/-!
# C272-C275: interpolation of the components of the sky
-/

namespace Verif.SkyI

open Verif.Np

/-! ## C272: weights -/

section
variable {K : Type*} [Field K] [LinearOrder K]

theorem get_nat (a : List K) (i : ℕ) (hi : i < a.length) : get a (i : ℤ) = a[i] := by
  unfold get
  rw [if_pos (Int.natCast_nonneg i), Int.toNat_natCast, List.getD_eq_getElem?_getD, List.getElem?_eq_getElem hi, Option.getD_some]

theorem get_last (a : List K) (h : 0 < a.length) : get a (-1) = a[a.length - 1] := by
  unfold get
  rw [if_neg (by omega), show (- -1 : ℤ).toNat = 1 from rfl, List.getD_eq_getElem?_getD, List.getElem?_eq_getElem (by omega), Option.getD_some]

/-- The place of a point in a grid. -/
theorem left_eq (g : List K) (hg : g.Pairwise (· < ·)) (p : K) (i : ℕ) (hi : i < g.length) (h1 : p ≤ g[i]) (h2 : ∀ j (hj : j < g.length), j < i → g[j] < p) :
    searchsortedLeft g p = i := by
  have hle : g.Pairwise (· ≤ ·) := hg.imp (fun h => h.le)
  rw [searchsortedLeft_eq_countP hle]
  have key := fun j hj => Seasons.lt_countP_iff g hle (fun x => decide (x < p)) (fun a b hab hb => by
    simp only [decide_eq_true_eq] at hb ⊢
    exact lt_of_le_of_lt hab hb) j hj
  simp only [decide_eq_true_eq] at key
  apply le_antisymm
  · by_contra hc
    exact absurd ((key i hi).mp (not_le.mp hc)) (not_lt.mpr h1)
  · by_contra hc
    have hlt := not_le.mp hc
    generalize hm : g.countP (fun x => decide (x < p)) = m at *
    exact absurd ((key m (by omega)).mpr (h2 m (by omega) hlt)) (lt_irrefl _)

theorem left_high (g : List K) (p : K) (h : ∀ x ∈ g, x < p) : searchsortedLeft g p = g.length := by
  unfold searchsortedLeft
  induction g with
  | nil => rfl
  | cons a g ih =>
    rw [List.takeWhile_cons_of_pos (by simpa using h a List.mem_cons_self), List.length_cons, List.length_cons, ih (fun x hx => h x (List.mem_cons_of_mem _ hx))]

/-- On a grid point only that point is used. -/
theorem weights_node (g : List K) (hg : g.Pairwise (· < ·)) (k : ℕ) (hk : k < g.length) : indxWeights g[k] g = ⟨k, k - 1, 1, 0⟩ := by
  have hr := left_eq g hg g[k] k hk le_rfl (fun j hj hjk => List.pairwise_iff_getElem.mp hg j k hj hk hjk)
  unfold indxWeights
  simp only [hr]
  rw [if_neg (by omega : ¬ ((k : ℤ) = (g.length : ℤ))), get_nat g k hk, sub_self, zero_div]
  by_cases h0 : g[k] - get g ((k : ℤ) - 1) = 0
  · rw [if_pos h0]
  · rw [if_neg h0, div_self h0]

variable [IsStrictOrderedRing K]

/-- Between two grid points the weights are linear. -/
theorem weights_between (g : List K) (hg : g.Pairwise (· < ·)) (p : K) (k : ℕ) (hk : k + 1 < g.length) (h1 : g[k] < p) (h2 : p ≤ g[k + 1]) :
    indxWeights p g = ⟨(k + 1 : ℕ), k, (p - g[k]) / (g[k + 1] - g[k]), (g[k + 1] - p) / (g[k + 1] - g[k])⟩ := by
  have hr := left_eq g hg p (k + 1) hk h2 (fun j hj hjk => by
    rcases Nat.lt_or_eq_of_le (Nat.lt_succ_iff.mp hjk) with h | h
    · exact (List.pairwise_iff_getElem.mp hg j k hj (by omega) h).trans h1
    · subst h
      exact h1)
  unfold indxWeights
  simp only [hr]
  rw [if_neg (by omega : ¬ (((k + 1 : ℕ) : ℤ) = (g.length : ℤ))), get_nat g (k + 1) hk]
  have hl : ((k + 1 : ℕ) : ℤ) - 1 = (k : ℤ) := by omega
  rw [hl, get_nat g k (by omega)]
  have h0 : g[k + 1] - g[k] ≠ 0 := (sub_pos.mpr (h1.trans_le h2)).ne'
  rw [if_neg h0]

omit [IsStrictOrderedRing K] in
/-- Above the grid its last point is used. -/
theorem weights_high (g : List K) (p : K) (h : ∀ x ∈ g, x < p) : indxWeights p g = ⟨(g.length : ℤ) - 1, (g.length : ℤ) - 1, 1, 0⟩ := by
  unfold indxWeights
  simp only [left_high g p h, if_true, sub_self]

/-- The weights always add up to one. -/
theorem weights_sum (g : List K) (p : K) : (indxWeights p g).wr + (indxWeights p g).wl = 1 := by
  unfold indxWeights
  simp only
  generalize get g (if ((searchsortedLeft g p : ℕ) : ℤ) = (g.length : ℤ) then (g.length : ℤ) - 1 else ((searchsortedLeft g p : ℕ) : ℤ)) = a
  generalize get g (((searchsortedLeft g p : ℕ) : ℤ) - 1) = b
  by_cases h : a - b = 0
  · rw [if_pos h]
    simp
  · rw [if_neg h]
    simp only
    rw [← add_div, show p - b + (a - p) = a - b by ring, div_self h]

/-- The comment of the code: for points off the grid only the grid point at the edge is used. -/
def EdgeUsed (K : Type) [Field K] [LinearOrder K] : Prop :=
  ∀ (g values : List K) (p : K), g.Pairwise (· < ·) → 0 < g.length → values.length = g.length →
    ((∀ x ∈ g, x < p) → lin p g values = get values (g.length - 1)) ∧ ((∀ x ∈ g, p < x) → lin p g values = get values 0)

/-- What the code does below the grid: it follows the line through the first and the *last* grid point. -/
theorem low_spec (g values : List K) (hg : g.Pairwise (· < ·)) (hlen : 2 ≤ g.length) (hv : values.length = g.length) (p : K) (h : ∀ x ∈ g, p < x) :
    lin p g values = values[0] + (values[g.length - 1] - values[0]) * ((p - g[0]) / (g[g.length - 1] - g[0])) := by
  have hr := left_eq g hg p 0 (by omega) (h _ (List.getElem_mem _)).le (fun j _ hj => absurd hj (Nat.not_lt_zero _))
  have hlt : g[0] < g[g.length - 1] := List.pairwise_iff_getElem.mp hg 0 (g.length - 1) (by omega) (by omega) (by omega)
  have g0 : get g 0 = g[0] := get_nat g 0 (by omega)
  have v0 : get values 0 = values[0] := get_nat values 0 (by omega)
  have vl : get values (-1) = values[g.length - 1] := by rw [get_last values (by omega)]; simp only [hv]
  have hne : g[0] - g[g.length - 1] ≠ 0 := (sub_neg.mpr hlt).ne
  unfold lin indxWeights
  simp only [hr, Nat.cast_zero, zero_sub]
  rw [if_neg (by omega : ¬ ((0 : ℤ) = (g.length : ℤ))), g0, get_last g (by omega), if_neg hne]
  simp only [v0, vl]
  have hne' : g[g.length - 1] - g[0] ≠ 0 := (sub_pos.mpr hlt).ne'
  rw [← neg_sub g[g.length - 1] g[0]]
  field_simp
  ring

theorem edge_false : ¬ EdgeUsed ℚ := by
  intro h
  have h1 := (h [1, 2] [5, 7] 0 (by decide) (by decide) rfl).2 (by decide)
  revert h1
  decide +kernel

/-- The full statement is `EdgeUsed`; missing: points below the grid. -/
theorem edge_partial (g values : List K) (p : K) (hne : 0 < g.length) (hv : values.length = g.length) (h : ∀ x ∈ g, x < p) :
    lin p g values = values[g.length - 1] := by
  unfold lin
  rw [weights_high g p h]
  simp only [one_mul, zero_mul, add_zero]
  have : ((g.length : ℤ) - 1) = ((g.length - 1 : ℕ) : ℤ) := by omega
  rw [this, get_nat values (g.length - 1) (by omega)]

/-- **C272.** Within the grid the value is that of the straight line between the two neighbouring grid points. -/
theorem lin_spec (g values : List K) (hg : g.Pairwise (· < ·)) (hv : values.length = g.length) (p : K) (k : ℕ) (hk : k + 1 < g.length) (h1 : g[k] ≤ p) (h2 : p ≤ g[k + 1]) :
    lin p g values = values[k] + (values[k + 1] - values[k]) * ((p - g[k]) / (g[k + 1] - g[k])) := by
  have hlt : g[k] < g[k + 1] := List.pairwise_iff_getElem.mp hg k (k + 1) (by omega) hk (by omega)
  have hne : g[k + 1] - g[k] ≠ 0 := (sub_pos.mpr hlt).ne'
  rcases eq_or_lt_of_le h1 with h | h
  · subst h
    unfold lin
    rw [weights_node g hg k (by omega)]
    simp only [one_mul, zero_mul, add_zero, sub_self, zero_div, mul_zero]
    exact get_nat values k (by omega)
  · unfold lin
    rw [weights_between g hg p k hk h h2]
    simp only
    rw [get_nat values (k + 1) (by omega), get_nat values k (by omega)]
    field_simp
    ring

theorem lin_node (g values : List K) (hg : g.Pairwise (· < ·)) (hv : values.length = g.length) (k : ℕ) (hk : k < g.length) : lin g[k] g values = values[k] := by
  unfold lin
  rw [weights_node g hg k hk]
  simp only [one_mul, zero_mul, add_zero]
  exact get_nat values k (by omega)

theorem inRange_iff (p : K) (g : List K) (h : 0 < g.length) : inRange p g = true ↔ g[0] ≤ p ∧ p ≤ g[g.length - 1] := by
  unfold inRange
  have g0 : get g 0 = g[0] := get_nat g 0 h
  rw [get_last g h, g0, Bool.and_eq_true, decide_eq_true_eq, decide_eq_true_eq, and_comm]

/-- A point in range lies on a grid point or between two neighbours. -/
theorem bracket (g : List K) (p : K) (h : 0 < g.length) (h1 : g[0] ≤ p) (h2 : p ≤ g[g.length - 1]) :
    (∃ k, ∃ hk : k < g.length, p = g[k]) ∨ ∃ k, ∃ hk : k + 1 < g.length, g[k] ≤ p ∧ p ≤ g[k + 1] := by
  by_cases hone : g.length = 1
  · left
    refine ⟨0, h, le_antisymm ?_ h1⟩
    have : g[g.length - 1] = g[0] := by simp only [hone, Nat.sub_self]
    rw [← this]
    exact h2
  · right
    have key : ∀ n (hn : n < g.length), p ≤ g[n] → 0 < n → ∃ k, ∃ hk : k + 1 < g.length, g[k] ≤ p ∧ p ≤ g[k + 1] := by
      intro n
      induction n with
      | zero => intro _ _ h; exact absurd h (lt_irrefl _)
      | succ n ih =>
        intro hn hp _
        rcases le_or_gt g[n] p with h3 | h3
        · exact ⟨n, hn, h3, hp⟩
        · cases n with
          | zero => exact absurd h3 (not_lt.mpr h1)
          | succ n => exact ih (by omega) h3.le (by omega)
    exact key _ (by omega) h2 (by omega)

/-- The interpolated value stays within the bounds of the values. -/
theorem lin_bounds (g values : List K) (hg : g.Pairwise (· < ·)) (hv : values.length = g.length) (hne : 0 < g.length) (p : K) (hp : inRange p g = true) (lo hi : K) (hb : ∀ v ∈ values, lo ≤ v ∧ v ≤ hi) :
    lo ≤ lin p g values ∧ lin p g values ≤ hi := by
  obtain ⟨h1, h2⟩ := (inRange_iff p g hne).mp hp
  rcases bracket g p hne h1 h2 with ⟨k, hk, rfl⟩ | ⟨k, hk, h3, h4⟩
  · rw [lin_node g values hg hv k hk]
    exact hb _ (List.getElem_mem _)
  · rw [lin_spec g values hg hv p k hk h3 h4]
    have hlt : g[k] < g[k + 1] := List.pairwise_iff_getElem.mp hg k (k + 1) (by omega) hk (by omega)
    have hd := sub_pos.mpr hlt
    obtain ⟨a1, a2⟩ := hb _ (List.getElem_mem (show k < values.length by omega))
    obtain ⟨b1, b2⟩ := hb _ (List.getElem_mem (show k + 1 < values.length by omega))
    have t0 : 0 ≤ (p - g[k]) / (g[k + 1] - g[k]) := div_nonneg (sub_nonneg.mpr h3) hd.le
    have t1 : (p - g[k]) / (g[k + 1] - g[k]) ≤ 1 := (div_le_one hd).mpr (by linarith)
    generalize (p - g[k]) / (g[k + 1] - g[k]) = t at t0 t1 ⊢
    constructor <;> nlinarith

/-- Out of the grid a component gives nothing; in it, the line between neighbours. -/
theorem single_spec (g values : List K) (hne : 0 < g.length) (p : K) :
    single p g values = if g[0] ≤ p ∧ p ≤ g[g.length - 1] then lin p g values else 0 := by
  unfold single
  by_cases h : inRange p g = true
  · rw [if_pos h, if_pos ((inRange_iff p g hne).mp h)]
  · rw [if_neg h, if_neg (fun h2 => h ((inRange_iff p g hne).mpr h2))]

example : lin (3 / 2 : ℚ) [1, 2, 4] [10, 20, 60] = 15 ∧ lin (3 : ℚ) [1, 2, 4] [10, 20, 60] = 40 ∧ lin (9 : ℚ) [1, 2, 4] [10, 20, 60] = 60 ∧ lin (0 : ℚ) [1, 2, 4] [10, 20, 60] = -20 / 3 := by
  decide +kernel

/-! ## C273: two dimensions -/

omit [IsStrictOrderedRing K] in
/-- The left index, if used at all, is that of a grid point. -/
theorem weights_index [IsStrictOrderedRing K] (g : List K) (hg : g.Pairwise (· < ·)) (hne : 0 < g.length) (p : K) (hp : inRange p g = true) :
    ∃ r l : ℕ, r < g.length ∧ l < g.length ∧ (indxWeights p g).r = r ∧ ((indxWeights p g).wl = 0 ∨ (indxWeights p g).l = l) := by
  obtain ⟨h1, h2⟩ := (inRange_iff p g hne).mp hp
  rcases bracket g p hne h1 h2 with ⟨k, hk, rfl⟩ | ⟨k, hk, h3, h4⟩
  · rw [weights_node g hg k hk]
    exact ⟨k, 0, hk, hne, rfl, Or.inl rfl⟩
  · rcases eq_or_lt_of_le h3 with h | h
    · subst h
      rw [weights_node g hg k (by omega)]
      exact ⟨k, 0, by omega, hne, rfl, Or.inl rfl⟩
    · rw [weights_between g hg p k hk h h4]
      exact ⟨k + 1, k, hk, by omega, rfl, Or.inr rfl⟩

/-- A table in the order of rows. -/
def IsTable (values : List K) (m n : ℕ) (T : ℕ → ℕ → K) : Prop :=
  values.length = m * n ∧ ∀ i j, i < m → j < n → values[i * n + j]? = some (T i j)

omit [LinearOrder K] [IsStrictOrderedRing K] in
theorem table_get (values : List K) (m n : ℕ) (T : ℕ → ℕ → K) (h : IsTable values m n T) (i j : ℕ) (hi : i < m) (hj : j < n) : get values ((i : ℤ) * (n : ℤ) + (j : ℤ)) = T i j := by
  have e : (i : ℤ) * (n : ℤ) + (j : ℤ) = ((i * n + j : ℕ) : ℤ) := by push_cast; ring
  have hv := h.2 i j hi hj
  obtain ⟨hl, hv⟩ := List.getElem?_eq_some_iff.mp hv
  unfold get
  rw [e, if_pos (Int.natCast_nonneg _), Int.toNat_natCast, List.getD_eq_getElem?_getD, List.getElem?_eq_getElem hl, Option.getD_some, hv]

omit [LinearOrder K] [IsStrictOrderedRing K] in
theorem row_get (n : ℕ) (f : ℕ → K) (j : ℕ) (hj : j < n) : get ((List.range n).map f) (j : ℤ) = f j := by
  unfold get
  rw [if_pos (Int.natCast_nonneg _), Int.toNat_natCast, List.getD_eq_getElem?_getD, List.getElem?_map, List.getElem?_range hj, Option.map_some, Option.getD_some]

/-- **C273.** Airglow: interpolation in solar flux, and of the results in airmass. -/
theorem airglow_spec (ams sfs values : List K) (T : ℕ → ℕ → K) (ha : ams.Pairwise (· < ·)) (hs : sfs.Pairwise (· < ·)) (ha0 : 0 < ams.length) (hs0 : 0 < sfs.length)
    (hT : IsTable values ams.length sfs.length T) (am sf : K) (h1 : inRange am ams = true) (h2 : inRange sf sfs = true) :
    airglow am sf ams sfs values = lin am ams ((List.range ams.length).map (fun i => lin sf sfs ((List.range sfs.length).map (T i)))) := by
  obtain ⟨r, l, hr, hl, er, el⟩ := weights_index ams ha ha0 am h1
  obtain ⟨r', l', hr', hl', er', el'⟩ := weights_index sfs hs hs0 sf h2
  unfold airglow
  rw [h1, h2]
  simp only [Bool.and_self, if_true]
  unfold lin
  simp only [er, er', table_get values _ _ T hT r r' hr hr']
  rw [row_get _ _ r hr]
  simp only [row_get _ _ r' hr']
  rcases el with el | el
  · rw [el]
    rcases el' with el' | el'
    · rw [el']
      ring
    · rw [el', table_get values _ _ T hT r l' hr hl']
      simp only [row_get _ _ l' hl']
      ring
  · rw [el, row_get _ _ l hl]
    simp only [row_get _ _ r' hr', table_get values _ _ T hT l r' hl hr']
    rcases el' with el' | el'
    · rw [el']
      ring
    · rw [el', table_get values _ _ T hT r l' hr hl', table_get values _ _ T hT l l' hl hl']
      simp only [row_get _ _ l' hl']
      ring

omit [IsStrictOrderedRing K] [LinearOrder K] in
theorem sum_div' (c : K) (w : List (ℕ × K)) : ((w.map (fun e => (e.1, e.2 / c))).map Prod.snd).sum = (w.map Prod.snd).sum / c := by
  induction w with
  | nil => simp
  | cons e w ih => simp only [List.map_cons, List.sum_cons, ih, add_div]

omit [IsStrictOrderedRing K] [LinearOrder K] in
theorem sum_known (known : List ℕ) (nb : List (ℕ × K)) :
    ((nb.map (fun e => (e.1, if e.1 ∈ known then e.2 else 0))).map Prod.snd).sum = ((nb.filter (fun e => decide (e.1 ∈ known))).map Prod.snd).sum := by
  induction nb with
  | nil => rfl
  | cons e nb ih =>
    by_cases h : e.1 ∈ known
    · simp only [List.map_cons, List.sum_cons, h, if_true, List.filter_cons, decide_true, ih]
    · simp only [List.map_cons, List.sum_cons, h, if_false, List.filter_cons, decide_false, Bool.false_eq_true, zero_add, ih]

omit [IsStrictOrderedRing K] in
/-- The weights of pixels: unknown ones do not count, and those of the known ones are rescaled to add up to one. -/
theorem pix_spec (known : List ℕ) (nb : List (ℕ × K)) :
    (∀ e ∈ pixWeights known nb, e.1 ∉ known → e.2 = 0) ∧ (pixWeights known nb).map Prod.fst = nb.map Prod.fst ∧
    (((nb.filter (fun e => decide (e.1 ∈ known))).map Prod.snd).sum ≠ 0 → ((pixWeights known nb).map Prod.snd).sum = 1) := by
  unfold pixWeights
  simp only
  refine ⟨?_, ?_, ?_⟩
  · intro e he hk
    split at he
    · obtain ⟨e', _, rfl⟩ := List.mem_map.mp he
      exact if_neg hk
    · obtain ⟨e', he', rfl⟩ := List.mem_map.mp he
      obtain ⟨e'', _, rfl⟩ := List.mem_map.mp he'
      simp only at hk
      simp only [if_neg hk, zero_div]
  · split
    · rw [List.map_map]
      rfl
    · rw [List.map_map, List.map_map]
      rfl
  · intro h3
    rw [← sum_known] at h3
    rw [if_neg h3, sum_div', div_self h3]

/-- Zodiacal light, if the map has all pixels: the mean over the pixels of the interpolation in airmass. -/
theorem zodiacal_spec (ams values : List K) (T : ℕ → ℕ → K) (n : ℕ) (ha : ams.Pairwise (· < ·)) (ha0 : 0 < ams.length) (hT : IsTable values ams.length n T) (am : K) (h1 : inRange am ams = true)
    (nb : List (ℕ × K)) (hnb : ∀ e ∈ nb, e.1 < n) :
    zodiacal am ams (List.range n) nb values = ((pixWeights (List.range n) nb).map (fun e => e.2 * lin am ams ((List.range ams.length).map (fun i => T i e.1)))).sum := by
  obtain ⟨r, l, hr, hl, er, el⟩ := weights_index ams ha ha0 am h1
  unfold zodiacal
  rw [if_pos h1]
  simp only [List.length_range]
  congr 1
  apply List.map_congr_left
  intro e he
  have hmem : e.1 ∈ (pixWeights (List.range n) nb).map Prod.fst := List.mem_map_of_mem he
  rw [(pix_spec (List.range n) nb).2.1] at hmem
  obtain ⟨e', he', hee⟩ := List.mem_map.mp hmem
  have hlt : e.1 < n := hee ▸ hnb e' he'
  unfold lin
  simp only [er, table_get values _ _ T hT r e.1 hr hlt]
  rw [row_get _ _ r hr]
  rcases el with el | el
  · rw [el]
    ring
  · rw [el, table_get values _ _ T hT l e.1 hl hlt, row_get _ _ l hl]
    ring

/-- Out of range nothing. -/
theorem out_spec (am sf : K) (ams sfs values : List K) (known : List ℕ) (nb : List (ℕ × K)) (ha0 : 0 < ams.length) (hs0 : 0 < sfs.length) :
    ((am < ams[0] ∨ ams[ams.length - 1] < am ∨ sf < sfs[0] ∨ sfs[sfs.length - 1] < sf) → airglow am sf ams sfs values = 0) ∧
    ((am < ams[0] ∨ ams[ams.length - 1] < am) → zodiacal am ams known nb values = 0 ∧ single am ams values = 0) := by
  have key : (am < ams[0] ∨ ams[ams.length - 1] < am) → ¬ inRange am ams = true := by
    intro h h2
    obtain ⟨h3, h4⟩ := (inRange_iff am ams ha0).mp h2
    rcases h with h | h
    · exact absurd h3 (not_le.mpr h)
    · exact absurd h4 (not_le.mpr h)
  have key' : (sf < sfs[0] ∨ sfs[sfs.length - 1] < sf) → ¬ inRange sf sfs = true := by
    intro h h2
    obtain ⟨h3, h4⟩ := (inRange_iff sf sfs hs0).mp h2
    rcases h with h | h
    · exact absurd h3 (not_le.mpr h)
    · exact absurd h4 (not_le.mpr h)
  constructor
  · intro h
    have : ¬ (inRange am ams && inRange sf sfs) = true := by
      rw [Bool.and_eq_true]
      rintro ⟨a, b⟩
      rcases h with h | h | h | h
      · exact key (Or.inl h) a
      · exact key (Or.inr h) a
      · exact key' (Or.inl h) b
      · exact key' (Or.inr h) b
    unfold airglow
    rw [if_neg this]
  · intro h
    unfold zodiacal single
    rw [if_neg (key h), if_neg (key h)]
    exact ⟨rfl, rfl⟩

example : airglow (3 / 2 : ℚ) 75 [1, 2] [50, 100] [1, 2, 3, 4] = 5 / 2 ∧ airglow (1 : ℚ) 50 [1, 2] [50, 100] [1, 2, 3, 4] = 1 ∧ airglow (3 : ℚ) 75 [1, 2] [50, 100] [1, 2, 3, 4] = 0 := by
  decide +kernel

example : zodiacal (3 / 2 : ℚ) [1, 2] [0, 1] [(0, 1 / 2), (1, 1 / 2)] [1, 3, 5, 7] = 4 := by decide +kernel

end

/-! ## C274: spectra and magnitudes -/

/-- At a grid point the spectrum is the stored one. -/
def NodeExact : Prop :=
  ∀ (g values : List ℝ) (k : ℕ) (hk : k < g.length) (hv : values.length = g.length), g.Pairwise (· < ·) → (∀ v ∈ values, 0 ≤ v) → interpSpec g[k] g values = values[k]

theorem node_range (g : List ℝ) (hg : g.Pairwise (· < ·)) (k : ℕ) (hk : k < g.length) : inRange g[k] g = true := by
  rw [inRange_iff _ g (by omega)]
  have key := List.pairwise_iff_getElem.mp hg
  constructor
  · rcases Nat.eq_zero_or_pos k with h | h
    · subst h
      exact le_rfl
    · exact (key 0 k (by omega) hk h).le
  · rcases Nat.lt_or_ge k (g.length - 1) with h | h
    · exact (key k (g.length - 1) hk (by omega) h).le
    · have : k = g.length - 1 := by omega
      simp only [← this]
      exact le_rfl

/-- What is given at a grid point: the stored value, except that one becomes zero. -/
theorem spec_node (g values : List ℝ) (k : ℕ) (hk : k < g.length) (hv : values.length = g.length) (hg : g.Pairwise (· < ·)) (h0 : 0 ≤ values[k]) :
    interpSpec g[k] g values = if values[k] = 1 then 0 else values[k] := by
  unfold interpSpec single
  rw [if_pos (node_range g hg k hk), lin_node g (logSpec values) hg (by simp [logSpec, hv]) k hk]
  simp only [logSpec, List.getElem_map]
  rcases eq_or_lt_of_le h0 with h | h
  · rw [← h]
    simp
  · rw [if_pos h.ne']
    by_cases h1 : values[k] = 1
    · rw [h1]
      simp
    · rw [if_neg h1, Real.rpow_logb (by norm_num) (by norm_num) h, if_neg]
      intro h2
      rcases Real.logb_eq_zero.mp h2 with h3 | h3 | h3 | h3 | h3 | h3
      · norm_num at h3
      · norm_num at h3
      · norm_num at h3
      · exact h.ne' h3
      · exact h1 h3
      · linarith

theorem node_false : ¬ NodeExact := by
  intro h
  have h1 := h [1] [1] 0 (by decide) rfl (by simp) (by simp)
  rw [spec_node [1] [1] 0 (by decide) rfl (by simp) (by simp)] at h1
  simp at h1

/-- The full statement is `NodeExact`; missing: the stored value one. -/
theorem node_partial (g values : List ℝ) (k : ℕ) (hk : k < g.length) (hv : values.length = g.length) (hg : g.Pairwise (· < ·)) (h0 : 0 ≤ values[k]) (h1 : values[k] ≠ 1) :
    interpSpec g[k] g values = values[k] := by
  rw [spec_node g values k hk hv hg h0, if_neg h1]

/-- The interpolated spectrum is within the bounds of the stored ones. -/
def SpecBounds : Prop :=
  ∀ (g values : List ℝ) (p lo hi : ℝ), 0 < g.length → values.length = g.length → g.Pairwise (· < ·) → inRange p g = true → (∀ v ∈ values, 0 ≤ v ∧ v < 1 ∧ lo ≤ v ∧ v ≤ hi) →
    lo ≤ interpSpec p g values ∧ interpSpec p g values ≤ hi

/-- Where a stored spectrum has no flux, its neighbour is interpolated with the flux one: between 0 and 1/10000 it gives 1/100. -/
theorem bounds_false : ¬ SpecBounds := by
  intro h
  have hr : inRange (1 : ℝ) [0, 2] = true := by rw [inRange_iff _ _ (by decide)]; norm_num
  have h1 := (h [0, 2] [0, 1 / 10000] 1 0 (1 / 10000) (by decide) rfl (by norm_num) hr (by norm_num)).2
  have hl : Real.logb 10 (1 / 10000) = -4 := by
    rw [show (1 / 10000 : ℝ) = (10 : ℝ) ^ (-4 : ℝ) by norm_num [Real.rpow_neg]]
    exact Real.logb_rpow (by norm_num) (by norm_num)
  have h2 : single (1 : ℝ) [0, 2] (logSpec [0, 1 / 10000]) = -2 := by
    unfold single
    rw [if_pos hr, lin_spec [0, 2] (logSpec [0, 1 / 10000]) (by norm_num) rfl 1 0 (by decide) (by norm_num) (by norm_num)]
    simp only [logSpec, List.map_cons, List.map_nil, List.getElem_cons_zero, List.getElem_cons_succ]
    rw [if_pos (show (1 / 10000 : ℝ) ≠ 0 by norm_num), hl]
    norm_num
  unfold interpSpec at h1
  rw [h2] at h1
  norm_num [Real.rpow_neg] at h1

/-- The full statement is `SpecBounds`; missing: spectra with no flux at a wavelength for some grid points. -/
theorem bounds_partial (g values : List ℝ) (p lo hi : ℝ) (hne : 0 < g.length) (hv : values.length = g.length) (hg : g.Pairwise (· < ·)) (hp : inRange p g = true)
    (hb : ∀ v ∈ values, 0 < v ∧ v < 1 ∧ lo ≤ v ∧ v ≤ hi) (hlo : 0 < lo) (hhi : hi < 1) : lo ≤ interpSpec p g values ∧ interpSpec p g values ≤ hi := by
  have ten : (1 : ℝ) < 10 := by norm_num
  obtain ⟨v0, hv0⟩ := List.exists_mem_of_length_pos (show 0 < values.length by omega)
  have hhi0 : 0 < hi := (hb v0 hv0).1.trans_le (hb v0 hv0).2.2.2
  have hb' : ∀ v ∈ logSpec values, Real.logb 10 lo ≤ v ∧ v ≤ Real.logb 10 hi := by
    intro v hv
    obtain ⟨x, hx, rfl⟩ := List.mem_map.mp hv
    obtain ⟨h1, _, h3, h4⟩ := hb x hx
    rw [if_pos h1.ne']
    exact ⟨Real.logb_le_logb_of_le ten hlo h3, Real.logb_le_logb_of_le ten h1 h4⟩
  obtain ⟨h1, h2⟩ := lin_bounds g (logSpec values) hg (by simp [logSpec, hv]) hne p hp _ _ hb'
  have hneg : Real.logb 10 hi < 0 := Real.logb_neg ten hhi0 hhi
  unfold interpSpec single
  rw [if_pos hp, if_neg (by linarith)]
  constructor
  · calc lo = (10 : ℝ) ^ Real.logb 10 lo := (Real.rpow_logb (by norm_num) (by norm_num) hlo).symm
      _ ≤ _ := Real.rpow_le_rpow_of_exponent_le ten.le h1
  · calc _ ≤ (10 : ℝ) ^ Real.logb 10 hi := Real.rpow_le_rpow_of_exponent_le ten.le h2
      _ = hi := Real.rpow_logb (by norm_num) (by norm_num) hhi0

/-- A magnitude is turned into a flux: the magnitude of that flux, with the same constant, is the interpolated one. -/
theorem mag_spec (p : ℝ) (g mags : List ℝ) (h : single p g mags ≠ 0) :
    0 < interpMag p g mags ∧ -2.5 * Real.logb 10 (interpMag p g mags) + Real.logb 10 3631 = single p g mags := by
  unfold interpMag
  rw [if_neg h]
  refine ⟨Real.rpow_pos_of_pos (by norm_num) _, ?_⟩
  rw [Real.logb_rpow (by norm_num) (by norm_num)]
  ring

/-- Out of the grid a component has no flux. -/
theorem mag_out (p : ℝ) (g mags : List ℝ) (h : inRange p g = false) : interpMag p g mags = 0 ∧ interpSpec p g mags = 0 := by
  unfold interpMag interpSpec single
  simp [h]

example : interpSpec 2 [1, 2] [0.5, 0.25] = 0.25 :=
  node_partial [1, 2] [0.5, 0.25] 1 (by decide) rfl (by norm_num) (by norm_num) (by norm_num)

/-! ## C275: twilight and identifiers -/

theorem towards_away (amCut az am : ℝ) : away amCut az am = !towards amCut az am := by
  unfold away towards
  by_cases h1 : am ≤ amCut
  · simp [h1]
  · by_cases h2 : Real.pi / 2 ≤ az <;> by_cases h3 : az ≤ 3 * Real.pi / 2 <;> simp [h1, h2, h3, not_lt, not_le] <;> simp_all [not_lt, not_le]

/-- The dark sky is added once, on either side, and is that of the zenith at the zenith. -/
theorem twilight_dark (f : Fit) (h amCut az am sun : ℝ) :
    twilight f (some h) amCut az am sun = twilight f none amCut az am sun + f.dark * Real.exp (h * (am - 1)) := by
  unfold twilight
  simp only [towards_away]
  by_cases ht : towards amCut az am = true
  · simp [ht]
  · simp [ht]

/-- At the zenith the fit with the dark sky is the function of the zenith, whatever the azimuth. -/
theorem twilight_zenith (f : Fit) (h az sun : ℝ) : twilight f (some h) 1 az 1 sun = zenith f sun := by
  rw [twilight_dark]
  unfold twilight zenith towards
  simp

/-- Twilight adds light. -/
theorem twilight_pos (f : Fit) (hr : 0 < f.ratio) (hd : 0 < f.dark) (amCut az am sun : ℝ) : 0 < twilight f none amCut az am sun := by
  unfold twilight
  have h10 : ∀ x : ℝ, 0 < (10 : ℝ) ^ x := fun x => Real.rpow_pos_of_pos (by norm_num) x
  simp only
  split
  · exact mul_pos (mul_pos (mul_pos hr hd) (h10 _)) (h10 _)
  · exact mul_pos (mul_pos hr hd) (h10 _)

/-- The higher the sun the brighter. -/
theorem twilight_sun (f : Fit) (hr : 0 < f.ratio) (hd : 0 < f.dark) (hs : 0 ≤ f.slope) (amCut az am sun sun' : ℝ) (h : sun ≤ sun') :
    twilight f none amCut az am sun ≤ twilight f none amCut az am sun' := by
  unfold twilight
  have h10 : ∀ x : ℝ, 0 < (10 : ℝ) ^ x := fun x => Real.rpow_pos_of_pos (by norm_num) x
  have key : f.ratio * f.dark * (10 : ℝ) ^ (f.slope * (sun + twelve) + f.amTerm * (am - 1)) ≤ f.ratio * f.dark * (10 : ℝ) ^ (f.slope * (sun' + twelve) + f.amTerm * (am - 1)) := by
    apply mul_le_mul_of_nonneg_left _ (mul_pos hr hd).le
    apply Real.rpow_le_rpow_of_exponent_le (by norm_num)
    have := mul_le_mul_of_nonneg_left h hs
    linarith
  simp only
  split
  · exact mul_le_mul_of_nonneg_right key (h10 _).le
  · exact key

/-- It is the same on both sides of the sun. -/
theorem twilight_symm (f : Fit) (hp : Option ℝ) (amCut az am sun : ℝ) : twilight f hp amCut (2 * Real.pi - az) am sun = twilight f hp amCut az am sun := by
  have ht : towards amCut (2 * Real.pi - az) am = towards amCut az am := by
    unfold towards
    have h1 : (2 * Real.pi - az < Real.pi / 2) ↔ 3 * Real.pi / 2 < az := by constructor <;> intro h <;> linarith
    have h2 : (3 * Real.pi / 2 < 2 * Real.pi - az) ↔ az < Real.pi / 2 := by constructor <;> intro h <;> linarith
    simp only [h1, h2]
    rw [Bool.or_comm]
  have ha : away amCut (2 * Real.pi - az) am = away amCut az am := by rw [towards_away, towards_away, ht]
  unfold twilight
  rw [ht, ha, Real.cos_two_pi_sub]

/-- The side of the sun is never darker than the other at the same airmass, and there is no step between the sides. -/
theorem twilight_towards (f : Fit) (hr : 0 < f.ratio) (hd : 0 < f.dark) (ha : 0 ≤ f.azTerm) (az az' am sun : ℝ) (ham : 1 ≤ am) (h0 : 0 ≤ az) (h1 : az < Real.pi / 2)
    (h2 : Real.pi / 2 ≤ az') (h3 : az' ≤ 3 * Real.pi / 2) :
    twilight f none 1 az' am sun ≤ twilight f none 1 az am sun ∧
    twilight f none 1 az am sun = twilight f none 1 az' am sun * (10 : ℝ) ^ (f.azTerm * Real.cos az * (am - 1)) := by
  have t' : towards 1 az' am = false := by
    unfold towards
    simp [not_lt.mpr h2, not_lt.mpr h3]
  have h10 : ∀ x : ℝ, 0 < (10 : ℝ) ^ x := fun x => Real.rpow_pos_of_pos (by norm_num) x
  have eq : twilight f none 1 az am sun = twilight f none 1 az' am sun * (10 : ℝ) ^ (f.azTerm * Real.cos az * (am - 1)) := by
    unfold twilight
    rw [t']
    rcases eq_or_lt_of_le ham with h | h
    · subst h
      simp [towards]
    · have t : towards 1 az am = true := by simp [towards, h, h1]
      simp [t]
  refine ⟨?_, eq⟩
  rw [eq]
  have hc : 0 ≤ Real.cos az := Real.cos_nonneg_of_neg_pi_div_two_le_of_le (by linarith [Real.pi_pos]) h1.le
  have : 1 ≤ (10 : ℝ) ^ (f.azTerm * Real.cos az * (am - 1)) := Real.one_le_rpow (by norm_num) (mul_nonneg (mul_nonneg ha hc) (by linarith))
  nlinarith [twilight_pos f hr hd 1 az' am sun]

/-- A call with the sun below the limits for every point has a number for each of them. -/
theorem twilightMag_spec (f : Fit) (high : Bool) (az am sun : ℝ) : (twilightMag f high az am sun).isSome = !high := by
  unfold twilightMag
  cases high
  · simp only [Bool.false_eq_true, if_false]
    split <;> rfl
  · rfl

example (h az sun : ℝ) : twilight ⟨2, 23, 0.3, 0.3, 1⟩ (some h) 1 az 1 sun = 2 * 1 * (10 : ℝ) ^ (23 * (sun + twelve)) + 1 := twilight_zenith _ h az sun

theorem setRange_get (c : List ℤ) (lo hi : ℕ) (v : ℤ) (j : ℕ) (hj : j < c.length) : (setRange c lo hi v)[j]? = some (if lo ≤ j ∧ j < hi then v else c[j]) := by
  unfold setRange
  rw [List.getElem?_mapIdx, List.getElem?_eq_getElem hj, Option.map_some]

theorem setRange_length (c : List ℤ) (lo hi : ℕ) (v : ℤ) : (setRange c lo hi v).length = c.length := by
  unfold setRange
  rw [List.length_mapIdx]

theorem fill_length (c : List ℤ) (kv : List (ℤ × ℤ)) (init : List ℤ) : (fill c kv init).length = init.length := by
  unfold fill
  induction kv generalizing init with
  | nil => rfl
  | cons e kv ih => rw [List.foldl_cons, ih, setRange_length]

/-- The range of a key are the places of that key. -/
theorem range_iff (c : List ℤ) (hc : c.Pairwise (· ≤ ·)) (k : ℤ) (j : ℕ) (hj : j < c.length) : (searchsortedLeft c k ≤ j ∧ j < searchsortedRight c k) ↔ c[j] = k := by
  rw [searchsortedLeft_eq_countP hc, searchsortedRight_eq_countP hc]
  have k1 := Seasons.lt_countP_iff c hc (fun x => decide (x < k)) (fun a b hab hb => by simp only [decide_eq_true_eq] at hb ⊢; omega) j hj
  have k2 := Seasons.lt_countP_iff c hc (fun x => decide (x ≤ k)) (fun a b hab hb => by simp only [decide_eq_true_eq] at hb ⊢; omega) j hj
  simp only [decide_eq_true_eq] at k1 k2
  omega

/-- Each place gets the value of its key, or keeps what it had. -/
theorem fill_get (c : List ℤ) (hc : c.Pairwise (· ≤ ·)) (keys vals : List ℤ) (hlen : keys.length = vals.length) (hnd : keys.Nodup) (init : List ℤ) (hi : init.length = c.length) (j : ℕ) (hj : j < c.length) :
    (fill c (keys.zip vals) init)[j]? = if c[j] ∈ keys then vals[keys.idxOf c[j]]? else init[j]? := by
  induction keys generalizing vals init with
  | nil => simp [fill]
  | cons k keys ih =>
    cases vals with
    | nil => simp at hlen
    | cons v vals =>
      obtain ⟨hk, hnd⟩ := List.nodup_cons.mp hnd
      rw [List.zip_cons_cons]
      show (fill c (keys.zip vals) (setRange init (searchsortedLeft c k) (searchsortedRight c k) v))[j]? = _
      rw [ih vals (by simpa using hlen) hnd _ (by rw [setRange_length, hi]), setRange_get _ _ _ _ j (by omega)]
      simp only [range_iff c hc k j hj]
      by_cases h : c[j] = k
      · have h1 : c[j] ∉ keys := h ▸ hk
        rw [if_neg h1, if_pos h, if_pos (by rw [h]; exact List.mem_cons_self), h, List.idxOf_cons_self]
        rfl
      · rw [if_neg h, List.idxOf_cons_ne _ (fun e => h e.symm)]
        by_cases h1 : c[j] ∈ keys
        · rw [if_pos h1, if_pos (List.mem_cons_of_mem _ h1)]
          rfl
        · rw [if_neg h1, if_neg (by rw [List.mem_cons]; exact fun h2 => h2.elim h h1), List.getElem?_eq_getElem (by omega)]

/-- A possible result of `argsort`. -/
structure Order (ids : List ℤ) (order : List ℕ) : Prop where
  perm : order.Perm (List.range ids.length)
  sorted : (gather ids order).Pairwise (· ≤ ·)

theorem scatter_fill (ids : List ℤ) (order : List ℕ) (ho : Order ids order) (keys vals : List ℤ) (hlen : keys.length = vals.length) (hnd : keys.Nodup) (init : List ℤ) (hi : init.length = ids.length)
    (j : ℕ) (hj : j < ids.length) :
    (scatter order (fill (gather ids order) (keys.zip vals) init) ids.length)[j]? = some (if ids[j] ∈ keys then vals.getD (keys.idxOf ids[j]) 0 else init.getD (order.idxOf j) 0) := by
  unfold scatter
  rw [List.getElem?_map, List.getElem?_range hj, Option.map_some]
  have hm : j ∈ order := ho.perm.mem_iff.mpr (List.mem_range.mpr hj)
  have hp := List.idxOf_lt_length_of_mem hm
  have hg : order.idxOf j < (gather ids order).length := by unfold gather; rwa [List.length_map]
  have hval : (gather ids order)[order.idxOf j] = ids[j] := by
    have h : ∀ (l : List ℕ) (i : ℕ) (hi : i < (gather ids l).length) (hi' : i < l.length), (gather ids l)[i] = ids.getD l[i] 0 := fun l i hi hi' => List.getElem_map _
    rw [h order _ hg hp, List.getElem_idxOf, List.getD_eq_getElem?_getD, List.getElem?_eq_getElem hj, Option.getD_some]
  have hl : (gather ids order).length = ids.length := by unfold gather; rw [List.length_map, ho.perm.length_eq, List.length_range]
  rw [List.getD_eq_getElem?_getD, fill_get _ ho.sorted keys vals hlen hnd init (by omega) _ hg, hval]
  by_cases h : ids[j] ∈ keys
  · rw [if_pos h, if_pos h, List.getD_eq_getElem?_getD]
  · rw [if_neg h, if_neg h, List.getD_eq_getElem?_getD]

/-- Each identifier is given its place among the distinct ones in increasing order. -/
theorem id_spec (ids : List ℤ) (order : List ℕ) (ho : Order ids order) (empty : List ℤ) (he : empty.length = ids.length) :
    (id2intid order empty ids).1 = ids.map (fun x => (((id2intid order empty ids).2.1.idxOf x : ℕ) : ℤ)) ∧
    (id2intid order empty ids).2.1.Pairwise (· < ·) ∧ (∀ x, x ∈ (id2intid order empty ids).2.1 ↔ x ∈ ids) ∧
    (id2intid order empty ids).2.2 = (List.range (id2intid order empty ids).2.1.length).map (fun i : ℕ => (i : ℤ)) := by
  refine ⟨?_, Seasons.uniqueInt_sorted ids, Seasons.mem_uniqueInt ids, rfl⟩
  have hnd : (Seasons.uniqueInt ids).Nodup := (Seasons.uniqueInt_sorted ids).imp (fun h => ne_of_lt h)
  apply List.ext_getElem?
  intro j
  unfold id2intid
  simp only
  by_cases hj : j < ids.length
  · rw [scatter_fill ids order ho _ _ (by simp) hnd empty he j hj, List.getElem?_map, List.getElem?_eq_getElem hj, Option.map_some]
    have hm : ids[j] ∈ Seasons.uniqueInt ids := (Seasons.mem_uniqueInt ids _).mpr (List.getElem_mem hj)
    rw [if_pos hm, List.getD_eq_getElem?_getD, List.getElem?_map, List.getElem?_range (List.idxOf_lt_length_of_mem hm)]
    rfl
  · rw [List.getElem?_eq_none (by unfold scatter; rw [List.length_map, List.length_range]; omega), List.getElem?_eq_none (by rw [List.length_map]; omega)]

/-- Each number is given its identifier, numbers that are not known zero. -/
theorem back_spec (intids uintids uids : List ℤ) (order : List ℕ) (ho : Order intids order) (hlen : uintids.length = uids.length) (hnd : uintids.Nodup) :
    intid2id order intids uintids uids = intids.map (fun x => if x ∈ uintids then uids.getD (uintids.idxOf x) 0 else 0) := by
  apply List.ext_getElem?
  intro j
  unfold intid2id
  by_cases hj : j < intids.length
  · rw [scatter_fill intids order ho _ _ hlen hnd _ (by simp) j hj, List.getElem?_map, List.getElem?_eq_getElem hj, Option.map_some]
    congr 2
    rw [List.getD_eq_getElem?_getD, List.getElem?_replicate]
    split <;> rfl
  · rw [List.getElem?_eq_none (by unfold scatter; rw [List.length_map, List.length_range]; omega), List.getElem?_eq_none (by rw [List.length_map]; omega)]

/-- **C275.** There and back again. -/
theorem round_trip (ids : List ℤ) (order order' : List ℕ) (empty : List ℤ) (he : empty.length = ids.length) (ho : Order ids order) (ho' : Order (id2intid order empty ids).1 order') :
    intid2id order' (id2intid order empty ids).1 (id2intid order empty ids).2.2 (id2intid order empty ids).2.1 = ids := by
  obtain ⟨h1, h2, h3, h4⟩ := id_spec ids order ho empty he
  have hinj : ((id2intid order empty ids).2.2).Nodup := by
    rw [h4]
    exact List.Nodup.map (fun a b h => by simpa using h) List.nodup_range
  rw [back_spec _ _ _ order' ho' (by rw [h4, List.length_map, List.length_range]) hinj]
  generalize (id2intid order empty ids).2.1 = u at h1 h2 h3 h4
  rw [h1, h4, List.map_map]
  conv_rhs => rw [← List.map_id ids]
  apply List.map_congr_left
  intro x hx
  have hm := (h3 x).mpr hx
  have hlt := List.idxOf_lt_length_of_mem hm
  simp only [Function.comp_apply]
  have hin : ((u.idxOf x : ℕ) : ℤ) ∈ (List.range u.length).map (fun i : ℕ => (i : ℤ)) := List.mem_map.mpr ⟨_, List.mem_range.mpr hlt, rfl⟩
  rw [if_pos hin]
  have hidx : ((List.range u.length).map (fun i : ℕ => (i : ℤ))).idxOf ((u.idxOf x : ℕ) : ℤ) = u.idxOf x := by
    have hl := List.idxOf_lt_length_of_mem hin
    have := List.getElem_idxOf hl
    rw [List.getElem_map, List.getElem_range] at this
    exact_mod_cast this
  rw [hidx, List.getD_eq_getElem?_getD, List.getElem?_eq_getElem hlt, Option.getD_some, List.getElem_idxOf]
  rfl

example : id2intid [1, 0, 2] [9, 9, 9] [30, 10, 30] = ([1, 0, 1], [10, 30], [0, 1]) ∧ intid2id [1, 0, 2] [1, 0, 1] [0, 1] [10, 30] = [30, 10, 30] := by decide

end Verif.SkyI
