import Verif.Model.MoonLight
import Verif.Props.SkyInterp

/-!
# Properties of scattered moonlight (C608, C609)
-/

namespace Verif.Moon

open Verif.SkyI

variable {K : Type*} [Field K] [LinearOrder K] [IsStrictOrderedRing K]

/-- A table of separations, altitudes and pixels, in this order. -/
def IsTable3 (values : List K) (ns na n : ℕ) (T : ℕ → ℕ → ℕ → K) : Prop :=
  ∀ s a j, s < ns → a < na → j < n → values[s * (n * na) + a * n + j]? = some (T s a j)

omit [LinearOrder K] [IsStrictOrderedRing K] in
theorem table3_get (values : List K) (ns na n : ℕ) (T : ℕ → ℕ → ℕ → K) (h : IsTable3 values ns na n T) (s a j : ℕ)
    (hs : s < ns) (ha : a < na) (hj : j < n) :
    get values ((s : ℤ) * ((n : ℤ) * (na : ℤ)) + (a : ℤ) * (n : ℤ) + (j : ℤ)) = T s a j := by
  have e : (s : ℤ) * ((n : ℤ) * (na : ℤ)) + (a : ℤ) * (n : ℤ) + (j : ℤ) = ((s * (n * na) + a * n + j : ℕ) : ℤ) := by
    push_cast
    ring
  obtain ⟨hl, hv⟩ := List.getElem?_eq_some_iff.mp (h s a j hs ha hj)
  unfold SkyI.get
  rw [e, if_pos (Int.natCast_nonneg _), Int.toNat_natCast, List.getD_eq_getElem?_getD, List.getElem?_eq_getElem hl,
    Option.getD_some, hv]

/-- The value of a pixel: interpolation in the separation, and of the results in the altitude. -/
def pixel (alts seps : List K) (T : ℕ → ℕ → ℕ → K) (alt sep : K) (j : ℕ) : K :=
  lin alt alts ((List.range alts.length).map (fun a => lin sep seps ((List.range seps.length).map (fun s => T s a j))))

/-- A point has a place in a grid if it is not below it. -/
theorem weights_index' (g : List K) (hg : g.Pairwise (· < ·)) (hne : 0 < g.length) (p : K) (hp : g[0] ≤ p) :
    ∃ r l : ℕ, r < g.length ∧ l < g.length ∧ (indxWeights p g).r = r ∧
      ((indxWeights p g).wl = 0 ∨ (indxWeights p g).l = l) := by
  by_cases h : p ≤ g[g.length - 1]
  · exact weights_index g hg hne p ((inRange_iff p g hne).mpr ⟨hp, h⟩)
  · have hall : ∀ x ∈ g, x < p := by
      intro x hx
      obtain ⟨i, hi, rfl⟩ := List.getElem_of_mem hx
      refine lt_of_le_of_lt ?_ (not_le.mp h)
      rcases Nat.lt_or_eq_of_le (Nat.le_sub_one_of_lt hi) with h' | h'
      · exact le_of_lt (List.pairwise_iff_getElem.mp hg i (g.length - 1) hi (by omega) h')
      · simp only [h', le_refl]
    rw [weights_high g p hall]
    exact ⟨g.length - 1, 0, by omega, hne, by simp only; omega, Or.inl rfl⟩

/-- The sum over the eight corners is the sum over the neighbouring pixels of the interpolated values. -/
theorem value_sum (alts seps : List K) (known : List ℕ) (values : List K) (T : ℕ → ℕ → ℕ → K)
    (ha : alts.Pairwise (· < ·)) (hs : seps.Pairwise (· < ·)) (ha0 : 0 < alts.length) (hs0 : 0 < seps.length)
    (hk : 0 < known.length) (hT : IsTable3 values seps.length alts.length known.length T) (p : Pt K)
    (h1 : alts[0] ≤ p.alt) (h2 : seps[0] ≤ p.sep) :
    value alts seps known values p =
      ((pixWeights known p.nb).map (fun e => e.2 * pixel alts seps T p.alt p.sep (place known e.1))).sum := by
  obtain ⟨r, l, hr, hl, er, el⟩ := weights_index' alts ha ha0 p.alt h1
  obtain ⟨r', l', hr', hl', er', el'⟩ := weights_index' seps hs hs0 p.sep h2
  unfold value
  simp only
  congr 1
  apply List.map_congr_left
  intro e _
  have hj : place known e.1 < known.length := by
    unfold place
    split
    · exact List.idxOf_lt_length_of_mem ‹_›
    · exact hk
  generalize place known e.1 = j at hj
  have t := fun s a hs ha => table3_get values _ _ _ T hT s a j hs ha hj
  unfold pixel lin
  simp only [er, er', t r' r hr' hr]
  rw [row_get _ _ r hr]
  simp only [row_get _ _ r' hr']
  rcases el with el | el
  · rw [el]
    rcases el' with el' | el'
    · rw [el']
      ring
    · rw [el', t l' r hl' hr]
      simp only [row_get _ _ l' hl']
      ring
  · rw [el, row_get _ _ l hl]
    simp only [row_get _ _ r' hr', t r' l hr' hl]
    rcases el' with el' | el'
    · rw [el']
      ring
    · rw [el', t l' r hl' hr, t l' l hl' hl]
      simp only [row_get _ _ l' hl']
      ring

omit [IsStrictOrderedRing K] in
theorem pix_sum (known : List ℕ) (nb : List (ℕ × K)) (V : ℕ → K)
    (h : ((nb.filter (fun e => decide (e.1 ∈ known))).map Prod.snd).sum ≠ 0) :
    ((pixWeights known nb).map (fun e => e.2 * V e.1)).sum * ((nb.filter (fun e => decide (e.1 ∈ known))).map Prod.snd).sum =
      ((nb.filter (fun e => decide (e.1 ∈ known))).map (fun e => e.2 * V e.1)).sum := by
  unfold pixWeights
  simp only
  rw [← sum_known] at h ⊢
  rw [if_neg h]
  generalize ((nb.map (fun e => (e.1, if e.1 ∈ known then e.2 else 0))).map Prod.snd).sum = c at h ⊢
  induction nb with
  | nil => simp
  | cons e nb ih =>
    by_cases hk : e.1 ∈ known
    · simp only [List.map_cons, List.sum_cons, hk, if_true, List.filter_cons, decide_true, add_mul, ih]
      field_simp
    · simp only [List.map_cons, List.sum_cons, hk, if_false, List.filter_cons, decide_false, Bool.false_eq_true, add_mul, ih,
        zero_div, zero_mul, zero_add]

/-! ## The value of a point (C608) -/

/-- The value is the mean over the known neighbouring pixels, with their weights, of the value interpolated in the
separation and the altitude. -/
theorem value_mean (alts seps : List K) (known : List ℕ) (values : List K) (T : ℕ → ℕ → ℕ → K)
    (ha : alts.Pairwise (· < ·)) (hs : seps.Pairwise (· < ·)) (ha0 : 0 < alts.length) (hs0 : 0 < seps.length)
    (hT : IsTable3 values seps.length alts.length known.length T) (p : Pt K)
    (h1 : alts[0] ≤ p.alt) (h2 : seps[0] ≤ p.sep)
    (hn : ((p.nb.filter (fun e => decide (e.1 ∈ known))).map Prod.snd).sum ≠ 0) :
    value alts seps known values p * ((p.nb.filter (fun e => decide (e.1 ∈ known))).map Prod.snd).sum =
      ((p.nb.filter (fun e => decide (e.1 ∈ known))).map
        (fun e => e.2 * pixel alts seps T p.alt p.sep (known.idxOf e.1))).sum := by
  have hk : 0 < known.length := by
    by_contra hc
    have : known = [] := List.length_eq_zero_iff.mp (by omega)
    subst this
    simp at hn
  rw [value_sum alts seps known values T ha hs ha0 hs0 hk hT p h1 h2,
    pix_sum known p.nb (fun h => pixel alts seps T p.alt p.sep (place known h)) hn]
  congr 1
  apply List.map_congr_left
  intro e he
  have := (List.mem_filter.mp he).2
  rw [decide_eq_true_eq] at this
  simp only [place, if_pos this]

/-- A pixel on the grid has its value in the table, and one between has values between. -/
theorem pixel_node (alts seps : List K) (T : ℕ → ℕ → ℕ → K) (ha : alts.Pairwise (· < ·)) (hs : seps.Pairwise (· < ·))
    (a s j : ℕ) (h1 : a < alts.length) (h2 : s < seps.length) : pixel alts seps T alts[a] seps[s] j = T s a j := by
  unfold pixel
  rw [lin_node alts _ ha (by simp) a h1]
  simp only [List.getElem_map, List.getElem_range]
  rw [lin_node seps _ hs (by simp) s h2]
  simp

theorem pixel_bounds (alts seps : List K) (T : ℕ → ℕ → ℕ → K) (ha : alts.Pairwise (· < ·)) (hs : seps.Pairwise (· < ·))
    (ha0 : 0 < alts.length) (hs0 : 0 < seps.length) (alt sep : K) (h1 : inRange alt alts = true)
    (h2 : inRange sep seps = true) (j : ℕ) (lo hi : K)
    (hb : ∀ s a, s < seps.length → a < alts.length → lo ≤ T s a j ∧ T s a j ≤ hi) :
    lo ≤ pixel alts seps T alt sep j ∧ pixel alts seps T alt sep j ≤ hi := by
  unfold pixel
  apply lin_bounds alts _ ha (by simp) ha0 alt h1
  intro v hv
  obtain ⟨a, hva, rfl⟩ := List.mem_map.mp hv
  apply lin_bounds seps _ hs (by simp) hs0 sep h2
  intro w hw
  obtain ⟨s, hws, rfl⟩ := List.mem_map.mp hw
  exact hb s a (List.mem_range.mp hws) (List.mem_range.mp hva)

/-! ## The moon outside of the grid (C609) -/

omit [IsStrictOrderedRing K] in
/-- With the same altitude of the moon at all points, as in `SkyModel`, a moon below the grid gives zeros, and otherwise
each point has its own value. -/
theorem one_moon (alts seps : List K) (known : List ℕ) (values : List K) (pts : List (Pt K)) (alt : K)
    (ha0 : 0 < alts.length) (h : ∀ p ∈ pts, p.alt = alt) :
    weighting alts seps known values pts =
      pts.map (fun p => if alt < alts[0] then 0 else value alts seps known values p) := by
  have g0 : get alts 0 = alts[0] := get_nat alts 0 ha0
  unfold weighting
  rw [g0]
  cases pts with
  | nil => simp
  | cons q qs =>
    by_cases hc : alt < alts[0]
    · have : (q :: qs).all (fun p => decide (p.alt < alts[0])) = true := by
        rw [List.all_eq_true]
        intro p hp
        rw [h p hp]
        simpa using hc
      rw [if_pos this]
      simp [hc]
    · have : (q :: qs).all (fun p => decide (p.alt < alts[0])) = false := by
        rw [List.all_eq_false]
        exact ⟨q, by simp, by rw [h q (by simp)]; simpa using hc⟩
      rw [this]
      simp [hc]

/-- A moon above the grid counts as at its highest altitude. -/
theorem high_moon (alts seps : List K) (T : ℕ → ℕ → ℕ → K) (ha0 : 0 < alts.length) (alt sep : K)
    (h : ∀ x ∈ alts, x < alt) (j : ℕ) :
    pixel alts seps T alt sep j = lin sep seps ((List.range seps.length).map (fun s => T s (alts.length - 1) j)) := by
  unfold pixel
  rw [edge_partial alts _ alt ha0 (by simp) h]
  simp

/-- That points with the moon below the grid have no moonlight is false in a call with others. -/
theorem alone_false : ¬ ∀ (alts seps : List ℚ) (known : List ℕ) (values : List ℚ) (p q : Pt ℚ),
    (∀ x ∈ alts, p.alt < x) → (weighting alts seps known values [p, q])[0]? = some 0 := by
  intro h
  have := h [0, 1] [0, 1] [7] [1, 2, 3, 4] ⟨-1, 0, [(7, 1)]⟩ ⟨1, 0, [(7, 1)]⟩ (by decide +kernel)
  revert this
  decide +kernel

/-- Two pixels, one of them unknown. -/
example : weighting [0, 1] [0, 2] [5, 7] [1, 10, 2, 20, 3, 30, 4, (40 : ℚ)]
    [⟨1 / 2, 1, [(5, 1 / 4), (7, 1 / 4), (9, 1 / 2)]⟩] = [55 / 4] := by decide +kernel

end Verif.Moon
