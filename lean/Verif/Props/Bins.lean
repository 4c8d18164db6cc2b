import Mathlib.Tactic.Linarith
import Mathlib.Tactic.Ring
import Mathlib.Tactic.FieldSimp
import Mathlib.Tactic.Push
import Mathlib.Data.List.MinMax
import Mathlib.Data.Rat.Floor
import Verif.Model.Bins

/-! # C38, C63: bin numbers and percentiles -/

namespace Verif.Bins

variable {K : Type*} [Field K] [LinearOrder K] [FloorRing K] [IsStrictOrderedRing K]

/-! ## Percentiles -/

omit [Field K] [FloorRing K] [IsStrictOrderedRing K] in
theorem sorted_le {s : List K} (hs : s.Pairwise (· ≤ ·)) {i j : Nat} {a b : K} (hij : i ≤ j)
    (ha : s[i]? = some a) (hb : s[j]? = some b) : a ≤ b := by
  rcases Nat.lt_or_eq_of_le hij with h | h
  · obtain ⟨hi, rfl⟩ := List.getElem?_eq_some_iff.mp ha
    obtain ⟨hj, rfl⟩ := List.getElem?_eq_some_iff.mp hb
    exact List.pairwise_iff_getElem.mp hs i j hi hj h
  · subst h
    rw [ha] at hb
    cases hb
    exact le_refl _

/-- What the percentile is: between the values at the positions around
`(n-1)q` of the sorted data. -/
theorem pct_spec (d : List K) (q : K) (hd : d ≠ []) (h0 : 0 ≤ q) (h1 : q ≤ 1) :
    ∃ (i : Nat) (a b v : K), pct q d = some v ∧ (d.insertionSort (· ≤ ·))[i]? = some a ∧
      ((d.insertionSort (· ≤ ·))[i + 1]?).getD a = b ∧ i = ⌊((d.length : K) - 1) * q⌋₊ ∧
      (i : K) ≤ ((d.length : K) - 1) * q ∧ ((d.length : K) - 1) * q < i + 1 ∧
      v = a + (((d.length : K) - 1) * q - i) * (b - a) ∧ a ≤ b ∧ a ≤ v ∧ v ≤ b := by
  have hlen : 0 < d.length := List.length_pos_iff.mpr hd
  have hn : (1 : K) ≤ (d.length : K) := by exact_mod_cast hlen
  set s := d.insertionSort (· ≤ ·) with hs
  have hsl : s.length = d.length := List.length_insertionSort _ _
  have hsort : s.Pairwise (· ≤ ·) := List.pairwise_insertionSort _ _
  set h := ((d.length : K) - 1) * q with hh
  have hnn : 0 ≤ h := mul_nonneg (by linarith) h0
  have hle : h ≤ (d.length : K) - 1 := by
    calc h ≤ ((d.length : K) - 1) * 1 := mul_le_mul_of_nonneg_left h1 (by linarith)
      _ = _ := by ring
  have hfl := Nat.floor_le hnn
  have hfu := Nat.lt_floor_add_one h
  have hi : ⌊h⌋₊ < s.length := by
    rw [hsl]
    have : (⌊h⌋₊ : K) < (d.length : K) := by linarith
    exact_mod_cast this
  have hab : s[⌊h⌋₊] ≤ (s[⌊h⌋₊ + 1]?).getD s[⌊h⌋₊] := by
    cases hb : s[⌊h⌋₊ + 1]? with
    | none => simp
    | some b => exact sorted_le hsort (Nat.le_succ _) (List.getElem?_eq_getElem hi) hb
  refine ⟨⌊h⌋₊, s[⌊h⌋₊], (s[⌊h⌋₊ + 1]?).getD s[⌊h⌋₊],
    s[⌊h⌋₊] + (h - (⌊h⌋₊ : K)) * ((s[⌊h⌋₊ + 1]?).getD s[⌊h⌋₊] - s[⌊h⌋₊]), ?_, List.getElem?_eq_getElem hi, rfl, rfl,
    hfl, hfu, rfl, hab, ?_, ?_⟩
  · unfold pct
    simp only [← hs, hsl, ← hh, List.getElem?_eq_getElem hi]
  · have : 0 ≤ (h - (⌊h⌋₊ : K)) * ((s[⌊h⌋₊ + 1]?).getD s[⌊h⌋₊] - s[⌊h⌋₊]) :=
      mul_nonneg (by linarith) (by linarith)
    linarith
  · have : (h - (⌊h⌋₊ : K)) * ((s[⌊h⌋₊ + 1]?).getD s[⌊h⌋₊] - s[⌊h⌋₊]) ≤
        1 * ((s[⌊h⌋₊ + 1]?).getD s[⌊h⌋₊] - s[⌊h⌋₊]) :=
      mul_le_mul_of_nonneg_right (by linarith) (by linarith)
    linarith

omit [IsStrictOrderedRing K] in
theorem pct_nil (q : K) : pct q [] = none := by simp [pct]

/-- **C63.** A percentile lies between two of the data values. -/
theorem pct_between (d : List K) (q : K) (hd : d ≠ []) (h0 : 0 ≤ q) (h1 : q ≤ 1) :
    ∃ v, pct q d = some v ∧ (∃ a ∈ d, a ≤ v) ∧ ∃ b ∈ d, v ≤ b := by
  obtain ⟨i, a, b, v, hv, ha, hb, -, -, -, -, -, hav, hvb⟩ := pct_spec d q hd h0 h1
  have ham : a ∈ d := List.mem_insertionSort _ |>.mp (List.mem_of_getElem? ha)
  refine ⟨v, hv, ⟨a, ham, hav⟩, ⟨b, ?_, hvb⟩⟩
  cases hb' : (d.insertionSort (· ≤ ·))[i + 1]? with
  | none => rw [hb'] at hb; simp at hb; rw [← hb]; exact ham
  | some b' =>
    rw [hb'] at hb
    simp at hb
    rw [← hb]
    exact List.mem_insertionSort _ |>.mp (List.mem_of_getElem? hb')

/-- **C63.** Percentiles grow with the fraction. -/
theorem pct_mono (d : List K) (q q' : K) (hd : d ≠ []) (h0 : 0 ≤ q) (h : q ≤ q') (h1 : q' ≤ 1) :
    ∃ v v', pct q d = some v ∧ pct q' d = some v' ∧ v ≤ v' := by
  obtain ⟨i, a, b, v, hv, ha, hb, hi, hil, hiu, hve, hab, hav, hvb⟩ := pct_spec d q hd h0 (le_trans h h1)
  obtain ⟨i', a', b', v', hv', ha', hb', hi', hil', hiu', hve', hab', hav', hvb'⟩ := pct_spec d q' hd (le_trans h0 h) h1
  refine ⟨v, v', hv, hv', ?_⟩
  have hlen : 0 < d.length := List.length_pos_iff.mpr hd
  have hn : (1 : K) ≤ (d.length : K) := by exact_mod_cast hlen
  have hpos : ((d.length : K) - 1) * q ≤ ((d.length : K) - 1) * q' := mul_le_mul_of_nonneg_left h (by linarith)
  have hii : i ≤ i' := by rw [hi, hi']; exact Nat.floor_mono hpos
  rcases Nat.lt_or_eq_of_le hii with hlt | heq
  · -- the upper value of the first is at most the lower value of the second
    have : b ≤ a' := by
      have hsort : (d.insertionSort (· ≤ ·)).Pairwise (· ≤ ·) := List.pairwise_insertionSort _ _
      cases hb2 : (d.insertionSort (· ≤ ·))[i + 1]? with
      | none => rw [hb2] at hb; simp at hb; rw [← hb]; exact sorted_le hsort hii ha ha'
      | some b2 =>
        rw [hb2] at hb
        simp at hb
        rw [← hb]
        exact sorted_le hsort (by omega) hb2 ha'
    linarith
  · subst heq
    rw [ha] at ha'
    cases ha'
    rw [hb] at hb'
    subst hb'
    rw [hve, hve']
    have := mul_le_mul_of_nonneg_right (sub_le_sub_right hpos (i : K)) (sub_nonneg.mpr hab)
    linarith

omit [Field K] [LinearOrder K] [FloorRing K] [IsStrictOrderedRing K] in
theorem countP_take_bound (p : K → Bool) (s : List K) (m : Nat) (h : ∀ j a, m ≤ j → s[j]? = some a → p a = false) :
    s.countP p ≤ m := by
  have h1 : s.countP p = (s.take m).countP p + (s.drop m).countP p := by
    rw [← List.countP_append, List.take_append_drop]
  have h2 : (s.drop m).countP p = 0 := by
    rw [List.countP_eq_zero]
    intro a ha
    obtain ⟨j, hj⟩ := List.mem_iff_getElem?.mp ha
    rw [List.getElem?_drop] at hj
    simp [h (m + j) a (by omega) hj]
  have h3 : (s.take m).countP p ≤ m := le_trans List.countP_le_length (by simp)
  omega

omit [Field K] [LinearOrder K] [FloorRing K] [IsStrictOrderedRing K] in
theorem countP_drop_bound (p : K → Bool) (s : List K) (m : Nat) (h : ∀ j a, j < m → s[j]? = some a → p a = false) :
    s.countP p ≤ s.length - m := by
  have h1 : s.countP p = (s.take m).countP p + (s.drop m).countP p := by
    rw [← List.countP_append, List.take_append_drop]
  have h2 : (s.take m).countP p = 0 := by
    rw [List.countP_eq_zero]
    intro a ha
    obtain ⟨j, hj⟩ := List.mem_iff_getElem?.mp ha
    rw [List.getElem?_take] at hj
    split at hj
    · simp [h j a (by omega) hj]
    · simp at hj
  have h3 : (s.drop m).countP p ≤ s.length - m := le_trans List.countP_le_length (by simp)
  omega

/-- **C63.** At most `⌈(n-1)q⌉` values lie below the percentile. -/
theorem pct_below (d : List K) (q v : K) (hd : d ≠ []) (h0 : 0 ≤ q) (h1 : q ≤ 1) (hv : pct q d = some v) :
    d.countP (fun x => decide (x < v)) ≤ ⌈((d.length : K) - 1) * q⌉₊ := by
  obtain ⟨i, a, b, v', hv', ha, hb, hi, hil, hiu, hve, hab, hav, hvb⟩ := pct_spec d q hd h0 h1
  rw [hv] at hv'
  cases hv'
  have hsort : (d.insertionSort (· ≤ ·)).Pairwise (· ≤ ·) := List.pairwise_insertionSort _ _
  rw [← (List.perm_insertionSort (· ≤ ·) d).countP_eq]
  apply countP_take_bound
  intro j x hj hx
  simp only [decide_eq_false_iff_not, not_lt]
  have hc : ((d.length : K) - 1) * q ≤ (j : K) := le_trans (Nat.le_ceil _) (by exact_mod_cast hj)
  by_cases hji : j ≤ i
  · -- then (n-1)q = i
    have : (j : K) ≤ i := by exact_mod_cast hji
    have he : ((d.length : K) - 1) * q - i = 0 := by linarith
    have hji' : j = i := by
      have : (i : K) ≤ j := by linarith
      have : i ≤ j := by exact_mod_cast this
      omega
    subst hji'
    rw [hx] at ha
    cases ha
    rw [hve, he]
    simp
  · have hb2 : b ≤ x := by
      cases hb2 : (d.insertionSort (· ≤ ·))[i + 1]? with
      | none =>
        exfalso
        rw [List.getElem?_eq_none_iff] at hb2
        have := (List.getElem?_eq_some_iff.mp hx).1
        omega
      | some b2 =>
        rw [hb2] at hb
        simp at hb
        rw [← hb]
        exact sorted_le hsort (by omega) hb2 hx
    linarith

/-- **C63.** At most `n - 1 - ⌊(n-1)q⌋` values lie above the percentile. -/
theorem pct_above (d : List K) (q v : K) (hd : d ≠ []) (h0 : 0 ≤ q) (h1 : q ≤ 1) (hv : pct q d = some v) :
    d.countP (fun x => decide (v < x)) ≤ d.length - (⌊((d.length : K) - 1) * q⌋₊ + 1) := by
  obtain ⟨i, a, b, v', hv', ha, hb, hi, hil, hiu, hve, hab, hav, hvb⟩ := pct_spec d q hd h0 h1
  rw [hv] at hv'
  cases hv'
  have hsort : (d.insertionSort (· ≤ ·)).Pairwise (· ≤ ·) := List.pairwise_insertionSort _ _
  rw [← (List.perm_insertionSort (· ≤ ·) d).countP_eq]
  have hl : (d.insertionSort (· ≤ ·)).length = d.length := List.length_insertionSort _ _
  rw [← hi, ← hl]
  apply countP_drop_bound
  intro j x hj hx
  simp only [decide_eq_false_iff_not, not_lt]
  exact le_trans (sorted_le hsort (by omega) hx ha) hav

/-! ## C63: clipping -/

/-- **C63**, what holds: the limits are ordered and within the data, and all but
`2⌈(n-1)(1-p)/2⌉` of the values are kept. -/
theorem clip_partial (d : List K) (p : K) (hd : d ≠ []) (h0 : 0 ≤ p) (h1 : p ≤ 1) :
    ∃ a b, clip p d = some (a, b) ∧ a ≤ b ∧ (∃ x ∈ d, x ≤ a) ∧ (∃ x ∈ d, b ≤ x) ∧
      d.length ≤ d.countP (fun x => decide (a ≤ x) && decide (x ≤ b)) +
        2 * ⌈((d.length : K) - 1) * ((1 - p) / 2)⌉₊ := by
  have hl0 : 0 ≤ (1 - p) / 2 := by linarith
  have hl1 : (1 - p) / 2 ≤ 1 - (1 - p) / 2 := by linarith
  have hu1 : 1 - (1 - p) / 2 ≤ 1 := by linarith
  obtain ⟨a, b, ha, hb, hab⟩ := pct_mono d ((1 - p) / 2) (1 - (1 - p) / 2) hd hl0 hl1 hu1
  obtain ⟨a', ha', hlo, -⟩ := pct_between d ((1 - p) / 2) hd hl0 (by linarith)
  obtain ⟨b', hb', -, hhi⟩ := pct_between d (1 - (1 - p) / 2) hd (by linarith) hu1
  rw [ha] at ha'; cases ha'
  rw [hb] at hb'; cases hb'
  refine ⟨a, b, by simp [clip, ha, hb], hab, hlo, hhi, ?_⟩
  have hB := pct_below d _ a hd hl0 (by linarith) ha
  have hA := pct_above d _ b hd (by linarith) hu1 hb
  have hlen : 0 < d.length := List.length_pos_iff.mpr hd
  have hn : (1 : K) ≤ (d.length : K) := by exact_mod_cast hlen
  set c := ⌈((d.length : K) - 1) * ((1 - p) / 2)⌉₊ with hc
  have hA' : d.length - (⌊((d.length : K) - 1) * (1 - (1 - p) / 2)⌋₊ + 1) ≤ c := by
    have hcl : ((d.length : K) - 1) * ((1 - p) / 2) ≤ (c : K) := Nat.le_ceil _
    have hfl := Nat.lt_floor_add_one (((d.length : K) - 1) * (1 - (1 - p) / 2))
    have : (d.length : K) < (c : K) + (⌊((d.length : K) - 1) * (1 - (1 - p) / 2)⌋₊ + 1) + 1 := by
      have e : ((d.length : K) - 1) * (1 - (1 - p) / 2) =
        ((d.length : K) - 1) - ((d.length : K) - 1) * ((1 - p) / 2) := by ring
      rw [e] at hfl ⊢
      linarith
    have : d.length < c + (⌊((d.length : K) - 1) * (1 - (1 - p) / 2)⌋₊ + 1) + 1 := by exact_mod_cast this
    omega
  have hsplit : d.length ≤ d.countP (fun x => decide (a ≤ x) && decide (x ≤ b)) +
      (d.countP (fun x => decide (x < a)) + d.countP (fun x => decide (b < x))) := by
    clear hA' hA hB hc ha hb hlo hhi hlen hn hd
    clear c
    induction d with
    | nil => simp
    | cons x r ih =>
      simp only [List.length_cons, List.countP_cons]
      by_cases hx1 : x < a
      · simp [hx1]
        omega
      · by_cases hx2 : b < x
        · simp [hx2]
          omega
        · simp [not_lt.mp hx1, not_lt.mp hx2]
          omega
  omega

/-- Full statement of C63: the stated percentage of the data is retained. -/
def Retains (K : Type*) [Field K] [LinearOrder K] [FloorRing K] [IsStrictOrderedRing K] : Prop :=
  ∀ (d : List K) (p a b : K), d ≠ [] → 0 ≤ p → p ≤ 1 → clip p d = some (a, b) →
    p * d.length ≤ (d.countP (fun x => decide (a ≤ x) && decide (x ≤ b)) : K)

/-- **C63**, refutation: of two values, none is retained at 95 percent. -/
theorem retains_false : ¬ Retains ℚ := by
  intro h
  have := h [0, 1] (95 / 100) (1 / 40) (39 / 40) (by simp) (by norm_num) (by norm_num) (by decide +kernel)
  revert this
  decide +kernel

/-! ## C38 -/

theorem trunc_between {m n : ℤ} {x : K} (h1 : (m : K) ≤ x) (h2 : x ≤ (n : K)) : m ≤ trunc x ∧ trunc x ≤ n := by
  unfold trunc
  split
  · refine ⟨Int.le_floor.mpr h1, ?_⟩
    have : ((⌊x⌋ : ℤ) : K) ≤ (n : K) := le_trans (Int.floor_le x) h2
    exact_mod_cast this
  · refine ⟨?_, Int.ceil_le.mpr h2⟩
    have : (m : K) ≤ ((⌈x⌉ : ℤ) : K) := le_trans h1 (Int.le_ceil x)
    exact_mod_cast this

theorem limitBins_between {nmax nmin : ℤ} (h : nmin ≤ nmax) (x : Num K) :
    nmin ≤ limitBins nmax nmin x ∧ limitBins nmax nmin x ≤ nmax := by
  cases x with
  | nan => simp [limitBins, h]
  | posInf => simp only [limitBins]; rw [if_neg (by omega)]; exact ⟨h, le_refl _⟩
  | negInf => simp [limitBins, h]
  | fin x =>
    simp only [limitBins]
    split
    · rw [if_neg (by omega)]; exact ⟨h, le_refl _⟩
    · split
      · exact ⟨le_refl _, h⟩
      · rename_i h1 h2
        exact trunc_between (not_lt.mp h2) (not_lt.mp h1)

/-- **C38.** The number of bins is within the limits, whatever the data, NaN or empty
included. -/
theorem optimal_bins_limits (croot : Nat → K) (data : List (Option K)) (binmin binmax : Option K) (nmax nmin : ℤ)
    (h : nmin ≤ nmax) :
    nmin ≤ optimalBins croot data binmin binmax nmax nmin ∧ optimalBins croot data binmin binmax nmax nmin ≤ nmax := by
  unfold optimalBins
  simp only
  split
  · split
    · exact limitBins_between h _
    · exact ⟨h, le_refl _⟩
  · exact ⟨h, le_refl _⟩

/-- The values that count: not NaN and within the limits that were given. -/
def usable (data : List (Option K)) (binmin binmax : Option K) : List K :=
  (data.filterMap id).filter (fun x => (binmin.all (fun m => decide (m ≤ x))) && (binmax.all (fun m => decide (x ≤ m))))

omit [Field K] [FloorRing K] [IsStrictOrderedRing K] in
theorem usable_eq (data : List (Option K)) (binmin binmax : Option K) (lo hi : K)
    (hlo : (binmin <|> (data.filterMap id).min?) = some lo) (hhi : (binmax <|> (data.filterMap id).max?) = some hi) :
    (data.filterMap id).filter (fun x => decide (lo ≤ x) && decide (x ≤ hi)) = usable data binmin binmax := by
  unfold usable
  apply List.filter_congr
  intro x hx
  congr 1
  · cases binmin with
    | none =>
      simp at hlo
      have := (List.min?_eq_some_iff.mp (by simpa using hlo)).2 x hx
      simpa using this
    | some m => simp at hlo; subst hlo; simp
  · cases binmax with
    | none =>
      have := (List.max?_eq_some_iff.mp (by simpa using hhi)).2 x hx
      simpa using this
    | some m => simp at hhi; subst hhi; simp

/-- **C38.** Without usable data, and when all usable values coincide, the result is the
upper limit. -/
theorem optimal_bins_degenerate (croot : Nat → K) (data : List (Option K)) (binmin binmax : Option K) (nmax nmin : ℤ)
    (h : nmin ≤ nmax) (c : K)
    (hc : ∀ x ∈ usable data binmin binmax, x = c) :
    optimalBins croot data binmin binmax nmax nmin = nmax := by
  unfold optimalBins
  simp only
  split
  · rename_i lo hi hlo hhi
    rw [usable_eq data binmin binmax lo hi hlo hhi]
    split
    · rename_i q3 q1 hq3 hq1
      have hne : usable data binmin binmax ≠ [] := by
        intro e; rw [e, pct_nil] at hq3; cases hq3
      have e3 : q3 = c := by
        obtain ⟨v, hv, ⟨a, ha, hav⟩, ⟨b, hb, hvb⟩⟩ := pct_between (usable data binmin binmax) (3 / 4) hne (by norm_num) (by norm_num)
        rw [hq3] at hv; cases hv
        rw [hc a ha] at hav; rw [hc b hb] at hvb
        exact le_antisymm hvb hav
      have e1 : q1 = c := by
        obtain ⟨v, hv, ⟨a, ha, hav⟩, ⟨b, hb, hvb⟩⟩ := pct_between (usable data binmin binmax) (1 / 4) hne (by norm_num) (by norm_num)
        rw [hq1] at hv; cases hv
        rw [hc a ha] at hav; rw [hc b hb] at hvb
        exact le_antisymm hvb hav
      have hle : lo ≤ hi := by
        obtain ⟨x, hx⟩ := List.exists_mem_of_ne_nil _ hne
        rw [← usable_eq data binmin binmax lo hi hlo hhi] at hx
        have := (List.mem_filter.mp hx).2
        simp only [Bool.and_eq_true, decide_eq_true_eq] at this
        exact le_trans this.1 this.2
      rw [e3, e1]
      simp only [sub_self, mul_zero, zero_mul, fdiv, if_true]
      split
      · rfl
      · rename_i hne'
        rw [if_pos (lt_of_le_of_ne (by linarith) (Ne.symm hne'))]
        simp only [limitBins]
        rw [if_neg (by omega)]
    · rfl
  · rfl

/-- **C38.** Otherwise the Freedman-Diaconis number, rounded down, is used when it is
within the limits. -/
theorem optimal_bins_rule (croot : Nat → K) (data : List (Option K)) (lo hi q1 q3 : K) (nmax nmin : ℤ)
    (hq3 : pct (3 / 4) (usable data (some lo) (some hi)) = some q3)
    (hq1 : pct (1 / 4) (usable data (some lo) (some hi)) = some q1)
    (hw : 0 < 2 * (q3 - q1) * croot (usable data (some lo) (some hi)).length) (hle : lo ≤ hi)
    (hmin : (nmin : K) ≤ (hi - lo) / (2 * (q3 - q1) * croot (usable data (some lo) (some hi)).length))
    (hmax : (hi - lo) / (2 * (q3 - q1) * croot (usable data (some lo) (some hi)).length) ≤ (nmax : K)) :
    optimalBins croot data (some lo) (some hi) nmax nmin =
      ⌊(hi - lo) / (2 * (q3 - q1) * croot (usable data (some lo) (some hi)).length)⌋ := by
  unfold optimalBins
  have hu := usable_eq data (some lo) (some hi) lo hi rfl rfl
  simp only [Option.orElse_eq_orElse, Option.orElse_some]
  rw [hu, hq3, hq1]
  simp only [fdiv]
  rw [if_neg (ne_of_gt hw)]
  simp only [limitBins]
  rw [if_neg (not_lt.mpr hmax), if_neg (not_lt.mpr hmin), trunc, if_pos (div_nonneg (by linarith) hw.le)]

/-- Eight values, cube root 2: width 2 * 3.5 / 2. -/
example : optimalBins (K := ℚ) (fun _ => 1 / 2) [some 1, some 2, some 3, some 4, none, some 5, some 6, some 7, some 8]
    none none 200 1 = 2 := by decide +kernel

end Verif.Bins
