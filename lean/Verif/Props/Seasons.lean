import Mathlib.Algebra.Order.Field.Basic
import Mathlib.Algebra.Order.BigOperators.Group.List
import Mathlib.Tactic.Linarith
import Mathlib.Tactic.Ring
import Mathlib.Tactic.NormNum
import Mathlib.Tactic.Positivity
import Mathlib.Tactic.FieldSimp
import Mathlib.Data.Rat.Cast.Order
import Verif.Model.Seasons
import Verif.Lemmas.NumpyMore

/-! # C93, C94: seasons -/

namespace Verif.Seasons

open Verif.Np

section Edges
variable {α ι : Type*} [LinearOrder α]

/-- In a sorted list, the entries of a lower part come first. -/
theorem lt_countP_iff (l : List α) (hs : l.Pairwise (· ≤ ·)) (p : α → Bool) (hp : ∀ a b, a ≤ b → p b = true → p a = true)
    (i : Nat) (hi : i < l.length) : i < l.countP p ↔ p l[i] = true := by
  induction l generalizing i with
  | nil => simp at hi
  | cons a l ih =>
    rw [List.pairwise_cons] at hs
    by_cases ha : p a = true
    · rw [List.countP_cons_of_pos ha]
      cases i with
      | zero => simp [ha]
      | succ i =>
        rw [Nat.add_lt_add_iff_right]
        exact ih hs.2 i (by simpa using hi)
    · rw [List.countP_cons_of_neg ha]
      have h0 : l.countP p = 0 := by
        rw [List.countP_eq_zero]
        intro b hb hb'
        exact ha (hp a b (hs.1 b hb) hb')
      rw [h0]
      constructor
      · intro h
        exact absurd h (Nat.not_lt_zero _)
      · intro h
        exfalso
        cases i with
        | zero => exact ha h
        | succ i => exact ha (hp a _ (hs.1 _ (List.getElem_mem _)) h)

theorem slice_filter (s : List ι) (key : ι → α) (hs : s.Pairwise (fun a b => key a ≤ key b)) (n : α) :
    pySlice s (searchsortedLeft (s.map key) n) (searchsortedRight (s.map key) n) = s.filter (fun v => decide (key v = n)) := by
  have hs' : (s.map key).Pairwise (· ≤ ·) := by simpa [List.pairwise_map] using hs
  rw [searchsortedLeft_eq_countP hs', searchsortedRight_eq_countP hs', List.countP_map, List.countP_map]
  unfold pySlice
  clear hs'
  induction s with
  | nil => rfl
  | cons v s ih =>
    rw [List.pairwise_cons] at hs
    have ih := ih hs.2
    rcases lt_trichotomy (key v) n with h | h | h
    · rw [List.countP_cons_of_pos (by simpa using h), List.countP_cons_of_pos (by simpa using le_of_lt h),
        List.filter_cons_of_neg (by simpa using ne_of_lt h), List.take_succ_cons, List.drop_succ_cons]
      exact ih
    · rw [List.countP_cons_of_neg (by simp [h]), List.countP_cons_of_pos (by simp [h]),
        List.filter_cons_of_pos (by simpa using h), List.take_succ_cons]
      have h0 : s.countP ((fun x => decide (x < n)) ∘ key) = 0 := by
        rw [List.countP_eq_zero]
        intro b hb
        simpa [← h] using hs.1 b hb
      rw [h0] at ih ⊢
      rw [List.drop_zero] at ih ⊢
      rw [ih]
    · have h0 : ∀ b ∈ s, n < key b := fun b hb => lt_of_lt_of_le h (hs.1 b hb)
      have h1 : s.countP ((fun x => decide (x < n)) ∘ key) = 0 := by
        rw [List.countP_eq_zero]
        intro b hb
        simpa using le_of_lt (h0 b hb)
      have h2 : s.countP ((fun x => decide (x ≤ n)) ∘ key) = 0 := by
        rw [List.countP_eq_zero]
        intro b hb
        simpa using h0 b hb
      rw [List.countP_cons_of_neg (by simpa using le_of_lt h), List.countP_cons_of_neg (by simpa using h),
        List.filter_cons_of_neg (by simpa using ne_of_gt h), h1, h2]
      rw [h1, h2] at ih
      simpa using ih

end Edges

/-! ## C93 -/

theorem mem_uniqueInt (xs : List Int) (n : Int) : n ∈ uniqueInt xs ↔ n ∈ xs := by
  unfold uniqueInt
  rw [(sort_perm _).mem_iff, List.mem_dedup]

theorem uniqueInt_sorted (xs : List Int) : (uniqueInt xs).Pairwise (· < ·) := by
  have h1 := sort_sorted xs.dedup
  have h2 : (sort xs.dedup).Nodup := (sort_perm _).nodup_iff.mpr (List.nodup_dedup xs)
  unfold uniqueInt
  exact (h1.and h2).imp (fun h => lt_of_le_of_ne h.1 h.2)

/-- Edge `k` belongs to season `k` in increasing order, and the positions between first
and last are exactly those of visits of that season. -/
theorem edges_spec (seasons : List Int) (hs : seasons.Pairwise (· ≤ ·)) :
    (findSeasonEdges seasons).length = (uniqueInt seasons).length ∧
    ∀ (k : Nat) (n : Int), (uniqueInt seasons)[k]? = some n → ∃ first last : Nat, (findSeasonEdges seasons)[k]? = some (first, last) ∧
      first ≤ last ∧ last < seasons.length ∧ ∀ i : Nat, seasons[i]? = some n ↔ first ≤ i ∧ i ≤ last := by
  refine ⟨by simp [findSeasonEdges], ?_⟩
  intro k n hk
  have hmem : n ∈ seasons := (mem_uniqueInt _ _).mp (List.mem_of_getElem? hk)
  have hR := searchsortedRight_eq_countP hs n
  have hL := searchsortedLeft_eq_countP hs n
  have hRle : seasons.countP (fun x => decide (x ≤ n)) ≤ seasons.length := List.countP_le_length
  obtain ⟨j, hj, hjn⟩ := List.getElem_of_mem hmem
  have key : ∀ i (hi : i < seasons.length), (i < searchsortedRight seasons n ↔ seasons[i] ≤ n) ∧
      (i < searchsortedLeft seasons n ↔ seasons[i] < n) := by
    intro i hi
    rw [hR, hL]
    constructor
    · rw [lt_countP_iff seasons hs _ (by intro a b hab; simp only [decide_eq_true_eq]; exact le_trans hab) i hi]
      simp
    · rw [lt_countP_iff seasons hs _ (by intro a b hab; simp only [decide_eq_true_eq]; exact lt_of_le_of_lt hab) i hi]
      simp
  have hj1 : j < searchsortedRight seasons n := (key j hj).1.mpr (le_of_eq hjn)
  have hj2 : ¬ j < searchsortedLeft seasons n := by
    rw [(key j hj).2, hjn]
    exact lt_irrefl n
  refine ⟨searchsortedLeft seasons n, searchsortedRight seasons n - 1, ?_, by omega, by omega, ?_⟩
  · simp [findSeasonEdges, hk]
  · intro i
    constructor
    · intro hi
      obtain ⟨hi1, hi2⟩ := List.getElem?_eq_some_iff.mp hi
      have h1 := (key i hi1).1.mpr (le_of_eq hi2)
      have h2 : ¬ i < searchsortedLeft seasons n := by
        rw [(key i hi1).2, hi2]
        exact lt_irrefl n
      omega
    · rintro ⟨h1, h2⟩
      have hi : i < seasons.length := by omega
      have h3 := (key i hi).1.mp (by omega)
      have h4 := (key i hi).2.not.mp (by omega)
      rw [List.getElem?_eq_getElem hi, le_antisymm h3 (not_lt.mp h4)]

/-- Every visit is in exactly one season. -/
theorem edges_tile (seasons : List Int) (hs : seasons.Pairwise (· ≤ ·)) (i : Nat) (hi : i < seasons.length) :
    ∃ k first last : Nat, (findSeasonEdges seasons)[k]? = some (first, last) ∧ first ≤ i ∧ i ≤ last ∧
      ∀ k' first' last' : Nat, (findSeasonEdges seasons)[k']? = some (first', last') → first' ≤ i → i ≤ last' → k' = k := by
  obtain ⟨hlen, hspec⟩ := edges_spec seasons hs
  obtain ⟨k, hk, hkn⟩ := List.getElem_of_mem ((mem_uniqueInt _ _).mpr (List.getElem_mem hi))
  obtain ⟨first, last, h1, _, _, h4⟩ := hspec k seasons[i] (by rw [List.getElem?_eq_getElem hk, hkn])
  obtain ⟨h5, h6⟩ := (h4 i).mp (List.getElem?_eq_getElem hi)
  refine ⟨k, first, last, h1, h5, h6, ?_⟩
  intro k' first' last' hk' hf hl
  obtain ⟨hk'', _⟩ := List.getElem?_eq_some_iff.mp hk'
  rw [hlen] at hk''
  obtain ⟨f, l, g1, _, _, g4⟩ := hspec k' _ (List.getElem?_eq_getElem hk'')
  rw [hk'] at g1
  simp only [Option.some.injEq, Prod.mk.injEq] at g1
  obtain ⟨rfl, rfl⟩ := g1
  have := (g4 i).mpr ⟨hf, hl⟩
  rw [List.getElem?_eq_getElem hi, Option.some.injEq] at this
  have hnd : (uniqueInt seasons).Nodup := (uniqueInt_sorted seasons).imp (fun h => ne_of_lt h)
  exact (List.Nodup.getElem_inj_iff hnd).mp (by rw [hkn, ← this])

variable {K : Type*}

/-- The length of a season is the time from its first to its last visit. -/
theorem seasonLengths_spec [Sub K] [LinearOrder K] (s : List (Obs K)) (ht : s.Pairwise (fun a b => a.mjd ≤ b.mjd))
    (hs : s.Pairwise (fun a b => a.season ≤ b.season)) (k : Nat) (n : Int)
    (hk : (uniqueInt (s.map (·.season)))[k]? = some n) :
    ∃ a ∈ s, ∃ b ∈ s, a.season = n ∧ b.season = n ∧ (seasonLengths s)[k]? = some (some (b.mjd - a.mjd)) ∧
      ∀ c ∈ s, c.season = n → a.mjd ≤ c.mjd ∧ c.mjd ≤ b.mjd := by
  obtain ⟨first, last, h1, h2, h3, h4⟩ := (edges_spec (s.map (·.season)) (by simpa [List.pairwise_map] using hs)).2 k n hk
  rw [List.length_map] at h3
  have hf := (h4 first).mpr ⟨le_rfl, h2⟩
  have hl := (h4 last).mpr ⟨h2, le_rfl⟩
  rw [List.getElem?_map, List.getElem?_eq_getElem (by omega), Option.map_some, Option.some.injEq] at hf hl
  have htt := List.pairwise_iff_getElem.mp ht
  refine ⟨s[first], List.getElem_mem _, s[last], List.getElem_mem _, hf, hl, ?_, ?_⟩
  · unfold seasonLengths
    rw [List.getElem?_map, h1, Option.map_some]
    simp only [List.getElem?_eq_getElem h3, List.getElem?_eq_getElem (show first < s.length by omega)]
  · intro c hc hcn
    obtain ⟨i, hi, rfl⟩ := List.getElem_of_mem hc
    obtain ⟨h5, h6⟩ := (h4 i).mp (by rw [List.getElem?_map, List.getElem?_eq_getElem hi, Option.map_some, hcn])
    constructor
    · rcases Nat.lt_or_eq_of_le h5 with h | h
      · exact htt first i (by omega) hi h
      · subst h
        exact le_rfl
    · rcases Nat.lt_or_eq_of_le h6 with h | h
      · exact htt i last hi h3 h
      · subst h
        exact le_rfl

/-- The campaign is as long as there are seasons with a visit. -/
theorem campaignLength_spec (s : List (Obs K)) (ns : List Int) (hd : ns.Nodup) (hn : ∀ n, n ∈ ns ↔ ∃ v ∈ s, v.season = n) :
    campaignLength s = ns.length := by
  unfold campaignLength
  apply List.Perm.length_eq
  rw [List.perm_ext_iff_of_nodup ((uniqueInt_sorted _).imp (fun h => ne_of_lt h)) hd]
  intro n
  rw [mem_uniqueInt, hn, List.mem_map]

/-- A visit of exactly the minimum exposure time does not count. -/
theorem long_spec [LinearOrder K] (minExp : K) (visits : List (Obs K)) (v : Obs K) :
    v ∈ long minExp visits ↔ v ∈ visits ∧ minExp < v.expTime := by
  simp [long]

example : findSeasonEdges [0, 0, 1, 3, 3, 3] = [(0, 1), (2, 2), (3, 5)] := by decide

/-! ## C94 -/

section Frequency
variable [Field K] [LinearOrder K] [IsStrictOrderedRing K]

/-- The different nights of a season, in order. -/
def nightsOf (s : List (Obs K)) (n : Int) : List Int := uniqueInt ((s.filter (fun v => decide (v.season = n))).map (·.night))

/-- The mean separation of nights that are in order. -/
def separation : List Int → K
  | [] => 0
  | [_] => 0
  | a :: b :: l => (((b :: l).getLast (by simp) - a : Int) : K) / ((l.length + 1 : Nat) : K)

omit [LinearOrder K] [IsStrictOrderedRing K] in
theorem mean_diff (l : List Int) :
    (if 0 < (diff l).length then mean ((diff l).map (fun d : Int => (d : K))) else 0) = separation (K := K) l := by
  match l with
  | [] => rfl
  | [_] => rfl
  | a :: b :: l =>
    have hsum : ∀ m : List Int, (m.map (fun d : Int => (d : K))).sum = ((m.sum : Int) : K) := by
      intro m
      induction m with
      | nil => simp
      | cons x m ih => simp [ih]
    have hl : (diff (a :: b :: l)).length = l.length + 1 := by simp [diff_length]
    have e : (a :: b :: l).getLast (by simp) = (b :: l).getLast (by simp) := List.getLast_cons _
    rw [if_pos (by omega), mean, hsum, diff_sum, List.length_map, hl, e]
    rfl

omit [LinearOrder K] [IsStrictOrderedRing K] in
/-- The result is the mean over the seasons of the mean separation of their nights, where
a season with one night counts as zero. -/
theorem meanFrequency_spec (s : List (Obs K)) (hs : s.Pairwise (fun a b => a.season ≤ b.season)) :
    meanFrequency s = mean ((uniqueInt (s.map (·.season))).map (fun n => separation (nightsOf s n))) := by
  unfold meanFrequency findSeasonEdges
  rw [List.map_map]
  congr 1
  apply List.map_congr_left
  intro n hn
  rw [mem_uniqueInt] at hn
  simp only [Function.comp, seasonMean]
  have hs' : (s.map (·.season)).Pairwise (· ≤ ·) := by simpa [List.pairwise_map] using hs
  have hpos : 0 < searchsortedRight (s.map (·.season)) n := by
    rw [searchsortedRight_eq_countP hs']
    exact List.countP_pos_iff.mpr ⟨n, hn, by simp⟩
  have hsl := slice_filter s (·.season) hs n
  rw [Nat.sub_add_cancel hpos, hsl]
  unfold nightsOf
  by_cases h : searchsortedLeft (s.map (·.season)) n < searchsortedRight (s.map (·.season)) n - 1
  · rw [if_pos h]
    exact mean_diff _
  · rw [if_neg h]
    have hlen : (s.filter (fun v => decide (v.season = n))).length ≤ 1 := by
      rw [← hsl]
      unfold pySlice
      rw [List.length_drop, List.length_take]
      omega
    generalize s.filter (fun v => decide (v.season = n)) = f at hlen
    match f, hlen with
    | [], _ => rfl
    | [v], _ =>
      have : uniqueInt [v.night] = [v.night] := by
        unfold uniqueInt
        simp [sort]
      simp only [List.map_cons, List.map_nil, this]
      rfl

/-- "The mean separation between nights, within a season": if different nights of a
season are at least `g` apart, so is the result. -/
def FrequencyBound : Prop :=
  ∀ (s : List (Obs ℚ)) (g : Int), s ≠ [] → s.Pairwise (fun a b => a.season ≤ b.season) →
    (∀ a ∈ s, ∀ b ∈ s, a.season = b.season → a.night < b.night → g ≤ b.night - a.night) →
    (∃ a ∈ s, ∃ b ∈ s, a.season = b.season ∧ a.night < b.night) → (g : ℚ) ≤ meanFrequency s

theorem frequency_false : ¬ FrequencyBound := by
  intro h
  have := h [⟨0, 0, 30, 0⟩, ⟨10, 10, 30, 0⟩, ⟨400, 400, 30, 1⟩] 10 (by simp) (by decide) (by decide) (by decide)
  have e : meanFrequency (K := ℚ) [⟨0, 0, 30, 0⟩, ⟨10, 10, 30, 0⟩, ⟨400, 400, 30, 1⟩] = 5 := by decide +kernel
  rw [e] at this
  norm_num at this

theorem separation_ge (l : List Int) (g : Int) (hl : 2 ≤ l.length) (hg : l.Pairwise (fun a b => g ≤ b - a)) :
    (g : K) ≤ separation l := by
  match l, hl with
  | a :: b :: l, _ =>
    have key : ∀ (a b : Int) (l : List Int), (a :: b :: l).Pairwise (fun a b => g ≤ b - a) →
        g * (l.length + 1 : Nat) ≤ (b :: l).getLast (by simp) - a := by
      intro a b l
      induction l generalizing a b with
      | nil =>
        intro h
        simpa using h
      | cons c l ih =>
        intro h
        rw [List.pairwise_cons] at h
        have h1 := ih b c h.2
        have h2 := h.1 b (by simp)
        rw [List.getLast_cons (by simp)]
        push_cast [List.length_cons] at h1 ⊢
        linarith
    have := key a b l hg
    simp only [separation]
    rw [le_div_iff₀ (by positivity)]
    exact_mod_cast this

theorem mean_ge (l : List K) (g : K) (hne : l ≠ []) (h : ∀ x ∈ l, g ≤ x) : g ≤ mean l := by
  have hpos : (0 : K) < l.length := by exact_mod_cast List.length_pos_of_ne_nil hne
  unfold mean
  rw [le_div_iff₀ hpos]
  have := List.card_nsmul_le_sum l g h
  rw [nsmul_eq_mul] at this
  linarith

/-- It holds if every season has two nights. -/
theorem frequency_partial (s : List (Obs K)) (g : Int) (hne : s ≠ []) (hs : s.Pairwise (fun a b => a.season ≤ b.season))
    (hg : ∀ a ∈ s, ∀ b ∈ s, a.season = b.season → a.night < b.night → g ≤ b.night - a.night)
    (h2 : ∀ a ∈ s, ∃ b ∈ s, b.season = a.season ∧ b.night ≠ a.night) : (g : K) ≤ meanFrequency s := by
  rw [meanFrequency_spec s hs]
  apply mean_ge
  · obtain ⟨v, hv⟩ := List.exists_mem_of_ne_nil s hne
    intro h
    rw [List.map_eq_nil_iff] at h
    have : v.season ∈ uniqueInt (s.map (·.season)) := (mem_uniqueInt _ _).mpr (List.mem_map_of_mem hv)
    rw [h] at this
    simp at this
  · intro x hx
    obtain ⟨n, hn, rfl⟩ := List.mem_map.mp hx
    rw [mem_uniqueInt, List.mem_map] at hn
    obtain ⟨v, hv, rfl⟩ := hn
    have hmem : ∀ m, m ∈ nightsOf s v.season ↔ ∃ w ∈ s, w.season = v.season ∧ w.night = m := by
      intro m
      unfold nightsOf
      rw [mem_uniqueInt, List.mem_map]
      constructor
      · rintro ⟨w, hw, rfl⟩
        rw [List.mem_filter] at hw
        exact ⟨w, hw.1, by simpa using hw.2, rfl⟩
      · rintro ⟨w, hw, h1, rfl⟩
        exact ⟨w, List.mem_filter.mpr ⟨hw, by simpa using h1⟩, rfl⟩
    have hsort : (nightsOf s v.season).Pairwise (· < ·) := uniqueInt_sorted _
    apply separation_ge
    · obtain ⟨b, hb, hb1, hb2⟩ := h2 v hv
      have m1 := (hmem v.night).mpr ⟨v, hv, rfl, rfl⟩
      have m2 := (hmem b.night).mpr ⟨b, hb, hb1, rfl⟩
      match hN : nightsOf s v.season with
      | [] => rw [hN] at m1; simp at m1
      | [a] =>
        rw [hN] at m1 m2
        simp only [List.mem_singleton] at m1 m2
        exact absurd (m2.trans m1.symm) hb2
      | _ :: _ :: _ => simp
    · refine List.Pairwise.imp_of_mem ?_ hsort
      intro a b ha hb hab
      obtain ⟨w, hw, w1, rfl⟩ := (hmem a).mp ha
      obtain ⟨u, hu, u1, rfl⟩ := (hmem b).mp hb
      exact hg w hw u hu (w1.trans u1.symm) hab

example : meanFrequency (K := ℚ) [⟨0, 0, 30, 0⟩, ⟨10, 10, 30, 0⟩, ⟨14, 14, 30, 0⟩, ⟨400, 400, 30, 1⟩, ⟨403, 403, 30, 1⟩] = 5 := by
  decide +kernel

end Frequency

end Verif.Seasons
