import Mathlib.Data.List.NodupEquivFin
import Verif.Props.MoNights

/-! # C110, C111, C112: discovery of moving objects -/

namespace Verif.Mo

open Verif.Np
open Verif.Seasons (uniqueInt mem_uniqueInt uniqueInt_sorted lt_countP_iff slice_filter)

variable {K : Type*} [Field K] [LinearOrder K] [IsStrictOrderedRing K]

/-! ## Specification -/

/-- Night `d` has a tracklet: enough visible observations of that night that are, all
together, not longer than `tMax` and not shorter than `tMin` apart. -/
def Tracklet (c : Disc K) (v : List (Obs K)) (d : Int) : Prop :=
  ∃ t : List (Obs K), t.Sublist v ∧ (∀ o ∈ t, o.night = d) ∧ c.nObs ≤ t.length ∧
    (∀ x ∈ t, ∀ y ∈ t, y.mjd - x.mjd ≤ c.tMax) ∧ ∃ x ∈ t, ∃ y ∈ t, c.tMin ≤ y.mjd - x.mjd

/-- What the code looks for on the times `T` of one night: all of them, or `nObs` in a row. -/
def NightOk (c : Disc K) (T : List K) : Prop :=
  c.nObs ≤ T.length ∧ ∃ a b, T.head? = some a ∧ T.getLast? = some b ∧
    ((c.tMin ≤ b - a ∧ b - a ≤ c.tMax) ∨
     (c.tMax < b - a ∧ c.nObs < T.length ∧
      ∃ (i : Nat) (x y : K), T[i]? = some x ∧ T[i + (c.nObs - 1)]? = some y ∧ c.tMin ≤ y - x ∧ y - x ≤ c.tMax))

/-- The times of the visible observations of night `d`. -/
def timesOn (v : List (Obs K)) (d : Int) : List K := (v.filter (fun o => decide (o.night = d))).map (·.mjd)

/-! ## Lists -/

omit [Field K] [LinearOrder K] [IsStrictOrderedRing K] in
theorem index_range {β : Type*} (v : List β) : index v (List.range v.length) = v := by
  unfold index
  induction v using List.reverseRecOn with
  | nil => rfl
  | append_singleton v x ih =>
    rw [List.length_append, List.length_singleton, List.range_succ, List.filterMap_append]
    have h1 : (List.range v.length).filterMap (fun i => (v ++ [x])[i]?) = (List.range v.length).filterMap (fun i => v[i]?) := by
      apply List.filterMap_congr
      intro i hi
      rw [List.getElem?_append_left (List.mem_range.mp hi)]
    rw [h1, ih]
    simp

theorem index_of_range (n : Nat) (is : List Nat) (h : ∀ i ∈ is, i < n) : index (List.range n) is = is := by
  unfold index
  induction is with
  | nil => rfl
  | cons i is ih =>
    rw [List.filterMap_cons, List.getElem?_range (h i (by simp)), ih (fun j hj => h j (by simp [hj]))]

theorem index_map {β γ : Type*} (a : List β) (u : List γ) (f : γ → Nat) (g : γ → β) (h : ∀ x ∈ u, a[f x]? = some (g x)) :
    index a (u.map f) = u.map g := by
  unfold index
  rw [List.filterMap_map]
  induction u with
  | nil => rfl
  | cons x u ih =>
    rw [List.filterMap_cons, Function.comp, h x (by simp), List.map_cons]
    simp only
    rw [← ih (fun y hy => h y (by simp [hy]))]

section Slices
variable {α : Type*} [LinearOrder α]

theorem ss_bounds {β : Type*} (v : List β) (key : β → α) (hs : v.Pairwise (fun a b => key a ≤ key b)) (d : α) :
    searchsortedLeft (v.map key) d ≤ searchsortedRight (v.map key) d ∧ searchsortedRight (v.map key) d ≤ v.length := by
  have hs' : (v.map key).Pairwise (· ≤ ·) := by simpa [List.pairwise_map] using hs
  rw [searchsortedLeft_eq_countP hs', searchsortedRight_eq_countP hs']
  refine ⟨?_, le_trans List.countP_le_length (by simp)⟩
  apply List.countP_mono_left
  intro x _ hx
  simp only [decide_eq_true_eq] at hx ⊢
  exact hx.le

theorem slice_get {β : Type*} (v : List β) (key : β → α) (hs : v.Pairwise (fun a b => key a ≤ key b)) (d : α) (i : Nat)
    (hi : i < searchsortedRight (v.map key) d - searchsortedLeft (v.map key) d) :
    v[searchsortedLeft (v.map key) d + i]? = (v.filter (fun o => decide (key o = d)))[i]? := by
  rw [← slice_filter v key hs d]
  unfold pySlice
  rw [List.getElem?_drop, List.getElem?_take_of_lt (by omega)]

theorem slice_length {β : Type*} (v : List β) (key : β → α) (hs : v.Pairwise (fun a b => key a ≤ key b)) (d : α) :
    (v.filter (fun o => decide (key o = d))).length = searchsortedRight (v.map key) d - searchsortedLeft (v.map key) d := by
  obtain ⟨h1, h2⟩ := ss_bounds v key hs d
  rw [← slice_filter v key hs d]
  unfold pySlice
  rw [List.length_drop, List.length_take]
  omega

end Slices

/-! ## The nights that make tracklets -/

/-- The loop finds a step of the right length exactly when there are `nObs` times in a row
over such a span: the entries that wrap around are negative. -/
theorem steps_iff (c : Disc K) (hmin : 0 < c.tMin) (T : List K) (hT : T.Pairwise (· ≤ ·)) (hn : 1 ≤ c.nObs) (hl : c.nObs ≤ T.length) :
    (c.steps T).any c.inRange = true ↔
      ∃ (i : Nat) (x y : K), T[i]? = some x ∧ T[i + (c.nObs - 1)]? = some y ∧ c.tMin ≤ y - x ∧ y - x ≤ c.tMax := by
  set m := c.nObs - 1 with hm
  have hmT : m < T.length := by omega
  have hsorted := List.pairwise_iff_getElem.mp hT
  have hle : ∀ i j (hi : i < T.length) (hj : j < T.length), i ≤ j → T[i] ≤ T[j] := by
    intro i j hi hj hij
    rcases Nat.lt_or_eq_of_le hij with h | h
    · exact hsorted i j hi hj h
    · subst h
      exact le_rfl
  have hget : ∀ i (hi : i < T.length), (List.zipWith (fun a b => a - b) (T.rotate m) T)[i]? =
      some (T[(i + m) % T.length]'(Nat.mod_lt _ (by omega)) - T[i]) := by
    intro i hi
    rw [List.getElem?_eq_getElem (by simp [hi]), List.getElem_zipWith, List.getElem_rotate]
  have hlen : (List.zipWith (fun a b => a - b) (T.rotate m) T).length = T.length := by simp
  unfold Disc.steps
  rw [← hm, List.any_eq_true]
  constructor
  · rintro ⟨s, hs, hr⟩
    obtain ⟨i, hi⟩ := List.mem_iff_getElem?.mp hs
    rw [List.getElem?_dropLast] at hi
    split_ifs at hi with hid
    rw [hlen] at hid
    have hiT : i < T.length := by omega
    rw [hget i hiT, Option.some.injEq] at hi
    simp only [Disc.inRange, Bool.and_eq_true, decide_eq_true_eq] at hr
    rcases Nat.lt_or_ge (i + m) T.length with h | h
    · refine ⟨i, T[i], T[i + m], List.getElem?_eq_getElem hiT, List.getElem?_eq_getElem h, ?_⟩
      have e : (i + m) % T.length = i + m := Nat.mod_eq_of_lt h
      have e2 : T[(i + m) % T.length]'(Nat.mod_lt _ (by omega)) = T[i + m] := by simp only [e]
      rw [e2] at hi
      rw [hi]
      exact hr
    · exfalso
      have e : (i + m) % T.length = i + m - T.length := by
        rw [Nat.mod_eq_sub_mod h, Nat.mod_eq_of_lt (by omega)]
      have e2 : T[(i + m) % T.length]'(Nat.mod_lt _ (by omega)) ≤ T[i] := hle _ _ _ _ (by rw [e]; omega)
      linarith [hr.1]
  · rintro ⟨i, x, y, hx, hy, h1, h2⟩
    obtain ⟨hi, rfl⟩ := List.getElem?_eq_some_iff.mp hx
    obtain ⟨him, rfl⟩ := List.getElem?_eq_some_iff.mp hy
    have hm0 : m ≠ 0 := by
      intro h0
      simp only [h0, Nat.add_zero, sub_self] at h1
      linarith
    refine ⟨T[i + m] - T[i], ?_, ?_⟩
    · rw [List.mem_iff_getElem?]
      refine ⟨i, ?_⟩
      rw [List.getElem?_dropLast, hlen, if_pos (by omega), hget i hi]
      have e : (i + m) % T.length = i + m := Nat.mod_eq_of_lt him
      simp only [e]
    · simp only [Disc.inRange, Bool.and_eq_true, decide_eq_true_eq]
      exact ⟨h1, h2⟩

section Sorted
variable (c : Disc K) (v : List (Obs K)) (ht : v.Pairwise (fun a b => a.mjd ≤ b.mjd))
  (hs : v.Pairwise (fun a b => a.night ≤ b.night))

include ht hs

theorem goodNight_iff (hmin : 0 < c.tMin) (hn : 1 ≤ c.nObs) (d : Int) (hd : c.nObs ≤ (timesOn v d).length) :
    c.goodNight (v.map (·.mjd)) (List.range v.length)
      (searchsortedLeft (v.map (·.night)) d, searchsortedRight (v.map (·.night)) d - 1) = true ↔ NightOk c (timesOn v d) := by
  set L := searchsortedLeft (v.map (·.night)) d with hL
  set R := searchsortedRight (v.map (·.night)) d with hR
  obtain ⟨hLR, hRn⟩ := ss_bounds v (·.night) hs d
  rw [← hL, ← hR] at hLR
  rw [← hR] at hRn
  have hlen : (timesOn v d).length = R - L := by
    unfold timesOn
    rw [List.length_map]
    exact slice_length v (·.night) hs d
  have hpos : L < R := by omega
  have hTs : (timesOn v d).Pairwise (· ≤ ·) := by
    unfold timesOn
    rw [List.pairwise_map]
    exact ht.sublist List.filter_sublist
  have hget : ∀ i, i < R - L → (v.map (·.mjd))[L + i]? = (timesOn v d)[i]? := by
    intro i hi
    unfold timesOn
    rw [List.getElem?_map, List.getElem?_map, slice_get v (·.night) hs d i hi]
  have hslice : pySlice (v.map (·.mjd)) L R = timesOn v d := by
    unfold timesOn
    rw [← slice_filter v (·.night) hs d]
    unfold pySlice
    rw [List.map_drop, List.map_take]
  have hfirst : (v.map (·.mjd)).getD L 0 = (timesOn v d)[0]'(by omega) := by
    have := hget 0 (by omega)
    rw [Nat.add_zero, List.getElem?_eq_getElem (l := timesOn v d) (by omega)] at this
    rw [List.getD_eq_getElem?_getD, this, Option.getD_some]
  have hlast : (v.map (·.mjd)).getD (R - 1) 0 = (timesOn v d)[R - L - 1]'(by omega) := by
    have := hget (R - L - 1) (by omega)
    rw [show L + (R - L - 1) = R - 1 by omega, List.getElem?_eq_getElem (l := timesOn v d) (by omega)] at this
    rw [List.getD_eq_getElem?_getD, this, Option.getD_some]
  have hp1 : (List.range v.length).getD L 0 = L := by
    rw [List.getD_eq_getElem?_getD, List.getElem?_range (by omega), Option.getD_some]
  have hp2 : (List.range v.length).getD (R - 1) 0 = R - 1 := by
    rw [List.getD_eq_getElem?_getD, List.getElem?_range (by omega), Option.getD_some]
  have hhead : (timesOn v d).head? = some ((timesOn v d)[0]'(by omega)) := by
    rw [List.head?_eq_getElem?, List.getElem?_eq_getElem]
  have hlast? : (timesOn v d).getLast? = some ((timesOn v d)[R - L - 1]'(by omega)) := by
    rw [List.getLast?_eq_getElem?]
    conv_lhs => rw [hlen]
    rw [List.getElem?_eq_getElem]
  unfold Disc.goodNight
  simp only [hfirst, hlast, hp1, hp2]
  rw [show R - 1 + 1 = R by omega, hslice, Bool.or_eq_true, Bool.and_eq_true, Bool.and_eq_true,
    steps_iff c hmin (timesOn v d) hTs hn hd]
  unfold NightOk
  rw [hhead, hlast?]
  simp only [Disc.inRange, Bool.and_eq_true, decide_eq_true_eq, Option.some.injEq, exists_and_left, exists_eq_left', hlen] at hd ⊢
  constructor
  · rintro (h | h)
    · exact ⟨hd, Or.inl h⟩
    · exact ⟨hd, Or.inr ⟨h.1.2, h.1.1, h.2⟩⟩
  · rintro ⟨-, h | h⟩
    · exact Or.inl h
    · exact Or.inr ⟨⟨h.2.1, h.1⟩, h.2.2⟩

open Classical in
/-- The tracklets are those of the nights that are in order, one for each. -/
theorem tracklets_eq (hmin : 0 < c.tMin) (hn : 1 ≤ c.nObs) :
    c.tracklets v (List.range v.length) =
      ((uniqueInt (v.map (·.night))).filter (fun d => decide (NightOk c (timesOn v d)))).map (fun d =>
        (searchsortedLeft (v.map (·.night)) d, searchsortedRight (v.map (·.night)) d - 1)) := by
  have hsn : (v.map (·.night)).Pairwise (· ≤ ·) := by simpa [List.pairwise_map] using hs
  unfold Disc.tracklets
  simp only [index_range]
  rw [nightsWith_eq c.nObs _ hsn, List.filter_map, List.filter_filter]
  congr 1
  apply List.filter_congr
  intro d _
  have hc : (v.map (·.night)).count d = (timesOn v d).length := by
    unfold timesOn List.count
    rw [List.countP_map, List.length_map, ← List.countP_eq_length_filter]
    apply List.countP_congr
    intro o _
    simp
  rw [Bool.eq_iff_iff, Bool.and_eq_true, hc]
  simp only [Function.comp, decide_eq_true_eq]
  constructor
  · rintro ⟨h1, h2⟩
    exact (goodNight_iff c v ht hs hmin hn d h2).mp h1
  · intro h
    exact ⟨(goodNight_iff c v ht hs hmin hn d h.1).mpr h, h.1⟩

omit hs in
/-- Every night that counts has a tracklet. -/
theorem nightOk_sound (hn : 1 ≤ c.nObs) (d : Int) (h : NightOk c (timesOn v d)) : Tracklet c v d := by
  set w := v.filter (fun o => decide (o.night = d)) with hw
  have hwt : w.Pairwise (fun a b => a.mjd ≤ b.mjd) := ht.sublist List.filter_sublist
  have hle : ∀ i j (hi : i < w.length) (hj : j < w.length), i ≤ j → w[i].mjd ≤ w[j].mjd := by
    intro i j hi hj hij
    rcases Nat.lt_or_eq_of_le hij with h | h
    · exact List.pairwise_iff_getElem.mp hwt i j hi hj h
    · subst h
      exact le_rfl
  have hnight : ∀ o ∈ w, o.night = d := fun o ho => by simpa using (List.mem_filter.mp ho).2
  have hT : timesOn v d = w.map (·.mjd) := rfl
  rw [hT] at h
  obtain ⟨h1, a, b, ha, hb, h2⟩ := h
  rw [List.length_map] at h1
  have hpos : 0 < w.length := by omega
  have ha' : a = w[0].mjd := by
    rw [List.head?_eq_getElem?, List.getElem?_map, List.getElem?_eq_getElem hpos, Option.map_some, Option.some.injEq] at ha
    exact ha.symm
  have hb' : b = (w[w.length - 1]'(by omega)).mjd := by
    rw [List.getLast?_eq_getElem?, List.length_map, List.getElem?_map, List.getElem?_eq_getElem (by omega), Option.map_some,
      Option.some.injEq] at hb
    exact hb.symm
  rcases h2 with ⟨h2, h3⟩ | ⟨_, h3, i, x, y, hx, hy, h4, h5⟩
  · refine ⟨w, List.filter_sublist, hnight, h1, ?_, w[0], List.getElem_mem _, w[w.length - 1]'(by omega), List.getElem_mem _, ?_⟩
    · intro x hx y hy
      obtain ⟨i, hi, rfl⟩ := List.getElem_of_mem hx
      obtain ⟨j, hj, rfl⟩ := List.getElem_of_mem hy
      have g1 := hle 0 i hpos hi (by omega)
      have g2 := hle j (w.length - 1) hj (by omega) (by omega)
      rw [ha', hb'] at h3
      linarith
    · rw [← ha', ← hb']
      exact h2
  · rw [List.getElem?_map] at hx hy
    obtain ⟨ox, hox, rfl⟩ := Option.map_eq_some_iff.mp hx
    obtain ⟨oy, hoy, rfl⟩ := Option.map_eq_some_iff.mp hy
    obtain ⟨hi, rfl⟩ := List.getElem?_eq_some_iff.mp hox
    obtain ⟨hj, rfl⟩ := List.getElem?_eq_some_iff.mp hoy
    have hsub : ((w.drop i).take c.nObs).Sublist w := (List.take_sublist _ _).trans (List.drop_sublist _ _)
    have hget : ∀ k (hk : k < ((w.drop i).take c.nObs).length), ∃ hk' : i + k < w.length,
        ((w.drop i).take c.nObs)[k] = w[i + k] ∧ k < c.nObs := by
      intro k hk
      rw [List.length_take, List.length_drop] at hk
      refine ⟨by omega, ?_, by omega⟩
      rw [List.getElem_take, List.getElem_drop]
    have hlen : ((w.drop i).take c.nObs).length = c.nObs := by
      rw [List.length_take, List.length_drop]
      omega
    refine ⟨(w.drop i).take c.nObs, hsub.trans List.filter_sublist, fun o ho => hnight o (hsub.subset ho), hlen.ge, ?_, ?_⟩
    · intro x hx y hy
      obtain ⟨k, hk, rfl⟩ := List.getElem_of_mem hx
      obtain ⟨k', hk', rfl⟩ := List.getElem_of_mem hy
      obtain ⟨g1, g2, g3⟩ := hget k hk
      obtain ⟨g4, g5, g6⟩ := hget k' hk'
      rw [g2, g5]
      have g7 := hle i (i + k) hi g1 (by omega)
      have g8 := hle (i + k') (i + (c.nObs - 1)) g4 hj (by omega)
      linarith
    · have m1 := List.getElem_mem (l := (w.drop i).take c.nObs) (n := 0) (by omega)
      have m2 := List.getElem_mem (l := (w.drop i).take c.nObs) (n := c.nObs - 1) (by omega)
      obtain ⟨_, e1, _⟩ := hget 0 (by omega)
      obtain ⟨_, e2, _⟩ := hget (c.nObs - 1) (by omega)
      refine ⟨_, m1, _, m2, ?_⟩
      rw [e1, e2]
      simpa using h4

end Sorted

/-! ## Tracks -/

theorem index_map_left {β γ : Type*} (f : β → γ) (a : List β) (is : List Nat) : index (a.map f) is = (index a is).map f := by
  unfold index
  rw [List.map_filterMap]
  apply List.filterMap_congr
  intro i _
  rw [List.getElem?_map]

theorem index_length {β : Type*} (a : List β) (is : List Nat) (h : ∀ i ∈ is, i < a.length) : (index a is).length = is.length := by
  unfold index
  induction is with
  | nil => rfl
  | cons i is ih =>
    rw [List.filterMap_cons, List.getElem?_eq_getElem (h i (by simp)), List.length_cons, List.length_cons,
      ih (fun j hj => h j (by simp [hj]))]

theorem index_filter {β : Type*} (f : β → Bool) (a : List β) (g : Nat → Bool) (hg : ∀ i (hi : i < a.length), g i = f a[i]) :
    index a ((List.range a.length).filter g) = a.filter f := by
  unfold index
  induction a using List.reverseRecOn generalizing g with
  | nil => rfl
  | append_singleton a x ih =>
    rw [List.length_append, List.length_singleton, List.range_succ, List.filter_append, List.filterMap_append, List.filter_append]
    have h1 : ((List.range a.length).filter g).filterMap (fun i => (a ++ [x])[i]?) = ((List.range a.length).filter g).filterMap (fun i => a[i]?) := by
      apply List.filterMap_congr
      intro i hi
      rw [List.getElem?_append_left (List.mem_range.mp (List.mem_filter.mp hi).1)]
    rw [h1, ih g (fun i hi => by rw [hg i (by simp; omega), List.getElem_append_left hi])]
    congr 1
    have h2 := hg a.length (by simp)
    simp only [List.getElem_concat_length] at h2
    by_cases hx : f x = true
    · rw [List.filter_cons_of_pos (by rw [h2]; exact hx), List.filter_cons_of_pos hx]
      simp
    · rw [List.filter_cons_of_neg (by rw [h2]; exact hx), List.filter_cons_of_neg hx]
      simp

/-- A list of nights has at least `k` of them from its entry `i` on and within `w` exactly
when the entry `k - 1` later is within `w`. -/
theorem window_iff (G : List Int) (hG : G.Pairwise (· < ·)) (k : Nat) (hk : 1 ≤ k) (w : Int) (hw : 0 ≤ w) (i : Nat) (hi : i < G.length) :
    k ≤ G.countP (fun e => decide (G[i] ≤ e) && decide (e ≤ G[i] + w)) ↔
      ∃ h : i + (k - 1) < G.length, G[i + (k - 1)] ≤ G[i] + w := by
  have hle : G.Pairwise (· ≤ ·) := hG.imp (fun h => h.le)
  have hget := List.pairwise_iff_getElem.mp hG
  have e1 : G.countP (fun e => decide (G[i] ≤ e) && decide (e ≤ G[i] + w)) + i = G.countP (fun e => decide (e ≤ G[i] + w)) := by
    have hsplit := List.take_append_drop i G
    have c1 : (G.take i).countP (fun e => decide (G[i] ≤ e) && decide (e ≤ G[i] + w)) = 0 := by
      rw [List.countP_eq_zero]
      intro x hx
      obtain ⟨j, hj, rfl⟩ := List.getElem_of_mem hx
      rw [List.length_take] at hj
      have := hget j i (by omega) hi (by omega)
      rw [List.getElem_take]
      simp
      omega
    have c2 : (G.take i).countP (fun e => decide (e ≤ G[i] + w)) = i := by
      have : (G.take i).countP (fun e => decide (e ≤ G[i] + w)) = (G.take i).length := by
        rw [List.countP_eq_length]
        intro x hx
        obtain ⟨j, hj, rfl⟩ := List.getElem_of_mem hx
        rw [List.length_take] at hj
        have := hget j i (by omega) hi (by omega)
        rw [List.getElem_take]
        simp
        omega
      rw [this, List.length_take]
      omega
    have c3 : (G.drop i).countP (fun e => decide (G[i] ≤ e) && decide (e ≤ G[i] + w)) = (G.drop i).countP (fun e => decide (e ≤ G[i] + w)) := by
      apply List.countP_congr
      intro x hx
      obtain ⟨j, hj, rfl⟩ := List.getElem_of_mem hx
      rw [List.length_drop] at hj
      rw [List.getElem_drop]
      have : G[i] ≤ G[i + j] := by
        rcases Nat.eq_zero_or_pos j with h0 | h0
        · subst h0
          exact le_rfl
        · exact (hget i (i + j) hi (by omega) (by omega)).le
      simp [this]
    have d1 := congrArg (List.countP (fun e => decide (G[i] ≤ e) && decide (e ≤ G[i] + w))) hsplit
    have d2 := congrArg (List.countP (fun e => decide (e ≤ G[i] + w))) hsplit
    rw [List.countP_append] at d1 d2
    omega
  have hc : G.countP (fun e => decide (e ≤ G[i] + w)) ≤ G.length := List.countP_le_length
  constructor
  · intro h
    have hl : i + (k - 1) < G.length := by omega
    refine ⟨hl, ?_⟩
    have := (lt_countP_iff G hle (fun e => decide (e ≤ G[i] + w)) (by simp only [decide_eq_true_eq]; omega) (i + (k - 1)) hl).mp (by omega)
    simpa using this
  · rintro ⟨hl, h⟩
    have := (lt_countP_iff G hle (fun e => decide (e ≤ G[i] + w)) (by simp only [decide_eq_true_eq]; omega) (i + (k - 1)) hl).mpr
      (by simpa using h)
    omega

/-- Night `d` starts a chance: with the nights `G`, enough of them from `d` to `d + w`. -/
def starts (k : Nat) (w : Int) (G : List Int) (d : Int) : Bool :=
  decide (k ≤ G.countP (fun e => decide (d ≤ e) && decide (e ≤ d + w)))

theorem delta_iff (G : List Int) (hG : G.Pairwise (· < ·)) (k : Nat) (hk : 1 ≤ k) (hkG : k ≤ G.length) (w : Int) (hw : 0 ≤ w)
    (i : Nat) (hi : i < G.length) :
    (match (List.zipWith (fun a b => a - b) (G.rotate (k - 1)) G)[i]? with
      | some x => decide (0 ≤ x) && decide (x ≤ w) | none => false) = starts k w G G[i] := by
  have hget := List.pairwise_iff_getElem.mp hG
  rw [List.getElem?_eq_getElem (by simp [hi]), List.getElem_zipWith, List.getElem_rotate]
  unfold starts
  rw [Bool.eq_iff_iff, decide_eq_true_eq, window_iff G hG k hk w hw i hi]
  simp only [Bool.and_eq_true, decide_eq_true_eq]
  rcases Nat.lt_or_ge (i + (k - 1)) G.length with h | h
  · have e : (i + (k - 1)) % G.length = i + (k - 1) := Nat.mod_eq_of_lt h
    simp only [e]
    have h0 : G[i] ≤ G[i + (k - 1)] := by
      rcases Nat.eq_zero_or_pos (k - 1) with hz | hz
      · simp [hz]
      · exact (hget i (i + (k - 1)) hi h (by omega)).le
    constructor
    · rintro ⟨_, h2⟩
      exact ⟨h, by omega⟩
    · rintro ⟨_, h2⟩
      exact ⟨by omega, by omega⟩
  · have e : (i + (k - 1)) % G.length = i + (k - 1) - G.length := by
      rw [Nat.mod_eq_sub_mod h, Nat.mod_eq_of_lt (by omega)]
    have h0 := hget (i + (k - 1) - G.length) i (by omega) hi (by omega)
    simp only [e]
    constructor
    · rintro ⟨h1, _⟩
      omega
    · rintro ⟨h1, _⟩
      omega

/-- The last entry within `w` of `x`. -/
theorem last_within (G : List Int) (hG : G.Pairwise (· < ·)) (w : Int) (hw : 0 ≤ w) (s : Nat) (hs : s < G.length) :
    ∃ (e : Nat) (he : e < G.length), ((List.range G.length).filter (fun i => decide (G.getD i 0 - G.getD s 0 ≤ w))).foldl max 0 = e ∧
      G[e] ≤ G[s] + w ∧ ∀ d ∈ G, d ≤ G[s] + w → d ≤ G[e] := by
  have hget := List.pairwise_iff_getElem.mp hG
  have hD : ∀ i (hi : i < G.length), G.getD i 0 = G[i] := by
    intro i hi
    rw [List.getD_eq_getElem?_getD, List.getElem?_eq_getElem hi, Option.getD_some]
  set F := (List.range G.length).filter (fun i => decide (G.getD i 0 - G.getD s 0 ≤ w)) with hF
  have hmem : ∀ i, i ∈ F ↔ ∃ hi : i < G.length, G[i] ≤ G[s] + w := by
    intro i
    rw [hF, List.mem_filter, List.mem_range, decide_eq_true_eq, hD s hs]
    constructor
    · rintro ⟨h1, h2⟩
      rw [hD i h1] at h2
      exact ⟨h1, by omega⟩
    · rintro ⟨h1, h2⟩
      rw [hD i h1]
      exact ⟨h1, by omega⟩
  have hfold : ∀ (l : List Nat) (a : Nat), l.foldl max a ∈ a :: l ∧ ∀ x ∈ a :: l, x ≤ l.foldl max a := by
    intro l
    induction l with
    | nil => intro a; simp
    | cons b l ih =>
      intro a
      obtain ⟨h1, h2⟩ := ih (max a b)
      rw [List.foldl_cons]
      constructor
      · rcases List.mem_cons.mp h1 with h | h
        · rw [h]
          rcases max_choice a b with h3 | h3 <;> rw [h3] <;> simp
        · simp [h]
      · intro x hx
        have h3 := h2 (max a b) (by simp)
        rcases List.mem_cons.mp hx with rfl | hx
        · exact le_trans (le_max_left _ _) h3
        · rcases List.mem_cons.mp hx with rfl | hx
          · exact le_trans (le_max_right _ _) h3
          · exact h2 x (by simp [hx])
  obtain ⟨h1, h2⟩ := hfold F 0
  have hsF : s ∈ F := (hmem s).mpr ⟨hs, by omega⟩
  have hin : F.foldl max 0 ∈ F := by
    rcases List.mem_cons.mp h1 with h | h
    · have := h2 s (by simp [hsF])
      rw [h] at this ⊢
      have h0 : s = 0 := by omega
      rw [← h0]
      exact hsF
    · exact h
  obtain ⟨he, hle⟩ := (hmem _).mp hin
  refine ⟨F.foldl max 0, he, rfl, hle, ?_⟩
  intro d hd hdw
  obtain ⟨j, hj, rfl⟩ := List.getElem_of_mem hd
  have := h2 j (by simp [(hmem j).mpr ⟨hj, hdw⟩])
  rcases Nat.lt_or_eq_of_le this with h | h
  · exact (hget j _ hj he h).le
  · simp only [h]
    exact le_rfl

section Run
variable (c : Disc K) (v : List (Obs K)) (ht : v.Pairwise (fun a b => a.mjd ≤ b.mjd))
  (hs : v.Pairwise (fun a b => a.night ≤ b.night)) (hmin : 0 < c.tMin) (hn : 1 ≤ c.nObs) (hk : 1 ≤ c.nNights) (hw : 0 ≤ c.tWindow)
  (G : List Int) (hG : G.Pairwise (· < ·)) (hmem : ∀ d, d ∈ G ↔ NightOk c (timesOn v d))

include ht hs hmin hn hk hG hmem

theorem run_eq : c.run v (List.range v.length) =
    c.tracks v (G.map (fun d => searchsortedLeft (v.map (·.night)) d)) (G.map (fun d => searchsortedRight (v.map (·.night)) d - 1)) := by
  classical
  have hnight : ∀ d ∈ G, d ∈ v.map (·.night) ∧ searchsortedLeft (v.map (·.night)) d < searchsortedRight (v.map (·.night)) d := by
    intro d hd
    have h1 := ((hmem d).mp hd).1
    have h2 := slice_length v (·.night) hs d
    unfold timesOn at h1
    rw [List.length_map] at h1
    constructor
    · have : 0 < (v.filter (fun o => decide (o.night = d))).length := by omega
      obtain ⟨o, ho⟩ := List.exists_mem_of_length_pos this
      obtain ⟨ho1, ho2⟩ := List.mem_filter.mp ho
      exact List.mem_map.mpr ⟨o, ho1, by simpa using ho2⟩
    · omega
  have hGeq : (uniqueInt (v.map (·.night))).filter (fun d => decide (NightOk c (timesOn v d))) = G := by
    have hu := (uniqueInt_sorted (v.map (·.night))).sublist
      (List.filter_sublist (p := fun d => decide (NightOk c (timesOn v d))))
    apply List.Perm.eq_of_pairwise (le := (· ≤ ·)) (fun a b _ _ h1 h2 => le_antisymm h1 h2) (hu.imp (fun h => h.le)) (hG.imp (fun h => h.le))
    rw [List.perm_ext_iff_of_nodup (hu.imp (fun h => h.ne)) (hG.imp (fun h => h.ne))]
    intro d
    rw [List.mem_filter, decide_eq_true_eq, mem_uniqueInt, ← hmem]
    exact ⟨fun h => h.2, fun h => ⟨(hnight d h).1, h⟩⟩
  unfold Disc.run
  by_cases hv : v.length = 0
  · rw [if_pos hv]
    have hG0 : G = [] := by
      rw [List.eq_nil_iff_forall_not_mem]
      intro d hd
      have := (hnight d hd).1
      rw [List.length_eq_zero_iff] at hv
      simp [hv] at this
    subst hG0
    unfold Disc.tracks
    rw [if_pos (by simp; omega)]
  · rw [if_neg hv]
    dsimp only
    rw [tracklets_eq c v ht hs hmin hn, hGeq, List.map_map, List.map_map]
    have hb := ss_bounds v (·.night) hs
    rw [index_of_range, index_of_range]
    · rfl
    · intro i hi
      obtain ⟨d, hd, rfl⟩ := List.mem_map.mp hi
      have h1 := (hnight d hd).2
      have h2 := (hb d).2
      simp only [Function.comp]
      omega
    · intro i hi
      obtain ⟨d, hd, rfl⟩ := List.mem_map.mp hi
      have h1 := (hnight d hd).2
      have h2 := (hb d).2
      simp only [Function.comp]
      omega

/-- **C111.** Nothing is found exactly if there are fewer than `n_nights_per_window` nights
with a tracklet in all. -/
theorem run_none : c.run v (List.range v.length) = none ↔ G.length < c.nNights := by
  rw [run_eq c v ht hs hmin hn hk G hG hmem]
  unfold Disc.tracks
  rw [List.length_map]
  dsimp only
  split_ifs with h <;> simp [h]

include hw

/-- **C111.** The number of chances is the number of nights with a tracklet from which, in
that night and the `t_window` following ones, enough nights have one. Only the first chance
is described: `start` is its first row, that is the number of visible rows of earlier nights,
and `end` is the last row of the last night with a tracklet in the window. -/
theorem run_some (r : Found) (h : c.run v (List.range v.length) = some r) :
    r.nChances = G.countP (starts c.nNights c.tWindow G) ∧
    (r.nChances = 0 → r.start = [] ∧ r.stop = []) ∧
    (0 < r.nChances → ∃ d0 ∈ G, ∃ d1 ∈ G, starts c.nNights c.tWindow G d0 = true ∧
      (∀ d ∈ G, starts c.nNights c.tWindow G d = true → d0 ≤ d) ∧
      d1 ≤ d0 + c.tWindow ∧ (∀ d ∈ G, d ≤ d0 + c.tWindow → d ≤ d1) ∧
      ∃ s e, r.start = [s] ∧ r.stop = [e] ∧ s = v.countP (fun o => decide (o.night < d0)) ∧
        e + 1 = v.countP (fun o => decide (o.night ≤ d1))) := by
  have hsn : (v.map (·.night)).Pairwise (· ≤ ·) := by simpa [List.pairwise_map] using hs
  have hpos : ∀ d ∈ G, searchsortedLeft (v.map (·.night)) d < searchsortedRight (v.map (·.night)) d := by
    intro d hd
    have h1 := ((hmem d).mp hd).1
    have h2 := slice_length v (·.night) hs d
    unfold timesOn at h1
    rw [List.length_map] at h1
    omega
  have hgn : (index v (G.map (fun d => searchsortedLeft (v.map (·.night)) d))).map (·.night) = G := by
    rw [← index_map_left, index_map _ G _ id]
    · simp
    · intro d hd
      rw [List.getElem?_map]
      have h1 := slice_get v (·.night) hs d 0 (by have := hpos d hd; omega)
      have h2 := slice_length v (·.night) hs d
      have h3 := hpos d hd
      beta_reduce at h1 h2
      rw [List.getElem?_eq_getElem (l := v.filter (fun o => decide (o.night = d))) (by omega), Nat.add_zero] at h1
      rw [h1]
      have h4 := List.getElem_mem (l := v.filter (fun o => decide (o.night = d))) (n := 0) (by omega)
      have h5 := (List.mem_filter.mp h4).2
      simpa using h5
  have hnone := run_none c v ht hs hmin hn hk G hG hmem
  have hlen : ¬ G.length < c.nNights := by
    intro h'
    rw [hnone.mpr h'] at h
    cases h
  rw [run_eq c v ht hs hmin hn hk G hG hmem] at h
  unfold Disc.tracks at h
  rw [List.length_map, if_neg hlen] at h
  dsimp only at h
  simp only [hgn, Option.some.injEq] at h
  have hzl : (List.zipWith (fun a b => a - b) (G.rotate (c.nNights - 1)) G).length = G.length := by simp
  rw [hzl] at h
  generalize hst : List.filter _ (List.range G.length) = st at h
  have hstlt : ∀ i ∈ st, i < G.length := fun i hi => by
    rw [← hst] at hi
    exact List.mem_range.mp (List.mem_filter.mp hi).1
  have hidx : index G st = G.filter (starts c.nNights c.tWindow G) := by
    rw [← hst]
    exact index_filter _ G _ (fun i hi => delta_iff G hG c.nNights hk (by omega) c.tWindow hw i hi)
  have hn1 : st.length = G.countP (starts c.nNights c.tWindow G) := by
    rw [← index_length G st hstlt, hidx, List.countP_eq_length_filter]
  subst h
  dsimp only
  refine ⟨hn1, ?_, ?_⟩
  · intro h0
    rw [List.length_eq_zero_iff] at h0
    rw [h0]
    exact ⟨rfl, rfl⟩
  · intro h0
    clear hst
    match hm : st with
    | [] => simp at h0
    | s :: tl =>
      have hsl : s < G.length := hstlt s (by simp)
      have hhead : G.filter (starts c.nNights c.tWindow G) = G[s] :: index G tl := by
        rw [← hidx]
        unfold index
        rw [List.filterMap_cons, List.getElem?_eq_getElem hsl]
      obtain ⟨e, hel, he1, he2, he3⟩ := last_within G hG c.tWindow hw s hsl
      have hst0 : starts c.nNights c.tWindow G G[s] = true := by
        have : G[s] ∈ G.filter (starts c.nNights c.tWindow G) := by rw [hhead]; simp
        exact (List.mem_filter.mp this).2
      refine ⟨G[s], List.getElem_mem _, G[e], List.getElem_mem _, hst0, ?_, he2, he3, ?_⟩
      · intro d hd hds
        have hsorted : (G.filter (starts c.nNights c.tWindow G)).Pairwise (· < ·) := hG.sublist List.filter_sublist
        have hdm : d ∈ G.filter (starts c.nNights c.tWindow G) := List.mem_filter.mpr ⟨hd, hds⟩
        rw [hhead] at hsorted hdm
        rcases List.mem_cons.mp hdm with h | h
        · exact h.ge
        · exact ((List.pairwise_cons.mp hsorted).1 d h).le
      · refine ⟨searchsortedLeft (v.map (·.night)) G[s], searchsortedRight (v.map (·.night)) G[e] - 1, ?_, ?_, ?_, ?_⟩
        · unfold index
          rw [List.filterMap_cons, List.getElem?_map, List.getElem?_eq_getElem hsl]
          simp
        · unfold index
          rw [List.map_cons, he1, List.filterMap_cons, List.getElem?_map, List.getElem?_eq_getElem hel]
          simp
        · rw [searchsortedLeft_eq_countP hsn, List.countP_map]
          rfl
        · have h1 := hpos G[e] (List.getElem_mem _)
          have h2 : searchsortedRight (v.map (·.night)) G[e] = v.countP (fun o => decide (o.night ≤ G[e])) := by
            rw [searchsortedRight_eq_countP hsn, List.countP_map]
            rfl
          omega

/-- **C113**, what holds: `N_Obs` is one less than the number of visible observations from
the first night of the first chance to the last night with a tracklet in its window. -/
theorem foundNObs_partial (r : Found) (h : c.run v (List.range v.length) = some r) (h0 : 0 < r.nChances) :
    ∃ d0 ∈ G, ∃ d1 ∈ G, starts c.nNights c.tWindow G d0 = true ∧ (∀ d ∈ G, starts c.nNights c.tWindow G d = true → d0 ≤ d) ∧
      d1 ≤ d0 + c.tWindow ∧ (∀ d ∈ G, d ≤ d0 + c.tWindow → d ≤ d1) ∧
      r.nObs + 1 = v.countP (fun o => decide (d0 ≤ o.night) && decide (o.night ≤ d1)) := by
  obtain ⟨_, _, h1⟩ := run_some c v ht hs hmin hn hk hw G hG hmem r h
  obtain ⟨d0, hd0, d1, hd1, h2, h3, h4, h5, s, e, hs1, he1, hs2, he2⟩ := h1 h0
  refine ⟨d0, hd0, d1, hd1, h2, h3, h4, h5, ?_⟩
  unfold Found.nObs
  rw [hs1, he1]
  dsimp only
  have hd : d0 ≤ d1 := h5 d0 hd0 (by omega)
  have key : v.countP (fun o => decide (o.night ≤ d1)) =
      v.countP (fun o => decide (o.night < d0)) + v.countP (fun o => decide (d0 ≤ o.night) && decide (o.night ≤ d1)) := by
    clear hs1 he1 hs2 he2 h h1 ht hs hmem
    induction v with
    | nil => rfl
    | cons o v ih =>
      simp only [List.countP_cons, ih, Bool.and_eq_true, decide_eq_true_eq]
      split_ifs <;> omega
  omega

/-- **C112**, what holds: for rows in time order, the child metrics take the first visible
observation of the first night of the first chance. -/
theorem foundRow_partial (r : Found) (h : c.run v (List.range v.length) = some r) (h0 : 0 < r.nChances) :
    ∃ d0 ∈ G, starts c.nNights c.tWindow G d0 = true ∧ (∀ d ∈ G, starts c.nNights c.tWindow G d = true → d0 ≤ d) ∧
      ∃ o ∈ v, r.row v (List.range v.length) = some o ∧ o.night = d0 ∧ ∀ o' ∈ v, o'.night = d0 → o.mjd ≤ o'.mjd := by
  have hsn : (v.map (·.night)).Pairwise (· ≤ ·) := by simpa [List.pairwise_map] using hs
  obtain ⟨_, _, h1⟩ := run_some c v ht hs hmin hn hk hw G hG hmem r h
  obtain ⟨d0, hd0, d1, hd1, h2, h3, h4, h5, s, e, hs1, he1, hs2, he2⟩ := h1 h0
  refine ⟨d0, hd0, h2, h3, ?_⟩
  have hlen := ((hmem d0).mp hd0).1
  unfold timesOn at hlen
  rw [List.length_map] at hlen
  have hl := slice_length v (·.night) hs d0
  beta_reduce at hl
  have hg := slice_get v (·.night) hs d0 0 (by omega)
  have hL : searchsortedLeft (v.map (·.night)) d0 = s := by
    rw [searchsortedLeft_eq_countP hsn, List.countP_map, hs2]
    rfl
  rw [hL, Nat.add_zero] at hg
  set w := v.filter (fun o => decide (o.night = d0)) with hw'
  have hmemw : w[0]'(by omega) ∈ w := List.getElem_mem _
  rw [List.getElem?_eq_getElem (l := w) (by omega)] at hg
  refine ⟨w[0]'(by omega), List.mem_of_mem_filter hmemw, ?_, by simpa using (List.mem_filter.mp hmemw).2, ?_⟩
  · unfold Found.row
    rw [hs1]
    dsimp only
    rw [index_range]
    exact hg
  · intro o' ho' hn'
    have hm : o' ∈ w := List.mem_filter.mpr ⟨ho', by simpa using hn'⟩
    obtain ⟨i, hi, rfl⟩ := List.getElem_of_mem hm
    rcases Nat.eq_zero_or_pos i with hz | hz
    · subst hz
      exact le_rfl
    · exact List.pairwise_iff_getElem.mp (ht.sublist List.filter_sublist) 0 i (Nat.lt_trans hz hi) hi hz

end Run

/-! ## C110 -/

/-- **C110**, what holds: in every night that counts, enough visible observations of the
night are not too far apart in time and not all too close. -/
theorem tracklet_partial (c : Disc K) (hn : 1 ≤ c.nObs) (v : List (Obs K)) (ht : v.Pairwise (fun a b => a.mjd ≤ b.mjd)) (d : Int)
    (h : NightOk c (timesOn v d)) : Tracklet c v d := nightOk_sound c v ht hn d h

/-- **C110**, what holds: if all observations of a night are at least `t_min` apart, and at
least two are needed, then the night counts whenever it has a tracklet. -/
theorem tracklet_complete_partial (c : Disc K) (hn : 2 ≤ c.nObs) (v : List (Obs K)) (d : Int)
    (hmin : 0 < c.tMin) (hsep : (timesOn v d).Pairwise (fun x y => c.tMin ≤ y - x)) (h : Tracklet c v d) : NightOk c (timesOn v d) := by
  obtain ⟨t, hsub, hnight, hlen, hmax, _⟩ := h
  set w := v.filter (fun o => decide (o.night = d)) with hw
  have htw : t.Sublist w := by
    have := hsub.filter (fun o => decide (o.night = d))
    rwa [List.filter_eq_self.mpr (fun o ho => by simpa using hnight o ho)] at this
  have hT : timesOn v d = w.map (·.mjd) := rfl
  rw [hT] at hsep ⊢
  obtain ⟨f, hf⟩ := List.sublist_iff_exists_orderEmbedding_getElem?_eq.mp htw
  have hstep : ∀ k, f 0 + k ≤ f k := by
    intro k
    induction k with
    | zero => simp
    | succ k ih =>
      have : f k < f (k + 1) := f.strictMono (Nat.lt_succ_self k)
      omega
  have hlt : ∀ k, k < t.length → ∃ h : f k < w.length, ∃ h' : k < t.length, w[f k] = t[k] := by
    intro k hk
    have := hf k
    rw [List.getElem?_eq_getElem hk] at this
    obtain ⟨h1, h2⟩ := List.getElem?_eq_some_iff.mp this.symm
    exact ⟨h1, hk, h2⟩
  obtain ⟨hi, _, ei⟩ := hlt 0 (by omega)
  obtain ⟨hj, _, ej⟩ := hlt (c.nObs - 1) (by omega)
  have hij := hstep (c.nObs - 1)
  have hspan : w[f (c.nObs - 1)].mjd - w[f 0].mjd ≤ c.tMax := by
    rw [ei, ej]
    exact hmax _ (List.getElem_mem _) _ (List.getElem_mem _)
  have hsepg : ∀ i j (hi : i < w.length) (hj : j < w.length), i < j → c.tMin ≤ w[j].mjd - w[i].mjd := by
    intro i j hi hj hij
    have := List.pairwise_iff_getElem.mp hsep i j (by simpa using hi) (by simpa using hj) hij
    simpa using this
  have hmono : ∀ i j (hi : i < w.length) (hj : j < w.length), i ≤ j → w[i].mjd ≤ w[j].mjd := by
    intro i j hi hj hij
    rcases Nat.lt_or_eq_of_le hij with h | h
    · have := hsepg i j hi hj h
      linarith
    · subst h
      exact le_rfl
  unfold NightOk
  rw [List.length_map]
  refine ⟨by omega, (w[0]'(by omega)).mjd, (w[w.length - 1]'(by omega)).mjd, ?_, ?_, ?_⟩
  · rw [List.head?_eq_getElem?, List.getElem?_map, List.getElem?_eq_getElem, Option.map_some]
  · rw [List.getLast?_eq_getElem?, List.length_map, List.getElem?_map, List.getElem?_eq_getElem, Option.map_some]
  · rcases le_or_gt ((w[w.length - 1]'(by omega)).mjd - (w[0]'(by omega)).mjd) c.tMax with hle | hgt
    · exact Or.inl ⟨hsepg 0 (w.length - 1) (by omega) (by omega) (by omega), hle⟩
    · refine Or.inr ⟨hgt, ?_, f 0, w[f 0].mjd, (w[f 0 + (c.nObs - 1)]'(by omega)).mjd, ?_, ?_, ?_, ?_⟩
      · by_contra hc
        have e1 : f 0 = 0 := by omega
        have e2 : f (c.nObs - 1) = w.length - 1 := by omega
        simp only [e1, e2] at hspan
        exact absurd hspan (not_le.mpr hgt)
      · rw [List.getElem?_map, List.getElem?_eq_getElem hi, Option.map_some]
      · rw [List.getElem?_map, List.getElem?_eq_getElem (by omega), Option.map_some]
      · exact hsepg _ _ _ _ (by omega)
      · have := hmono (f 0 + (c.nObs - 1)) (f (c.nObs - 1)) (by omega) hj hij
        linarith

/-- Two observations 5 to 90 minutes apart in one night, with times in minutes. -/
def pairs1 : Disc ℚ := { nObs := 2, tMin := 5, tMax := 90, nNights := 1, tWindow := 15 }

/-- The same in three nights. -/
def pairs3 : Disc ℚ := { pairs1 with nNights := 3 }

/-- **C110.** A night with a tracklet can be missed: only neighbours in time are tried, and
observations at 0, 3, 6 and 300 minutes have none between 5 and 90 minutes apart. -/
theorem tracklet_false : ¬ ∀ (c : Disc ℚ) (v : List (Obs ℚ)), v.Pairwise (fun a b => a.mjd ≤ b.mjd) → v.Pairwise (fun a b => a.night ≤ b.night) →
    c.nNights = 1 → (∃ d, Tracklet c v d) → c.run v (List.range v.length) ≠ none := by
  intro h
  refine h pairs1 [o1 0 1 9, o1 3 1 9, o1 6 1 9, o1 300 1 9] (by decide +kernel) (by decide +kernel) rfl
    ⟨1, [o1 0 1 9, o1 6 1 9], ?_, by decide +kernel, by decide +kernel, by decide +kernel, by decide +kernel⟩ (by decide +kernel)
  exact List.Sublist.cons_cons _ (List.Sublist.cons _ (List.Sublist.cons_cons _ (List.Sublist.cons _ List.Sublist.slnil)))

/-- **C110.** One observation per night is never enough, even if only one is asked for. -/
theorem single_never (c : Disc K) (hmin : 0 < c.tMin) (v : List (Obs K)) (d : Int) (h : (timesOn v d).length ≤ 1) : ¬ NightOk c (timesOn v d) := by
  rintro ⟨h1, a, b, ha, hb, h2⟩
  match ht : timesOn v d with
  | [] => rw [ht] at ha; simp at ha
  | [x] =>
    rw [ht] at ha hb h2
    simp at ha hb
    subst ha hb
    rcases h2 with ⟨h3, _⟩ | ⟨_, h3, i, p, q, hp, hq, h4, _⟩
    · rw [sub_self] at h3
      linarith
    · have hi0 : i = 0 := by
        have := (List.getElem?_eq_some_iff.mp hp).1
        simpa using this
      subst hi0
      have hi1 : c.nObs - 1 = 0 := by
        have := (List.getElem?_eq_some_iff.mp hq).1
        simpa using this
      rw [hi1] at hq
      rw [hp, Option.some.injEq] at hq
      rw [hq, sub_self] at h4
      linarith
  | x :: y :: l => rw [ht] at h; simp at h

/-! ## C112 and C113: what does not hold -/

/-- A possible result of `np.argsort` by time. -/
def TimeOrder (v : List (Obs ℚ)) (p : List Nat) : Prop :=
  p.Perm (List.range v.length) ∧ (index v p).Pairwise (fun a b => a.mjd ≤ b.mjd)

/-- **C112.** The number of chances depends on the order of the rows. -/
theorem order_false : ¬ ∀ (c : Disc ℚ) (v v' : List (Obs ℚ)) (p p' : List Nat), v.Perm v' → TimeOrder v p → TimeOrder v' p' →
    (c.run v p).map (·.nChances) = (c.run v' p').map (·.nChances) := by
  intro h
  have := h pairs1 [o1 0 1 9, o1 10 1 9, o1 200 1 9] [o1 200 1 9, o1 10 1 9, o1 0 1 9] [0, 1, 2] [2, 1, 0] (by decide +kernel)
    ⟨by decide +kernel, by decide +kernel⟩ ⟨by decide +kernel, by decide +kernel⟩
  revert this
  decide +kernel

/-- **C112.** The row used for the time of discovery need not be that of the first chance. -/
theorem row_false : ¬ ∀ (c : Disc ℚ) (v : List (Obs ℚ)) (p : List Nat) (r : Found) (o : Obs ℚ), TimeOrder v p → c.nNights = 1 →
    c.run v p = some r → r.row v p = some o → ∀ d, Tracklet c v d → o.night ≤ d := by
  intro h
  have := h pairs1 [o1 5000 4 9, o1 5010 4 9, o1 0 1 9, o1 10 1 9] [2, 3, 0, 1] ⟨[2], [1], 2⟩ (o1 5000 4 9)
    ⟨by decide +kernel, by decide +kernel⟩ rfl (by decide +kernel) (by decide +kernel) 1
    ⟨[o1 0 1 9, o1 10 1 9], ?_, by decide +kernel, by decide +kernel, by decide +kernel, by decide +kernel⟩
  · revert this
    decide +kernel
  · exact List.Sublist.cons _ (List.Sublist.cons _ (List.Sublist.refl _))

/-- **C113.** Two observations in each of three nights: `N_Obs` is 5. -/
theorem foundNObs_false : ¬ ∀ (c : Disc ℚ) (v : List (Obs ℚ)) (r : Found), TimeOrder v (List.range v.length) →
    (∀ o ∈ v, Tracklet c v o.night) → (∀ o ∈ v, ∀ o' ∈ v, o.night - o'.night ≤ c.tWindow) →
    c.run v (List.range v.length) = some r → r.nObs = v.length := by
  intro h
  have := h pairs3 [o1 0 1 9, o1 10 1 9, o1 1440 2 9, o1 1450 2 9, o1 2880 3 9, o1 2890 3 9] ⟨[0], [5], 1⟩
    ⟨by decide +kernel, by decide +kernel⟩ ?_ (by decide +kernel) (by decide +kernel)
  · revert this
    decide +kernel
  · intro o ho
    apply nightOk_sound _ _ (by decide +kernel) (by decide)
    simp only [List.mem_cons, List.not_mem_nil, or_false] at ho
    rcases ho with rfl | rfl | rfl | rfl | rfl | rfl <;> refine ⟨by decide +kernel, ?_⟩
    · exact ⟨0, 10, by decide +kernel, by decide +kernel, Or.inl (by decide +kernel)⟩
    · exact ⟨0, 10, by decide +kernel, by decide +kernel, Or.inl (by decide +kernel)⟩
    · exact ⟨1440, 1450, by decide +kernel, by decide +kernel, Or.inl (by decide +kernel)⟩
    · exact ⟨1440, 1450, by decide +kernel, by decide +kernel, Or.inl (by decide +kernel)⟩
    · exact ⟨2880, 2890, by decide +kernel, by decide +kernel, Or.inl (by decide +kernel)⟩
    · exact ⟨2880, 2890, by decide +kernel, by decide +kernel, Or.inl (by decide +kernel)⟩

/-- Tracklets in nights 1, 2, 16 and 17, a single observation in night 9 and a pair too close in
night 10: nights 1 and 2 start chances, as the window is of `t_window + 1` nights. -/
example : pairs3.run [o1 0 1 9, o1 10 1 9, o1 0 2 9, o1 10 2 9, o1 0 9 9, o1 1 10 9, o1 2 10 9, o1 0 16 9, o1 10 16 9, o1 0 17 9, o1 10 17 9]
    (List.range 11) = some ⟨[0], [8], 2⟩ := by decide +kernel

example : starts 3 15 [1, 2, 16, 17] 1 = true ∧ starts 3 15 [1, 2, 16, 17] 2 = true ∧ starts 3 15 [1, 2, 16, 17] 16 = false := by decide

end Verif.Mo
