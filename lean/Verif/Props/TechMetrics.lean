import Mathlib.Tactic.Linarith
import Mathlib.Tactic.Ring
import Mathlib.Tactic.NormNum
import Mathlib.Tactic.Push
import Mathlib.Data.List.Destutter
import Mathlib.Data.List.Dedup
import Mathlib.Algebra.Order.Field.Basic
import Mathlib.Data.Rat.Cast.Order
import Mathlib.Algebra.Order.BigOperators.Group.List
import Verif.Model.TechMetrics
import Verif.Lemmas.NumpyMore

/-! # C75-C79: changes of state, open shutter time, pairs -/

namespace Verif.Tech

open Verif.Np

/-! ## C75 -/

section Changes
variable {K V : Type*} [DecidableEq V]

@[simp] theorem changes_nil : changes ([] : List (K × V)) = [] := rfl
@[simp] theorem changes_single (a : K × V) : changes [a] = [] := rfl
@[simp] theorem changes_cons (a b : K × V) (l : List (K × V)) :
    changes (a :: b :: l) = decide (b.2 ≠ a.2) :: changes (b :: l) := rfl

theorem nChanges_cons (a b : K × V) (l : List (K × V)) :
    nChanges (a :: b :: l) = nChanges (b :: l) + if b.2 ≠ a.2 then 1 else 0 := by
  unfold nChanges
  rw [changes_cons, List.countP_cons]
  by_cases h : b.2 = a.2 <;> simp [h]

/-- **C75.** The number of changes is one less than the number of runs of equal states. -/
theorem nChanges_runs (s : List (K × V)) (hs : s ≠ []) :
    ((s.map Prod.snd).destutter (· ≠ ·)).length = nChanges s + 1 := by
  match s, hs with
  | a :: l, _ =>
    clear hs
    rw [List.map_cons, List.destutter_cons']
    induction l generalizing a with
    | nil => simp [nChanges]
    | cons b l ih =>
      rw [nChanges_cons, List.map_cons]
      by_cases h : b.2 = a.2
      · rw [List.destutter'_cons_neg _ (by simp [h]), if_neg (by simp [h]), ← ih b (by simp), h]
      · rw [List.destutter'_cons_pos _ (fun h' => h h'.symm), if_pos h, List.length_cons, ih b (by simp)]

/-- **C75.** No change exactly when all visits have one state. -/
theorem nChanges_zero_iff (s : List (K × V)) : nChanges s = 0 ↔ ∀ a ∈ s, ∀ b ∈ s, a.2 = b.2 := by
  induction s with
  | nil => simp [nChanges]
  | cons a l ih =>
    cases l with
    | nil => simp [nChanges]
    | cons b l =>
      rw [nChanges_cons]
      constructor
      · intro h
        have h1 : nChanges (b :: l) = 0 := by omega
        have h2 : b.2 = a.2 := by
          by_contra hc
          rw [if_pos hc] at h; omega
        have h3 := ih.mp h1
        have h4 : ∀ x ∈ a :: b :: l, x.2 = b.2 := by
          intro x hx
          rcases List.mem_cons.mp hx with rfl | hx
          · exact h2.symm
          · exact h3 x hx b (by simp)
        intro x hx y hy
        rw [h4 x hx, h4 y hy]
      · intro h
        rw [if_neg (by simp [h b (by simp) a (by simp)]), ih.mpr]
        intro x hx y hy
        exact h x (List.mem_cons_of_mem _ hx) y (List.mem_cons_of_mem _ hy)

/-- **C75.** At least one change for every further state, at most one for every further visit. -/
theorem nChanges_bounds (s : List (K × V)) (hs : s ≠ []) :
    (s.map Prod.snd).dedup.length ≤ nChanges s + 1 ∧ nChanges s + 1 ≤ s.length := by
  match s, hs with
  | a :: l, _ =>
    clear hs
    induction l generalizing a with
    | nil => simp [nChanges]
    | cons b l ih =>
      rw [nChanges_cons, List.map_cons]
      obtain ⟨h1, h2⟩ := ih b (by simp)
      by_cases h : b.2 = a.2
      · rw [if_neg (by simp [h]), List.dedup_cons_of_mem (by simp [h])]
        simp only [List.length_cons] at h2 ⊢
        exact ⟨h1, by omega⟩
      · rw [if_pos h]
        simp only [List.length_cons] at h2 ⊢
        refine ⟨?_, by omega⟩
        by_cases hm : a.2 ∈ (b :: l).map Prod.snd
        · rw [List.dedup_cons_of_mem hm]; omega
        · rw [List.dedup_cons_of_notMem hm, List.length_cons]; omega

/-- **C75.** With distinct times the result does not depend on the order of the rows
nor on the sorting algorithm. -/
theorem nChanges_order [LinearOrder K] {l l' s s' : List (K × V)} (hp : l.Perm l')
    (hs : SortedBy Prod.fst l s) (hs' : SortedBy Prod.fst l' s') (hd : (l.map Prod.fst).Nodup) :
    nChanges s = nChanges s' := by
  have hperm : s.Perm s' := (hs.perm.trans hp).trans hs'.perm.symm
  have hinj : ∀ a ∈ s, ∀ b ∈ s, a.1 = b.1 → a = b := by
    intro a ha b hb e
    exact List.inj_on_of_nodup_map hd (hs.perm.mem_iff.mp ha) (hs.perm.mem_iff.mp hb) e
  have : s = s' := by
    refine hperm.eq_of_pairwise ?_ hs.sorted hs'.sorted
    intro a b ha hb h1 h2
    exact hinj a ha b (hperm.mem_iff.mpr hb) (le_antisymm h1 h2)
  rw [this]

example : nChanges [((1 : Int), "g"), (2, "r"), (3, "r"), (4, "g")] = 2 := by decide

end Changes

/-! ## C76 -/

section MinTime
variable {K V : Type*} [DecidableEq V]

@[simp] theorem changeTimes_nil : changeTimes ([] : List (K × V)) = [] := rfl
@[simp] theorem changeTimes_single (a : K × V) : changeTimes [a] = [] := rfl
theorem changeTimes_cons (a b : K × V) (l : List (K × V)) :
    changeTimes (a :: b :: l) = if b.2 ≠ a.2 then b.1 :: changeTimes (b :: l) else changeTimes (b :: l) := by
  unfold changeTimes
  rw [changes_cons]
  by_cases h : b.2 = a.2 <;> simp [h]

/-- The times of the changes, by index: a visit whose state differs from the one before. -/
def timeOfChange (s : List (K × V)) (i : Nat) : Option K :=
  match s[i]?, s[i + 1]? with
  | some a, some b => if a.2 = b.2 then none else some b.1
  | _, _ => none

/-- **C76, C77.** The change times are those of the visits that differ from the visit before. -/
theorem changeTimes_spec (s : List (K × V)) :
    changeTimes s = (List.range (s.length - 1)).filterMap (timeOfChange s) := by
  induction s with
  | nil => rfl
  | cons a l ih =>
    cases l with
    | nil => rfl
    | cons b l =>
      rw [changeTimes_cons, ih]
      simp only [List.length_cons, Nat.add_sub_cancel]
      rw [List.range_succ_eq_map, List.filterMap_cons, List.filterMap_map]
      have e : timeOfChange (a :: b :: l) ∘ Nat.succ = timeOfChange (b :: l) := by
        funext i
        simp [timeOfChange]
      have e0 : timeOfChange (a :: b :: l) 0 = if a.2 = b.2 then none else some b.1 := rfl
      rw [e, e0]
      by_cases h : a.2 = b.2
      · simp [h]
      · rw [if_pos (fun h' => h h'.symm)]; simp [h]

theorem changeTimes_length (s : List (K × V)) : (changeTimes s).length = nChanges s := by
  induction s with
  | nil => rfl
  | cons a l ih =>
    cases l with
    | nil => rfl
    | cons b l =>
      rw [changeTimes_cons, nChanges_cons]
      by_cases h : b.2 = a.2
      · rw [if_neg (by simp [h]), if_neg (by simp [h]), ih]; rfl
      · rw [if_pos h, if_pos h, List.length_cons, ih]

theorem changeTimes_sublist (s : List (K × V)) : (changeTimes s).Sublist (s.tail.map Prod.fst) := by
  induction s with
  | nil => simp
  | cons a l ih =>
    cases l with
    | nil => simp
    | cons b l =>
      rw [changeTimes_cons]
      simp only [List.tail_cons, List.map_cons] at ih ⊢
      by_cases h : b.2 = a.2
      · rw [if_neg (by simp [h])]; exact ih.cons _
      · rw [if_pos h]; exact ih.cons_cons _

theorem dTimes_eq [Sub K] (t0 : K) (s : List (K × V)) : dTimes t0 s = diff (t0 :: changeTimes s) := by
  unfold dTimes diff
  simp only [List.tail_cons]
  generalize changeTimes s = ct
  induction ct generalizing t0 with
  | nil => rfl
  | cons c ct ih =>
    cases ct with
    | nil => rfl
    | cons d ct =>
      have := ih c
      simp only [List.dropLast_cons_cons, List.zipWith_cons_cons] at this ⊢
      rw [this]

variable [Field K] [LinearOrder K]

/-- What the name and the documentation promise: the least time between two
consecutive changes, in minutes, and the bad value if there are no two changes. -/
def MinBetweenChanges (s : List (K × V)) : Prop :=
  minTimeBetween s = some ((diff (changeTimes s)).map (fun d => d * (24 * 60))).min?

/-- **C76.** The time from the first visit to the first change counts as well. -/
theorem minTime_eq (v : K × V) (l : List (K × V)) :
    minTimeBetween (v :: l) = some ((diff (v.1 :: changeTimes (v :: l))).map (fun d => d * (24 * 60))).min? := by
  simp only [minTimeBetween, dTimes_eq]

/-- **C76**, refuted: two changes twenty minutes apart, the first one a minute after
the first visit. -/
theorem minBetween_false : ¬ MinBetweenChanges (V := String) [((0 : Rat), "g"), (1 / 1440, "r"), (21 / 1440, "i")] := by
  unfold MinBetweenChanges
  decide +kernel

/-- **C76**, refuted: with a single change there is no time between changes, but a value is returned. -/
theorem minBetween_single [IsStrictOrderedRing K] (t u : K) (a b : V) (h : a ≠ b) :
    minTimeBetween [(t, a), (u, b)] = some (some ((u - t) * (24 * 60))) ∧
    ¬ MinBetweenChanges [(t, a), (u, b)] := by
  have e : minTimeBetween [(t, a), (u, b)] = some (some ((u - t) * (24 * 60))) := by
    rw [minTime_eq, changeTimes_cons, if_pos (by simpa using fun h' => h h'.symm)]
    simp
  refine ⟨e, ?_⟩
  unfold MinBetweenChanges
  rw [e, changeTimes_cons, if_pos (by simpa using fun h' => h h'.symm)]
  simp

theorem min?_cons_of_mem_le {x y : K} {l : List K} (hy : y ∈ l) (h : y ≤ x) : (x :: l).min? = l.min? := by
  cases hm : l.min? with
  | none => rw [List.min?_eq_none_iff] at hm; simp [hm] at hy
  | some m =>
    rw [List.min?_eq_some_iff] at hm ⊢
    refine ⟨List.mem_cons_of_mem _ hm.1, ?_⟩
    intro b hb
    rcases List.mem_cons.mp hb with rfl | hb
    · exact le_trans (hm.2 y hy) h
    · exact hm.2 b hb

/-- **C76**, what holds: the promise is kept if some two changes are no further apart
than the first visit and the first change; and the value is never above the least
time between changes. -/
theorem minBetween_partial [IsStrictOrderedRing K] (v : K × V) (l : List (K × V)) (c : K) (ct : List K)
    (hc : changeTimes (v :: l) = c :: ct) :
    ((∃ d ∈ diff (c :: ct), d ≤ c - v.1) → MinBetweenChanges (v :: l)) ∧
    ∃ m, minTimeBetween (v :: l) = some (some m) ∧ m ≤ (c - v.1) * (24 * 60) ∧
      ∀ d ∈ diff (c :: ct), m ≤ d * (24 * 60) := by
  have h60 : (0 : K) ≤ 24 * 60 := by norm_num
  constructor
  · rintro ⟨d, hd, hle⟩
    unfold MinBetweenChanges
    rw [minTime_eq, hc, diff_cons_cons, List.map_cons,
      min?_cons_of_mem_le (List.mem_map_of_mem hd)
        (show d * (24 * 60) ≤ (c - v.1) * (24 * 60) from mul_le_mul_of_nonneg_right hle h60)]
  · rw [minTime_eq, hc, diff_cons_cons, List.map_cons]
    cases hm : ((c - v.1) * (24 * 60) :: (diff (c :: ct)).map (fun d => d * (24 * 60))).min? with
    | none => rw [List.min?_eq_none_iff] at hm; simp at hm
    | some m =>
      rw [List.min?_eq_some_iff] at hm
      refine ⟨m, rfl, hm.2 _ (by simp), ?_⟩
      intro d hd
      exact hm.2 _ (List.mem_cons_of_mem _ (List.mem_map_of_mem hd))

example : ∃ d ∈ diff ([10, 12] : List Rat), d ≤ 10 - 0 := by decide +kernel

/-- **C76.** Likewise the number of fast changes counts the first change if it comes soon after the first visit. -/
theorem nFaster_eq (cutoff : K) (v : K × V) (l : List (K × V)) (c : K) (ct : List K)
    (hc : changeTimes (v :: l) = c :: ct) :
    nFaster cutoff (v :: l) = some ((diff (c :: ct)).countP (fun d => decide (d < cutoff / 24 / 60)) +
      if c - v.1 < cutoff / 24 / 60 then 1 else 0) := by
  unfold nFaster
  simp only [dTimes_eq, hc, diff_cons_cons, List.countP_cons, decide_eq_true_eq]

end MinTime

/-! ## C77 -/

section Within
variable {K V : Type*} [DecidableEq V] [LinearOrder K]

theorem countP_ge_index {ct : List K} (h : ct.Pairwise (· ≤ ·)) (p : K → Bool) (t : K) :
    ct.countP (fun c => decide (t ≤ c) && p c) = (ct.drop (searchsortedLeft ct t)).countP p := by
  have := drop_searchsorted (f := id) ct t (by simpa using h)
  simp only [List.map_id, id] at this
  rw [this, List.countP_filter]
  congr 1
  funext c
  rw [Bool.and_comm]

/-- **C77.** `MaxStateChangesWithin` is the largest number of changes in any closed
interval of the given length. -/
theorem maxWithin_spec [AddCommGroup K] [IsOrderedAddMonoid K] (span : K) (hspan : 0 ≤ span) (s : List (K × V))
    (hs : s.Pairwise (fun a b => a.1 ≤ b.1)) :
    (∀ t, (changeTimes s).countP (fun c => decide (t ≤ c) && decide (c ≤ t + span)) ≤ maxWithin span s) ∧
    ∃ t, (changeTimes s).countP (fun c => decide (t ≤ c) && decide (c ≤ t + span)) = maxWithin span s := by
  have hsort : (changeTimes s).Pairwise (· ≤ ·) := by
    have h1 : (s.map Prod.fst).Pairwise (· ≤ ·) := by rw [List.pairwise_map]; exact hs
    refine h1.sublist ((changeTimes_sublist s).trans ?_)
    exact (List.tail_sublist s).map _
  by_cases hct : changeTimes s = []
  · have : maxWithin span s = 0 := by
      unfold maxWithin
      split
      · rfl
      · simp [hct]
    rw [this, hct]
    exact ⟨fun _ => le_rfl, 0, rfl⟩
  have hlen : s.length ≠ 1 := by
    intro h
    obtain ⟨a, rfl⟩ := List.length_eq_one_iff.mp h
    simp at hct
  generalize hct' : changeTimes s = ct at *
  -- value at each index
  have hval : ∀ i c, ct[i]? = some c →
      searchsortedRight ct (c + span) - i = (ct.drop i).countP (fun x => decide (x ≤ c + span)) := by
    intro i c hi
    rw [searchsortedRight_eq_countP hsort]
    have hlt : i < ct.length := (List.getElem?_eq_some_iff.mp hi).1
    have h1 : ct.countP (fun x => decide (x ≤ c + span)) =
        (ct.take i).countP (fun x => decide (x ≤ c + span)) + (ct.drop i).countP (fun x => decide (x ≤ c + span)) := by
      rw [← List.countP_append, List.take_append_drop]
    have h2 : (ct.take i).countP (fun x => decide (x ≤ c + span)) = i := by
      have : (ct.take i).countP (fun x => decide (x ≤ c + span)) = (ct.take i).length := by
        rw [List.countP_eq_length]
        intro x hx
        obtain ⟨j, hj, rfl⟩ := List.mem_iff_getElem.mp hx
        rw [List.getElem_take]
        rw [List.length_take] at hj
        have hji : j < i := by omega
        obtain ⟨_, rfl⟩ := List.getElem?_eq_some_iff.mp hi
        have hle : ct[j] ≤ ct[i] := List.pairwise_iff_getElem.mp hsort j i (by omega) hlt hji
        simp only [decide_eq_true_eq]
        exact le_trans hle (le_add_of_nonneg_right hspan)
      rw [this, List.length_take]; omega
    omega
  -- the maximum
  obtain ⟨m, hm⟩ : ∃ m, ((List.range ct.length).map (nWithinAt span ct)).max? = some m := by
    cases h : ((List.range ct.length).map (nWithinAt span ct)).max? with
    | none => rw [List.max?_eq_none_iff] at h; simp at h; exact absurd h hct
    | some m => exact ⟨m, rfl⟩
  have hmax : maxWithin span s = m := by
    unfold maxWithin
    rw [if_neg hlen]
    simp only [hct', hm, Option.getD_some]
  rw [hmax]
  rw [List.max?_eq_some_iff] at hm
  have hub : ∀ t, ct.countP (fun c => decide (t ≤ c) && decide (c ≤ t + span)) ≤ m := by
    intro t
    rw [countP_ge_index hsort]
    by_cases hi : searchsortedLeft ct t < ct.length
    · have hc : ct[searchsortedLeft ct t]? = some ct[searchsortedLeft ct t] := List.getElem?_eq_getElem hi
      have hge : t ≤ ct[searchsortedLeft ct t] := by
        have hd := drop_searchsorted (f := id) ct t (by simpa using hsort)
        simp only [List.map_id, id] at hd
        have : ct[searchsortedLeft ct t] ∈ ct.drop (searchsortedLeft ct t) := by
          rw [List.drop_eq_getElem_cons hi]; exact List.mem_cons_self
        rw [hd] at this
        simpa using (List.mem_filter.mp this).2
      have h1 : (ct.drop (searchsortedLeft ct t)).countP (fun c => decide (c ≤ t + span)) ≤
          (ct.drop (searchsortedLeft ct t)).countP (fun c => decide (c ≤ ct[searchsortedLeft ct t] + span)) := by
        apply List.countP_mono_left
        intro x _ hx
        simp only [decide_eq_true_eq] at hx ⊢
        exact le_trans hx (by gcongr)
      rw [← hval _ _ hc] at h1
      refine le_trans h1 (hm.2 _ ?_)
      rw [List.mem_map]
      exact ⟨searchsortedLeft ct t, List.mem_range.mpr hi, by simp only [nWithinAt, hc]⟩
    · rw [List.drop_eq_nil_of_le (by omega)]
      simp
  refine ⟨hub, ?_⟩
  obtain ⟨i, hi, hmi⟩ := List.mem_map.mp hm.1
  rw [List.mem_range] at hi
  refine ⟨ct[i], le_antisymm (hub _) ?_⟩
  unfold nWithinAt at hmi
  rw [List.getElem?_eq_getElem hi] at hmi
  simp only at hmi
  rw [← hmi, hval i ct[i] (List.getElem?_eq_getElem hi)]
  have h1 : (ct.drop i).countP (fun x => decide (x ≤ ct[i] + span)) =
      (ct.drop i).countP (fun c => decide (ct[i] ≤ c) && decide (c ≤ ct[i] + span)) := by
    apply List.countP_congr
    intro x hx
    have : ct[i] ≤ x := by
      obtain ⟨j, hj, rfl⟩ := List.mem_iff_getElem.mp hx
      rw [List.getElem_drop]
      rcases Nat.eq_zero_or_pos j with rfl | hj0
      · simp
      · exact List.pairwise_iff_getElem.mp hsort i (i + j) hi (by rw [List.length_drop] at hj; omega) (by omega)
    simp [this]
  rw [h1]
  exact (List.drop_sublist i ct).countP_le

example : maxWithin 20 [((0 : Int), "g"), (5, "r"), (10, "g"), (24, "r"), (40, "r"), (60, "g")] = 3 := by decide

end Within

/-! ## C78 -/

section Pairs
variable {K : Type*} [Field K] [LinearOrder K] [IsStrictOrderedRing K]

theorem countP_lt_ne_iff (ts : List K) {u v : K} (huv : u ≤ v) :
    ts.countP (fun x => decide (x < v)) ≠ ts.countP (fun x => decide (x < u)) ↔ ∃ x ∈ ts, u ≤ x ∧ x < v := by
  induction ts with
  | nil => simp
  | cons a ts ih =>
    have hle : ts.countP (fun x => decide (x < u)) ≤ ts.countP (fun x => decide (x < v)) :=
      List.countP_mono_left (fun x _ h => by simp only [decide_eq_true_eq] at h ⊢; exact lt_of_lt_of_le h huv)
    simp only [List.countP_cons, decide_eq_true_eq, List.exists_mem_cons_iff]
    by_cases h1 : a < u
    · have h2 : a < v := lt_of_lt_of_le h1 huv
      rw [if_pos h1, if_pos h2, ← ih]
      constructor
      · intro h; right; omega
      · rintro (h | h)
        · exact absurd h1 (not_lt.mpr h.1)
        · omega
    · by_cases h2 : a < v
      · rw [if_neg h1, if_pos h2]
        constructor
        · intro _; exact Or.inl ⟨not_lt.mp h1, h2⟩
        · intro _; omega
      · rw [if_neg h1, if_neg h2, ← ih]
        constructor
        · intro h; right; omega
        · rintro (h | h)
          · exact absurd h.2 h2
          · omega

/-- **C78.** A visit counts if another one comes at least the minimum and less than the
maximum gap later, or more than the minimum and at most the maximum gap earlier. -/
theorem isPaired_iff {minGap maxGap : K} (h : minGap ≤ maxGap) {ts : List K} (hs : ts.Pairwise (· ≤ ·)) (t : K) :
    isPaired minGap maxGap ts t = true ↔
      (∃ u ∈ ts, minGap ≤ u - t ∧ u - t < maxGap) ∨ (∃ u ∈ ts, minGap < t - u ∧ t - u ≤ maxGap) := by
  unfold isPaired
  simp only [searchsortedLeft_eq_countP hs, Bool.or_eq_true, decide_eq_true_eq]
  have e1 := countP_lt_ne_iff ts (u := t + minGap) (v := t + maxGap) (by linarith)
  have e2 := countP_lt_ne_iff ts (u := t - maxGap) (v := t - minGap) (by linarith)
  have c1 : ((ts.countP (fun x => decide (x < t + maxGap)) : Int) - (ts.countP (fun x => decide (x < t + minGap)) : Int) ≠ 0) ↔
      ts.countP (fun x => decide (x < t + maxGap)) ≠ ts.countP (fun x => decide (x < t + minGap)) := by omega
  have c2 : ((ts.countP (fun x => decide (x < t - maxGap)) : Int) - (ts.countP (fun x => decide (x < t - minGap)) : Int) ≠ 0) ↔
      ts.countP (fun x => decide (x < t - minGap)) ≠ ts.countP (fun x => decide (x < t - maxGap)) := by omega
  rw [c1, c2, e1, e2]
  constructor
  · rintro (⟨u, hu, h1, h2⟩ | ⟨u, hu, h1, h2⟩)
    · exact Or.inl ⟨u, hu, by linarith, by linarith⟩
    · exact Or.inr ⟨u, hu, by linarith, by linarith⟩
  · rintro (⟨u, hu, h1, h2⟩ | ⟨u, hu, h1, h2⟩)
    · exact Or.inl ⟨u, hu, by linarith, by linarith⟩
    · exact Or.inr ⟨u, hu, by linarith, by linarith⟩

/-- Two visits make a pair: their distance is between the gaps. -/
def MakePair (minGap maxGap t u : K) : Prop := minGap ≤ |t - u| ∧ |t - u| ≤ maxGap

/-- What is promised: the fraction of visits that make a pair with some visit. -/
def FractionOfPaired (minGap maxGap : K) (times : List K) : Prop :=
  ∃ k : Nat, pairFraction minGap maxGap times = some ((k : K) / (times.length : K)) ∧
    ∃ p : K → Bool, k = times.countP p ∧ ∀ t ∈ times, p t = true ↔ ∃ u ∈ times, MakePair minGap maxGap t u

/-- **C78**, refuted: of two visits exactly the minimum gap apart, only the earlier one counts. -/
theorem fractionOfPaired_false : ¬ FractionOfPaired (15 : Rat) 90 [0, 15] := by
  rintro ⟨k, hk, p, hp, h⟩
  have hv : pairFraction (15 : Rat) 90 [0, 15] = some (1 / 2) := by decide +kernel
  have h0 : p 0 = true := (h 0 (by simp)).mpr ⟨15, by simp, by unfold MakePair; norm_num⟩
  have h1 : p 15 = true := (h 15 (by simp)).mpr ⟨0, by simp, by unfold MakePair; norm_num⟩
  have hk2 : k = 2 := by rw [hp]; simp [h0, h1]
  rw [hv, hk2] at hk
  norm_num at hk

/-- **C78**, what holds: the promise is kept when no two visits are exactly the
minimum or maximum gap apart. -/
theorem fractionOfPaired_partial {minGap maxGap : K} (h0 : 0 < minGap) (h : minGap ≤ maxGap) (times : List K)
    (hne : times ≠ []) (hex : ∀ t ∈ times, ∀ u ∈ times, |t - u| ≠ minGap ∧ |t - u| ≠ maxGap) :
    FractionOfPaired minGap maxGap times := by
  have hs := sort_sorted times
  refine ⟨times.countP (isPaired minGap maxGap (sort times)), ?_, isPaired minGap maxGap (sort times), rfl, ?_⟩
  · unfold pairFraction
    rw [if_neg (by simpa using hne)]
    simp only [(sort_perm times).countP_eq]
  · intro t ht
    rw [isPaired_iff h hs]
    constructor
    · rintro (⟨u, hu, h1, h2⟩ | ⟨u, hu, h1, h2⟩)
      · refine ⟨u, (sort_perm times).mem_iff.mp hu, ?_⟩
        unfold MakePair
        rw [abs_sub_comm, abs_of_nonneg (by linarith)]
        exact ⟨h1, le_of_lt h2⟩
      · refine ⟨u, (sort_perm times).mem_iff.mp hu, ?_⟩
        unfold MakePair
        rw [abs_of_nonneg (by linarith)]
        exact ⟨le_of_lt h1, h2⟩
    · rintro ⟨u, hu, h1, h2⟩
      obtain ⟨n1, n2⟩ := hex t ht u hu
      have h1 := lt_of_le_of_ne h1 (Ne.symm n1)
      have h2 := lt_of_le_of_ne h2 n2
      rcases le_total t u with htu | htu
      · left
        rw [abs_sub_comm, abs_of_nonneg (by linarith)] at h1 h2
        exact ⟨u, (sort_perm times).mem_iff.mpr hu, le_of_lt h1, h2⟩
      · right
        rw [abs_of_nonneg (by linarith)] at h1 h2
        exact ⟨u, (sort_perm times).mem_iff.mpr hu, h1, le_of_lt h2⟩

example : pairFraction (15 : Rat) 90 [30, 5, 0, 500] = some (3 / 4) := by decide +kernel

/-- **C78.** The fraction does not depend on the order of the visits and lies in [0, 1]. -/
theorem pairFraction_range (minGap maxGap : K) (times : List K) (f : K) (h : pairFraction minGap maxGap times = some f) :
    0 ≤ f ∧ f ≤ 1 ∧ ∀ times', times.Perm times' → pairFraction minGap maxGap times' = some f := by
  have hp : ∀ times', times.Perm times' → pairFraction minGap maxGap times' = pairFraction minGap maxGap times := by
    intro times' hp
    unfold pairFraction
    rw [sort_eq_of_perm hp, hp.length_eq]
  refine ⟨?_, ?_, fun times' h' => by rw [hp times' h', h]⟩
  · unfold pairFraction at h
    split at h
    · cases h
    · rename_i hn
      have hpos : (0 : K) < (times.length : K) := by exact_mod_cast Nat.pos_of_ne_zero hn
      simp only [Option.some.injEq] at h
      subst h
      exact div_nonneg (Nat.cast_nonneg _) (le_of_lt hpos)
  · unfold pairFraction at h
    split at h
    · cases h
    · rename_i hn
      have hpos : (0 : K) < (times.length : K) := by exact_mod_cast Nat.pos_of_ne_zero hn
      simp only [Option.some.injEq] at h
      subst h
      rw [div_le_one hpos]
      have := List.countP_le_length (p := isPaired minGap maxGap (sort times)) (l := sort times)
      rw [sort_length] at this
      exact_mod_cast this

end Pairs

/-! ## C79 -/

section Shutter
variable {K : Type*} [Field K] [LinearOrder K] [IsStrictOrderedRing K]

/-- A fraction of time. -/
def IsFraction (f : Option K) : Prop := ∃ x, f = some x ∧ 0 ≤ x ∧ x ≤ 1

/-- **C79.** The open shutter fraction from slew and visit times is a fraction, when
exposures are part of the visit time and some time passes. -/
theorem openFraction_range (rows : List (K × K × K)) (h : ∀ r ∈ rows, 0 ≤ r.1 ∧ r.1 ≤ r.2.1 ∧ 0 ≤ r.2.2)
    (hpos : ∃ r ∈ rows, 0 < r.2.2 + r.2.1) : IsFraction (openFraction rows) := by
  have h1 : (rows.map (fun r => r.1)).sum ≤ (rows.map (fun r => r.2.2 + r.2.1)).sum := by
    apply List.sum_le_sum
    intro r hr
    obtain ⟨_, h2, h3⟩ := h r hr
    linarith
  have h2 : 0 ≤ (rows.map (fun r => r.1)).sum := by
    apply List.sum_nonneg
    intro x hx
    obtain ⟨r, hr, rfl⟩ := List.mem_map.mp hx
    exact (h r hr).1
  have h3 : 0 < (rows.map (fun r => r.2.2 + r.2.1)).sum := by
    obtain ⟨r, hr, hp⟩ := hpos
    have := List.single_le_sum (l := rows.map (fun r => r.2.2 + r.2.1)) (by
      intro x hx
      obtain ⟨r, hr, rfl⟩ := List.mem_map.mp hx
      obtain ⟨h1, h2, h3⟩ := h r hr
      linarith) _ (List.mem_map_of_mem hr)
    exact lt_of_lt_of_le hp this
  refine ⟨_, by unfold openFraction; rw [if_neg (ne_of_gt h3)], div_nonneg h2 (le_of_lt h3), (div_le_one h3).mpr h1⟩

/-- **C79.** Without a gap below the limit (in particular for a single visit) the brute
fraction divides by zero; and it is not always a fraction: two visits 40 s apart,
each of 30 s, give 3/2, since the last exposure counts above but not below. -/
theorem bruteOSF_not_fraction :
    (∀ (maxgap fudge t e : K), bruteOSF maxgap fudge [(t, e)] = none) ∧
    bruteOSF (10 / 1440 : Rat) 0 [(0, 30), (40 / 86400, 30)] = some (3 / 2) := by
  constructor
  · intro maxgap fudge t e
    simp [bruteOSF, sort, diff]
  · decide +kernel

theorem bruteOSF_aux (maxgap : K) : ∀ (ts : List (K × K)),
    (∀ i a b, ts[i]? = some a → ts[i + 1]? = some b → a.2 ≤ (b.1 - a.1) * 24 * 3600) →
    (∀ i a b, ts[i]? = some a → ts[i + 1]? = some b → b.1 - a.1 < maxgap) →
    ∀ (x l : K × K), ts.head? = some x → ts.getLast? = some l →
    ((diff (ts.map Prod.fst)).filter (fun x => decide (x < maxgap))).sum = l.1 - x.1 ∧
    (ts.map Prod.snd).sum - l.2 ≤ (l.1 - x.1) * 24 * 3600
  | [], _, _, x, l, _, hl => by simp at hl
  | [a], _, _, x, l, hx, hl => by
    simp at hl hx; subst hl; subst hx; simp
  | a :: b :: ts, hfit, hgap, x, l, hx, hl => by
    obtain ⟨ih1, ih2⟩ := bruteOSF_aux maxgap (b :: ts)
      (fun i x y h1 h2 => hfit (i + 1) x y (by simpa using h1) (by simpa using h2))
      (fun i x y h1 h2 => hgap (i + 1) x y (by simpa using h1) (by simpa using h2)) b l rfl
      (by rw [← hl, List.getLast?_cons_cons])
    have h1 := hfit 0 a b rfl rfl
    have h2 := hgap 0 a b rfl rfl
    simp only [List.head?_cons, Option.some.injEq] at hx
    subst hx
    simp only [List.map_cons, diff_cons_cons, List.sum_cons] at ih1 ih2 ⊢
    rw [List.filter_cons_of_pos (by simpa using h2), List.sum_cons, ih1]
    constructor
    · ring
    · linarith

/-- **C79**, what holds for the brute fraction: if the rows are in time order, exposures
end before the next visit begins and all gaps are below the limit, then it is the sum of
the exposures over the time from the first to the last visit, and the exposures but the
last fit into that time. -/
theorem bruteOSF_partial (maxgap : K) (rows : List (K × K)) (x l : K × K) (hs : rows.Pairwise (fun a b => a.1 ≤ b.1))
    (hfit : ∀ i a b, rows[i]? = some a → rows[i + 1]? = some b → a.2 ≤ (b.1 - a.1) * 24 * 3600)
    (hx : rows.head? = some x) (hl : rows.getLast? = some l) (hlt : x.1 < l.1)
    (hgap : ∀ i a b, rows[i]? = some a → rows[i + 1]? = some b → b.1 - a.1 < maxgap) :
    bruteOSF maxgap 0 rows = some ((rows.map Prod.snd).sum / ((l.1 - x.1) * 24 * 3600)) ∧
    (rows.map Prod.snd).sum - l.2 ≤ (l.1 - x.1) * 24 * 3600 := by
  have hsort : sort (rows.map Prod.fst) = rows.map Prod.fst := sort_eq_self (by rw [List.pairwise_map]; exact hs)
  obtain ⟨h1, h2⟩ := bruteOSF_aux maxgap rows hfit hgap x l hx hl
  refine ⟨?_, h2⟩
  have h1' : ((diff (rows.map (fun r => r.1))).filter (fun x => decide (x < maxgap))).sum = l.1 - x.1 := h1
  have hsort' : sort (rows.map (fun r => r.1)) = rows.map (fun r => r.1) := hsort
  unfold bruteOSF
  have hne : (l.1 - x.1) * 24 * 3600 ≠ 0 := by
    have : 0 < l.1 - x.1 := by linarith
    positivity
  simp only [hsort', add_zero, h1', if_neg hne]

example : bruteOSF (10 / 1440 : Rat) 0 [(0, 30), (40 / 86400, 30), (80 / 86400, 30), (1, 30)] = some (3 / 2) := by
  decide +kernel

end Shutter

end Verif.Tech
