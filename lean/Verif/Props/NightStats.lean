import Mathlib.Data.List.Nodup
import Mathlib.Data.List.Induction
import Verif.Model.NightStats

/-!
# Properties of `sims_on_night_with_stats` (C593, C594)
-/

namespace Verif.NightStats
open Verif.Archive

variable {U S : Type*}

/-! ## Specification -/

/-- The simulations that are asked for. -/
def Wanted (now day : Int) (tags : List String) (telescope : String) (maxAge : Int) (s : SimRow U) : Prop :=
  (∃ f l, s.first = some f ∧ s.last = some l ∧ f ≤ day ∧ day ≤ l) ∧ s.telescope = telescope ∧ (∀ t ∈ tags, t ∈ s.tags)
    ∧ now - s.created ≤ maxAge * 86400

/-- The rows of statistics of a sequence for a night. -/
def Row (stats : List (StatRow U S)) (day : Int) (u : U) (r : StatRow U S) : Prop := r ∈ stats ∧ r.day = day ∧ r.uuid = u

theorem between_iff (d : Int) (f l : Option Int) :
    between d f l = true ↔ ∃ a b, f = some a ∧ l = some b ∧ a ≤ d ∧ d ≤ b := by
  cases f <;> cases l <;> simp [between]

theorem paramsTags_eq : paramsTags = some 5 := by decide +kernel

theorem paramsNoTags_eq : paramsNoTags = none := by decide +kernel

attribute [local irreducible] paramsTags paramsNoTags

section Sims
variable [DecidableEq U]

/-! ## Simulations of the night (C593) -/

/-- With tags the simulations are exactly those asked for, in the order of the database and so each once, with their
statistics. -/
theorem sims_partial (db : List (SimRow U)) (stats : List (StatRow U S)) (now day : Int) (tags : List String)
    (telescope : String) (maxAge : Int) (ht : tags ≠ []) :
    ∃ l, simsWithStats db stats now day tags telescope maxAge = .ok l ∧ (l.map Prod.fst).Sublist db
      ∧ (∀ s, s ∈ l.map Prod.fst ↔ s ∈ db ∧ Wanted now day tags telescope maxAge s)
      ∧ ∀ e ∈ l, e.2 = statsOf stats day e.1.uuid := by
  have hl : tags.length > 0 := List.length_pos_iff.mpr ht
  unfold simsWithStats
  simp only
  rw [if_pos hl, if_pos paramsTags_eq]
  refine ⟨_, rfl, ?_, ?_, ?_⟩
  · rw [List.map_map]
    have : (Prod.fst ∘ fun s : SimRow U => (s, statsOf stats day s.uuid)) = id := rfl
    rw [this, List.map_id]
    exact List.filter_sublist
  · intro s
    rw [List.map_map]
    have : (Prod.fst ∘ fun s : SimRow U => (s, statsOf stats day s.uuid)) = id := rfl
    rw [this, List.map_id, List.mem_filter]
    simp only [Bool.and_eq_true, decide_eq_true_eq, List.all_eq_true, between_iff, Wanted]
    constructor
    · rintro ⟨h, ⟨⟨h1, h2⟩, h3⟩, h4⟩
      exact ⟨h, h1, h2, h4, by omega⟩
    · rintro ⟨h, h1, h2, h4, h3⟩
      exact ⟨h, ⟨⟨h1, h2⟩, by omega⟩, h4⟩
  · intro e he
    obtain ⟨s, _, rfl⟩ := List.mem_map.mp he
    rfl

/-- An older simulation is never found that is not found with a greater age. -/
theorem sims_age (db : List (SimRow U)) (stats : List (StatRow U S)) (now day : Int) (tags : List String)
    (telescope : String) (a b : Int) (hab : a ≤ b) (l m : List (SimRow U × Option (List (String × (Bool × S)))))
    (hl : simsWithStats db stats now day tags telescope a = .ok l)
    (hm : simsWithStats db stats now day tags telescope b = .ok m) : l.Sublist m := by
  unfold simsWithStats at hl hm
  simp only at hl hm
  have key : ∀ s : SimRow U, decide (now - a * 86400 ≤ s.created) = true → decide (now - b * 86400 ≤ s.created) = true := by
    intro s h
    rw [decide_eq_true_eq] at *
    omega
  split at hl
  · rename_i h1
    rw [if_pos h1] at hm
    split at hl
    · rename_i h2
      rw [if_pos h2] at hm
      cases hl
      cases hm
      apply List.Sublist.map
      apply List.monotone_filter_right
      intro s hs
      simp only [Bool.and_eq_true] at hs ⊢
      exact ⟨⟨hs.1.1, key s hs.1.2⟩, hs.2⟩
    · cases hl
  · rename_i h1
    rw [if_neg h1] at hm
    split at hl
    · rename_i h2
      rw [if_pos h2] at hm
      cases hl
      cases hm
      apply List.Sublist.map
      apply List.monotone_filter_right
      intro s hs
      simp only [Bool.and_eq_true] at hs ⊢
      exact ⟨hs.1, key s hs.2⟩
    · cases hl

/-- Without tags there is always an exception: the text of the query has a percent sign without its letter. -/
theorem sims_no_tags_false (db : List (SimRow U)) (stats : List (StatRow U S)) (now day : Int) (telescope : String)
    (maxAge : Int) : simsWithStats db stats now day [] telescope maxAge = .error .badFormat := by
  unfold simsWithStats
  simp only
  rw [if_neg (by simp), paramsNoTags_eq, if_neg (by simp)]

end Sims

/-! ## Statistics of the night (C594) -/

theorem setKey_keys (o : List (String × (Bool × S))) (k : String) (v : Bool × S) (h : (o.map Prod.fst).Nodup) :
    ((setKey o k v).map Prod.fst).Nodup := by
  unfold setKey
  rw [List.map_append, List.nodup_append]
  refine ⟨h.sublist (List.Sublist.map _ List.filter_sublist), by simp, ?_⟩
  intro a ha b hb
  simp only [List.map_cons, List.map_nil, List.mem_singleton] at hb
  subst hb
  obtain ⟨e, he, rfl⟩ := List.mem_map.mp ha
  simpa using (List.mem_filter.mp he).2

theorem setKey_mem (o : List (String × (Bool × S))) (k : String) (v : Bool × S) (e : String × (Bool × S)) :
    e ∈ setKey o k v ↔ (e ∈ o ∧ e.1 ≠ k) ∨ e = (k, v) := by
  simp [setKey]

theorem fold_keys (rows : List (StatRow U S)) (o : List (String × (Bool × S))) (h : (o.map Prod.fst).Nodup) :
    ((rows.foldl (fun o r => setKey o r.name (r.accumulated, r.numbers)) o).map Prod.fst).Nodup := by
  induction rows generalizing o with
  | nil => exact h
  | cons r rs ih => exact ih _ (setKey_keys o _ _ h)

/-- The entries of the object are the last rows of their names. -/
theorem objectAgg_mem (rows : List (StatRow U S)) (k : String) (v : Bool × S) :
    (k, v) ∈ objectAgg rows ↔
      ∃ pre r post, rows = pre ++ r :: post ∧ r.name = k ∧ (r.accumulated, r.numbers) = v ∧ ∀ q ∈ post, q.name ≠ k := by
  unfold objectAgg
  induction rows using List.reverseRecOn with
  | nil => simp
  | append_singleton rs r ih =>
    rw [List.foldl_append, List.foldl_cons, List.foldl_nil, setKey_mem, ih]
    constructor
    · rintro (⟨⟨pre, q, post, h1, h2, h3, h4⟩, hne⟩ | h)
      · refine ⟨pre, q, post ++ [r], by simp [h1], h2, h3, ?_⟩
        intro x hx
        rcases List.mem_append.mp hx with hx | hx
        · exact h4 x hx
        · rw [List.mem_singleton] at hx
          subst hx
          exact fun h => hne h.symm
      · rw [Prod.mk.injEq] at h
        exact ⟨rs, r, [], rfl, h.1.symm, h.2.symm, by simp⟩
    · rintro ⟨pre, q, post, h1, h2, h3, h4⟩
      rcases List.eq_nil_or_concat post with rfl | ⟨post', x, rfl⟩
      · right
        have := List.append_inj' h1 rfl
        have hr : r = q := by simpa using this.2
        rw [hr, h2, h3]
      · left
        rw [List.concat_eq_append, ← List.cons_append, ← List.append_assoc] at h1
        have := List.append_inj' h1 rfl
        have hr : r = x := by simpa using this.2
        refine ⟨⟨pre, q, post', this.1, h2, h3, fun y hy => h4 y (by simp [hy])⟩, ?_⟩
        have := h4 x (by simp)
        rw [hr]
        exact fun h => this h.symm

variable [DecidableEq U]

/-- There are no statistics exactly if there is no row of the sequence for the night. -/
theorem stats_none (stats : List (StatRow U S)) (day : Int) (u : U) :
    statsOf stats day u = none ↔ ¬ ∃ r, Row stats day u r := by
  unfold statsOf
  simp only
  by_cases h : (((stats.filter (fun r => decide (r.day = day))).filter (fun r => decide (r.uuid = u))).isEmpty) = true
  · rw [if_pos h]
    simp only [true_iff]
    rintro ⟨r, h1, h2, h3⟩
    rw [List.isEmpty_iff] at h
    have : r ∈ (stats.filter (fun r => decide (r.day = day))).filter (fun r => decide (r.uuid = u)) := by
      simp [h1, h2, h3]
    rw [h] at this
    cases this
  · rw [if_neg h]
    simp only [reduceCtorEq, false_iff, not_not]
    rw [List.isEmpty_iff] at h
    obtain ⟨r, hr⟩ := List.exists_mem_of_ne_nil _ h
    simp only [List.mem_filter, decide_eq_true_eq] at hr
    exact ⟨r, hr.1.1, hr.1.2, hr.2⟩

/-- Each name is once in the statistics, and its values are those of a row of the sequence for the night; each name of
such a row is there. -/
theorem stats_rows (stats : List (StatRow U S)) (day : Int) (u : U) (o : List (String × (Bool × S)))
    (h : statsOf stats day u = some o) :
    (o.map Prod.fst).Nodup ∧ (∀ e ∈ o, ∃ r, Row stats day u r ∧ e = (r.name, (r.accumulated, r.numbers)))
      ∧ ∀ r, Row stats day u r → ∃ v, (r.name, v) ∈ o := by
  unfold statsOf at h
  simp only at h
  split at h
  · cases h
  · cases h
    refine ⟨fold_keys _ _ (by simp), ?_, ?_⟩
    · rintro ⟨k, v⟩ he
      obtain ⟨pre, r, post, h1, h2, h3, _⟩ := (objectAgg_mem _ k v).mp he
      have hr : r ∈ (stats.filter (fun r => decide (r.day = day))).filter (fun r => decide (r.uuid = u)) := by
        rw [h1]
        simp
      simp only [List.mem_filter, decide_eq_true_eq] at hr
      exact ⟨r, ⟨hr.1.1, hr.1.2, hr.2⟩, by rw [h2, h3]⟩
    · rintro r ⟨h1, h2, h3⟩
      have hr : r ∈ (stats.filter (fun r => decide (r.day = day))).filter (fun r => decide (r.uuid = u)) := by
        simp [h1, h2, h3]
      generalize (stats.filter (fun r => decide (r.day = day))).filter (fun r => decide (r.uuid = u)) = rows at hr
      clear h1 h2 h3
      induction rows using List.reverseRecOn with
      | nil => cases hr
      | append_singleton rs x ih =>
        by_cases hx : x.name = r.name
        · refine ⟨(x.accumulated, x.numbers), (objectAgg_mem _ _ _).mpr ⟨rs, x, [], rfl, hx, rfl, by simp⟩⟩
        · have : r ∈ rs := by
            rcases List.mem_append.mp hr with hr | hr
            · exact hr
            · rw [List.mem_singleton] at hr
              exact absurd (by rw [hr]) hx
          obtain ⟨v, hv⟩ := ih this
          obtain ⟨pre, q, post, h1, h2, h3, h4⟩ := (objectAgg_mem _ _ _).mp hv
          refine ⟨v, (objectAgg_mem _ _ _).mpr ⟨pre, q, post ++ [x], by simp [h1], h2, h3, ?_⟩⟩
          intro y hy
          rcases List.mem_append.mp hy with hy | hy
          · exact h4 y hy
          · rw [List.mem_singleton] at hy
            rw [hy]
            exact hx

/-- If the rows of the night have different names, as those of `compute_nightly_stats`, all of them are there. -/
theorem stats_all_partial (stats : List (StatRow U S)) (day : Int) (u : U)
    (hn : ∀ r q, Row stats day u r → Row stats day u q → r.name = q.name →
      (r.accumulated, r.numbers) = (q.accumulated, q.numbers))
    (r : StatRow U S) (hr : Row stats day u r) :
    ∃ o, statsOf stats day u = some o ∧ (r.name, (r.accumulated, r.numbers)) ∈ o := by
  cases h : statsOf stats day u with
  | none => exact absurd ⟨r, hr⟩ ((stats_none stats day u).mp h)
  | some o =>
    refine ⟨o, rfl, ?_⟩
    obtain ⟨_, h2, h3⟩ := stats_rows stats day u o h
    obtain ⟨v, hv⟩ := h3 r hr
    obtain ⟨q, hq, he⟩ := h2 _ hv
    rw [Prod.mk.injEq] at he
    rw [hn r q hr hq he.1, ← he.2]
    exact hv

/-- The key of the table has room for the statistics of the night and those up to the night with the same name. Of such
a pair one is lost. -/
theorem stats_all_false (day : Int) (u : U) (name : String) (a b : S) :
    let stats : List (StatRow U S) := [⟨u, day, name, false, a⟩, ⟨u, day, name, true, b⟩]
    (∀ r ∈ stats, ∀ q ∈ stats, (r.uuid, r.day, r.name, r.accumulated) = (q.uuid, q.day, q.name, q.accumulated) →
        r = q)
      ∧ statsOf stats day u = some [(name, (true, b))] ∧ statsOf stats.reverse day u = some [(name, (false, a))] := by
  refine ⟨?_, ?_, ?_⟩
  · simp
  · simp [statsOf, objectAgg, setKey]
  · simp [statsOf, objectAgg, setKey]

/-- A simulation with statistics, one without, and one of another telescope. -/
example :
    let db : List (SimRow Nat) := [⟨1, some 10, some 12, "simonyi", ["prenight", "ideal"], 1000⟩,
      ⟨2, some 11, some 11, "simonyi", ["prenight"], 900⟩, ⟨3, some 11, some 11, "auxtel", ["prenight"], 900⟩]
    let stats : List (StatRow Nat Nat) := [⟨1, 11, "airmass", false, 5⟩, ⟨1, 10, "airmass", false, 6⟩,
      ⟨1, 11, "seeing", false, 7⟩]
    (match simsWithStats db stats 1000 11 ["prenight"] "simonyi" 2 with
      | .ok l => l.map (fun e => (e.1.uuid, e.2))
      | .error _ => []) = [(1, some [("airmass", (false, 5)), ("seeing", (false, 7))]), (2, none)] := by
  decide +kernel

end Verif.NightStats
