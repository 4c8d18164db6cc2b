import Verif.Props.ResultsDb

/-!
# C22, C53: histories and crash points of TrackingDb
-/

namespace Verif.Db

variable {I : Type*}

/-- Specification state: what is registered for each directory. -/
abbrev Reg (I : Type*) := String → Option (Nat × I)

/-- The registry a table stands for. -/
def regOf (runs : List (RunRow I)) : Reg I :=
  fun d => (runs.find? (fun r => decide (r.dir = d))).map (fun r => (r.id, r.info))

/-- Run ids and directories are keys of the table. -/
def RunsOk (runs : List (RunRow I)) : Prop :=
  (runs.map RunRow.id).Nodup ∧ (runs.map RunRow.dir).Nodup

/-- Specification of one call: the allowed changes of the registry. -/
inductive RegStep : Reg I → TOp I → Reg I → Prop
  /-- A known directory keeps its id, whatever id is asked for. -/
  | again {m : Reg I} {d i x x' j m'} : m d = some (i, x) → m' = Function.update m d (some (i, x')) →
      RegStep m (.add d x' j) m'
  /-- A new directory with an explicit free id. -/
  | newId {m : Reg I} {d i x m'} : m d = none → (∀ d' p, m d' = some p → p.1 ≠ i) →
      m' = Function.update m d (some (i, x)) → RegStep m (.add d x (some i)) m'
  /-- A new directory with an explicit id already in use: refused. -/
  | taken {m : Reg I} {d i x d' y} : m d = none → m d' = some (i, y) → RegStep m (.add d x (some i)) m
  /-- A new directory without id gets an unused one. -/
  | fresh {m : Reg I} {d i x m'} : m d = none → (∀ d' p, m d' = some p → p.1 ≠ i) →
      m' = Function.update m d (some (i, x)) → RegStep m (.add d x none) m'
  /-- Deleting an existing run forgets its directory. -/
  | del {m : Reg I} {d i x m'} : m d = some (i, x) → m' = Function.update m d none → RegStep m (.del i) m'
  /-- Deleting an unknown id is refused. -/
  | delBad {m : Reg I} {i} : (∀ d p, m d = some p → p.1 ≠ i) → RegStep m (.del i) m

theorem regOf_none {runs : List (RunRow I)} {d : String} : regOf runs d = none ↔ ∀ r ∈ runs, r.dir ≠ d := by
  simp [regOf, List.find?_eq_none]

theorem regOf_some {runs : List (RunRow I)} (h : RunsOk runs) {d : String} {i : Nat} {x : I} :
    regOf runs d = some (i, x) ↔ RunRow.mk i d x ∈ runs := by
  unfold regOf
  constructor
  · intro e
    obtain ⟨r, hr, hx⟩ := Option.map_eq_some_iff.mp e
    have h1 := List.mem_of_find?_eq_some hr
    have h2 : r.dir = d := by simpa using List.find?_some hr
    obtain ⟨a, b, c⟩ := r
    simp only [Prod.mk.injEq] at hx
    obtain ⟨rfl, rfl⟩ := hx
    subst h2
    exact h1
  · intro hm
    have hsome : (runs.find? (fun r => decide (r.dir = d))).isSome := by
      rw [List.find?_isSome]; exact ⟨_, hm, by simp⟩
    obtain ⟨r, hr⟩ := Option.isSome_iff_exists.mp hsome
    have h1 := List.mem_of_find?_eq_some hr
    have h2 : r.dir = d := by simpa using List.find?_some hr
    have : r = ⟨i, d, x⟩ := List.inj_on_of_nodup_map h.2 h1 hm h2
    rw [hr, this]; rfl

theorem regOf_ids {runs : List (RunRow I)} (h : RunsOk runs) {i : Nat} :
    (∀ d p, regOf runs d = some p → p.1 ≠ i) ↔ i ∉ runs.map RunRow.id := by
  constructor
  · intro hh hm
    obtain ⟨r, hr, rfl⟩ := List.mem_map.mp hm
    exact hh r.dir (r.id, r.info) ((regOf_some h).mpr hr) rfl
  · rintro hh d ⟨j, x⟩ hp rfl
    exact hh (List.mem_map.mpr ⟨_, (regOf_some h).mp hp, rfl⟩)

/-- Appending a row for an unregistered directory. -/
theorem regOf_append {runs : List (RunRow I)} {d : String} (hd : ∀ r ∈ runs, r.dir ≠ d) (i : Nat) (x : I) :
    regOf (runs ++ [⟨i, d, x⟩]) = Function.update (regOf runs) d (some (i, x)) := by
  funext d'
  unfold regOf
  rw [List.find?_append]
  by_cases h : d' = d
  · subst h
    have : runs.find? (fun r => decide (r.dir = d')) = none := by
      rw [List.find?_eq_none]; intro r hr; simpa using hd r hr
    simp [this]
  · have h' : d ≠ d' := fun e => h e.symm
    simp [Function.update_of_ne h, h']

theorem regOf_filter {runs : List (RunRow I)} (d : String) :
    regOf (runs.filter (fun r => decide (r.dir ≠ d))) = Function.update (regOf runs) d none := by
  funext d'
  by_cases h : d' = d
  · subst h
    simp only [Function.update_self]
    rw [regOf_none]
    intro r hr
    simpa using (List.mem_filter.mp hr).2
  · rw [Function.update_of_ne h]
    unfold regOf
    congr 1
    rw [List.find?_filter]
    congr 1
    funext r
    by_cases e : r.dir = d'
    · have : r.dir ≠ d := fun e' => h (e.symm.trans e')
      simp [e, h]
    · simp [e]

theorem runsOk_append {runs : List (RunRow I)} (h : RunsOk runs) {i : Nat} {d : String} (x : I)
    (hi : i ∉ runs.map RunRow.id) (hd : d ∉ runs.map RunRow.dir) : RunsOk (runs ++ [⟨i, d, x⟩]) := by
  constructor
  · rw [List.map_append, List.nodup_append]
    refine ⟨h.1, by simp, ?_⟩
    rintro a ha b hb rfl
    simp only [List.map_cons, List.map_nil, List.mem_singleton] at hb
    exact hi (hb ▸ ha)
  · rw [List.map_append, List.nodup_append]
    refine ⟨h.2, by simp, ?_⟩
    rintro a ha b hb rfl
    simp only [List.map_cons, List.map_nil, List.mem_singleton] at hb
    exact hd (hb ▸ ha)

theorem runsOk_filter {runs : List (RunRow I)} (h : RunsOk runs) (p : RunRow I → Bool) : RunsOk (runs.filter p) :=
  ⟨h.1.sublist (List.filter_sublist.map _), h.2.sublist (List.filter_sublist.map _)⟩

/-- One call keeps the keys and does to the registry what the specification says. -/
theorem track_step (runs : List (RunRow I)) (h : RunsOk runs) (op : TOp I) :
    RunsOk (op.apply runs) ∧ RegStep (regOf runs) op (regOf (op.apply runs)) := by
  cases op with
  | add d x j =>
    simp only [TOp.apply, addRun]
    cases hf : runs.filter (fun r => decide (r.dir = d)) with
    | cons p ps =>
      have hp : p ∈ runs ∧ p.dir = d := by
        have : p ∈ runs.filter (fun r => decide (r.dir = d)) := by rw [hf]; simp
        simpa using List.mem_filter.mp this
      simp only
      have hnd : ∀ r ∈ runs.filter (fun r => decide (r.dir ≠ d)), r.dir ≠ d := by
        intro r hr; simpa using (List.mem_filter.mp hr).2
      have e := regOf_append hnd p.id x
      refine ⟨runsOk_append (runsOk_filter h _) x ?_ ?_, ?_⟩
      · intro hm
        obtain ⟨r, hr, hid⟩ := List.mem_map.mp hm
        have : r = p := List.inj_on_of_nodup_map h.1 (List.mem_filter.mp hr).1 hp.1 hid
        exact hnd r hr (this ▸ hp.2)
      · intro hm
        obtain ⟨r, hr, hid⟩ := List.mem_map.mp hm
        exact hnd r hr hid
      · refine RegStep.again (i := p.id) (x := p.info) ?_ ?_
        · rw [regOf_some h]
          obtain ⟨a, b, c⟩ := p
          obtain ⟨h1, rfl⟩ := hp
          exact h1
        · rw [e, regOf_filter, Function.update_idem]
    | nil =>
      have hd : ∀ r ∈ runs, r.dir ≠ d := by
        intro r hr e
        have : r ∈ runs.filter (fun r => decide (r.dir = d)) := List.mem_filter.mpr ⟨hr, by simpa using e⟩
        rw [hf] at this; simp at this
      have hd' : d ∉ runs.map RunRow.dir := by
        intro hm
        obtain ⟨r, hr, e⟩ := List.mem_map.mp hm
        exact hd r hr e
      cases j with
      | none =>
        simp only
        refine ⟨runsOk_append h x (nextId_not_mem _) hd', ?_⟩
        exact RegStep.fresh (regOf_none.mpr hd) ((regOf_ids h).mpr (nextId_not_mem _)) (regOf_append hd _ _)
      | some i =>
        simp only
        by_cases hi : i ∈ runs.map RunRow.id
        · obtain ⟨r, hr, rfl⟩ := List.mem_map.mp hi
          have : (runs.filter (fun r' => decide (r'.id = r.id))).length > 0 :=
            List.length_pos_of_mem (List.mem_filter.mpr ⟨hr, by simp⟩)
          rw [if_pos this]
          exact ⟨h, RegStep.taken (d' := r.dir) (y := r.info) (regOf_none.mpr hd) ((regOf_some h).mpr hr)⟩
        · have : ¬ (runs.filter (fun r' => decide (r'.id = i))).length > 0 := by
            intro hl
            obtain ⟨r, hr⟩ := List.exists_mem_of_length_pos hl
            have := List.mem_filter.mp hr
            exact hi (List.mem_map.mpr ⟨r, this.1, by simpa using this.2⟩)
          rw [if_neg this]
          exact ⟨runsOk_append h x hi hd',
            RegStep.newId (regOf_none.mpr hd) ((regOf_ids h).mpr hi) (regOf_append hd _ _)⟩
  | del i =>
    simp only [TOp.apply, delRun]
    cases hf : runs.filter (fun r => decide (r.id = i)) with
    | nil =>
      refine ⟨h, RegStep.delBad ((regOf_ids h).mpr ?_)⟩
      intro hm
      obtain ⟨r, hr, e⟩ := List.mem_map.mp hm
      have : r ∈ runs.filter (fun r => decide (r.id = i)) := List.mem_filter.mpr ⟨hr, by simpa using e⟩
      rw [hf] at this; simp at this
    | cons p ps =>
      have hp : p ∈ runs ∧ p.id = i := by
        have : p ∈ runs.filter (fun r => decide (r.id = i)) := by rw [hf]; simp
        simpa using List.mem_filter.mp this
      cases ps with
      | cons q qs =>
        exfalso
        have hnd : ((runs.filter (fun r => decide (r.id = i))).map RunRow.id).Nodup := (runsOk_filter h _).1
        have hq : q.id = i := by
          have : q ∈ runs.filter (fun r => decide (r.id = i)) := by rw [hf]; simp
          simpa using (List.mem_filter.mp this).2
        rw [hf] at hnd
        simp [hp.2, hq] at hnd
      | nil =>
        simp only
        have e : runs.filter (fun r => decide (r.id ≠ i)) = runs.filter (fun r => decide (r.dir ≠ p.dir)) := by
          apply List.filter_congr
          intro r hr
          have : r.id = i ↔ r.dir = p.dir := by
            constructor
            · intro e; rw [List.inj_on_of_nodup_map h.1 hr hp.1 (e.trans hp.2.symm)]
            · intro e; rw [List.inj_on_of_nodup_map h.2 hr hp.1 e]; exact hp.2
          simp [this]
        refine ⟨runsOk_filter h _, ?_⟩
        refine RegStep.del (d := p.dir) (x := p.info) ?_ ?_
        · rw [regOf_some h]
          obtain ⟨a, b, c⟩ := p
          obtain ⟨h1, rfl⟩ := hp
          exact h1
        · rw [e, regOf_filter]

theorem track_ok (ops : List (TOp I)) : ∀ runs : List (RunRow I), RunsOk runs → RunsOk (trackRun runs ops) := by
  induction ops with
  | nil => intro runs h; exact h
  | cons op ops ih => intro runs h; exact ih _ (track_step runs h op).1

/-- **C22.** After any history on a new tracking database, ids and directories are
unique, and every further call changes the registry exactly as specified: a known
directory keeps its id and takes the new values, a new one gets the free id asked
for or an unused one, taken ids and unknown deletions are refused without effect. -/
theorem tracking_refines (ops : List (TOp I)) (op : TOp I) :
    let runs := trackRun [] ops
    RunsOk runs ∧ RegStep (regOf runs) op (regOf (op.apply runs)) := by
  intro runs
  have h : RunsOk runs := track_ok ops [] ⟨by simp, by simp⟩
  exact ⟨h, (track_step runs h op).2⟩

/-- **C22**, return value: `add_run` returns the id under which the directory is
then registered, with the new values. -/
theorem addRun_returns (ops : List (TOp I)) (d : String) (x : I) (j : Option Nat) (r : List (RunRow I)) (i : Nat)
    (hr : addRun (trackRun [] ops) d x j = .ok (r, i)) : regOf r d = some (i, x) := by
  have h0 : RunsOk (trackRun [] ops : List (RunRow I)) := track_ok ops [] ⟨by simp, by simp⟩
  have h : RunsOk r := by
    have := (track_step _ h0 (.add d x j)).1
    simpa only [TOp.apply, hr] using this
  rw [regOf_some h]
  unfold addRun at hr
  split at hr
  · cases hr; simp
  · split at hr
    · split at hr
      · cases hr
      · cases hr; simp
    · cases hr; simp

example : trackRun [] [TOp.add "a" 10 none, .add "b" 20 (some 7), .add "a" 11 (some 9), .add "c" 30 (some 7),
    .add "d" 40 none, .del 7] = [⟨1, "a", 11⟩, ⟨8, "d", 40⟩] := by decide +kernel

/-- Ids are not permanent: the id of a deleted run is given to another directory. -/
theorem run_id_reused :
    let before : List (RunRow Nat) := trackRun [] [.add "a" 1 none, .add "b" 2 none]
    let after := trackRun before [.del 2, .add "c" 3 none]
    regOf before "b" = some (2, 2) ∧ regOf after "c" = some (2, 3) := by decide +kernel

/-! ## C53: crash between the two commits -/

/-- Full statement: after a crash inside an update of a registered directory, the
directory still has its old or already its new entry. -/
def UpdateAtomic : Prop :=
  ∀ (ops : List (TOp Nat)) (d : String) (i x x' : Nat), regOf (trackRun [] ops) d = some (i, x) →
    regOf (addRunCrash (trackRun [] ops) d) d = some (i, x) ∨ regOf (addRunCrash (trackRun [] ops) d) d = some (i, x')

/-- **C53**, in general: a crash between the two commits of `add_run` always loses
the entry of the directory being updated and no other entry. -/
theorem update_crash_loses (runs : List (RunRow I)) (d : String) :
    regOf (addRunCrash runs d) = Function.update (regOf runs) d none := regOf_filter d

/-- **C53**, refutation. -/
theorem update_not_atomic : ¬ UpdateAtomic := by
  intro h
  have := h [.add "a" 1 none] "a" 1 1 2 (by decide +kernel)
  revert this
  decide +kernel

/-- **C53**, what holds after such a crash: the ids of the other runs are intact,
and repeating the call registers the directory with the new values. Missing: the
original id may be lost (`update_crash_changes_id`). -/
theorem update_crash_partial (ops : List (TOp I)) (d : String) (x : I) :
    let runs := addRunCrash (trackRun [] ops) d
    RunsOk runs ∧ ∃ i, (∀ d' p, regOf runs d' = some p → p.1 ≠ i) ∧
      regOf ((TOp.add d x none).apply runs) = Function.update (regOf (trackRun [] ops)) d (some (i, x)) := by
  intro runs
  have h : RunsOk runs := runsOk_filter (track_ok ops [] ⟨by simp, by simp⟩) _
  refine ⟨h, ?_⟩
  have hn : regOf runs d = none := by
    show regOf (addRunCrash _ d) d = none
    rw [update_crash_loses, Function.update_self]
  have := (track_step runs h (.add d x none)).2
  cases this with
  | again h1 _ => rw [hn] at h1; cases h1
  | fresh _ h2 h3 =>
    refine ⟨_, h2, ?_⟩
    rw [h3]
    show Function.update (regOf (addRunCrash _ d)) d _ = _
    rw [update_crash_loses, Function.update_idem]

/-- After a crash and a repeated call a directory can end up under another id. -/
theorem update_crash_changes_id :
    let runs : List (RunRow Nat) := trackRun [] [.add "a" 1 none, .add "b" 2 none]
    regOf runs "a" = some (1, 1) ∧ regOf ((TOp.add "a" 5 none).apply (addRunCrash runs "a")) "a" = some (3, 5) := by
  decide +kernel

end Verif.Db
