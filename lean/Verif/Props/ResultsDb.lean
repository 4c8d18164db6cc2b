import Verif.Model.ResultsDb
import Mathlib.Data.List.Nodup
import Mathlib.Order.Lattice
import Mathlib.Order.Basic
import Mathlib.Tactic.Common
import Mathlib.Order.Defs.LinearOrder

/-!
# C18–C21, C51, C52: histories of ResultsDb
-/

namespace Verif.Db

variable {K : Type*}

/-! ## Row ids -/

theorem le_foldl_max (l : List Nat) (a x : Nat) (h : x ≤ a ∨ x ∈ l) : x ≤ l.foldl max a := by
  induction l generalizing a with
  | nil => simpa using h
  | cons y l ih =>
    apply ih
    rcases h with h | h
    · exact Or.inl (le_trans h (le_max_left _ _))
    · rcases List.mem_cons.mp h with rfl | h
      · exact Or.inl (le_max_right _ _)
      · exact Or.inr h

theorem lt_nextId {l : List Nat} {x : Nat} (h : x ∈ l) : x < nextId l :=
  Nat.lt_succ_of_le (le_foldl_max l 0 x (Or.inr h))

theorem nextId_not_mem (l : List Nat) : nextId l ∉ l := fun h => lt_irrefl _ (lt_nextId h)

/-! ## The tables other than the one updated do not move -/

theorem tryStat_frame (ntry : Nat) (mid : Nat) (name : String) (v : K) (sched : List Bool) :
    ∀ (db : DB K) (tries : Nat), (tryStat ntry db mid name v tries sched).1.metrics = db.metrics ∧
      (tryStat ntry db mid name v tries sched).1.displays = db.displays ∧
      (tryStat ntry db mid name v tries sched).1.plots = db.plots := by
  induction sched with
  | nil => intro db tries; unfold tryStat; split <;> simp [addStat]
  | cons b s ih =>
    intro db tries
    unfold tryStat
    split
    · split
      · exact ih db (tries + 1)
      · simp [addStat]
    · simp

theorem storeStats_frame (ntry : Nat) (mid : Nat) (base : String) (rows : List (String × K)) :
    ∀ (db : DB K) (tries : Nat) (sched : List Bool),
      (storeStats ntry mid base db rows tries sched).metrics = db.metrics ∧
      (storeStats ntry mid base db rows tries sched).displays = db.displays ∧
      (storeStats ntry mid base db rows tries sched).plots = db.plots := by
  induction rows with
  | nil => intro db t s; simp [storeStats]
  | cons r rows ih =>
    intro db t s
    obtain ⟨n, v⟩ := r
    simp only [storeStats]
    have h1 := tryStat_frame ntry mid (base ++ " " ++ n) v s db t
    have h2 := ih (tryStat ntry db mid (base ++ " " ++ n) v t s).1
      (tryStat ntry db mid (base ++ " " ++ n) v t s).2.1 (tryStat ntry db mid (base ++ " " ++ n) v t s).2.2
    exact ⟨h2.1.trans h1.1, h2.2.1.trans h1.2.1, h2.2.2.trans h1.2.2⟩

theorem stat_frame (ntry : Nat) (mid : Nat) (base : String) (v : SummaryVal K) (db : DB K) (sched : List Bool) :
    (updateSummaryStat ntry db mid base sched v).metrics = db.metrics ∧
      (updateSummaryStat ntry db mid base sched v).displays = db.displays ∧
      (updateSummaryStat ntry db mid base sched v).plots = db.plots := by
  cases v with
  | num v => simp [updateSummaryStat, addStat]
  | table rows => exact storeStats_frame ntry mid base rows db 0 sched

/-! ## C18 -/

/-- Specification: the identity columns are a key, and so are the ids. -/
def MetricsOk (db : DB K) : Prop :=
  (db.metrics.map MetricRow.key).Nodup ∧ (db.metrics.map MetricRow.id).Nodup

theorem updateMetric_ok (db : DB K) (a : MetricArgs) (h : MetricsOk db) : MetricsOk (updateMetric db a).1 := by
  unfold updateMetric
  split
  · exact h
  · rename_i hn
    obtain ⟨h1, h2⟩ := h
    refine ⟨?_, ?_⟩
    · simp only [List.map_append, List.map_cons, List.map_nil]
      rw [List.nodup_append]
      refine ⟨h1, by simp, ?_⟩
      intro x hx y hy
      simp only [List.mem_singleton] at hy
      subst hy
      obtain ⟨r, hr, rfl⟩ := List.mem_map.mp hx
      have := List.find?_eq_none.mp hn r hr
      simpa using this
    · simp only [List.map_append, List.map_cons, List.map_nil]
      rw [List.nodup_append]
      refine ⟨h2, by simp, ?_⟩
      intro x hx y hy
      simp only [List.mem_singleton] at hy
      subst hy
      rintro rfl
      exact nextId_not_mem _ hx

theorem apply_metrics (db : DB K) (op : Op K) :
    (op.apply db).metrics = db.metrics ∨ ∃ a, op = .metric a := by
  cases op with
  | metric a => exact Or.inr ⟨a, rfl⟩
  | display mid d ow => left; simp only [Op.apply, updateDisplay]; split <;> rfl
  | plot mid t f ow => left; simp only [Op.apply, updatePlot]
  | stat mid n v s => left; exact (stat_frame 3 mid n v db s).1

theorem apply_prefix (db : DB K) (op : Op K) : db.metrics <+: (op.apply db).metrics := by
  rcases apply_metrics db op with h | ⟨a, rfl⟩
  · rw [h]; exact List.prefix_rfl
  · simp only [Op.apply, updateMetric]
    split
    · exact List.prefix_rfl
    · exact List.prefix_append _ _

theorem runOps_prefix (ops : List (Op K)) : ∀ db : DB K, db.metrics <+: (runOps db ops).metrics := by
  induction ops with
  | nil => intro db; exact List.prefix_rfl
  | cons op ops ih => intro db; exact (apply_prefix db op).trans (ih _)

theorem runOps_ok (ops : List (Op K)) : ∀ db : DB K, MetricsOk db → MetricsOk (runOps db ops) := by
  induction ops with
  | nil => intro db h; exact h
  | cons op ops ih =>
    intro db h
    apply ih
    rcases apply_metrics db op with h' | ⟨a, rfl⟩
    · unfold MetricsOk; rw [h']; exact h
    · exact updateMetric_ok db a h

/-- **C18.** After any history of updating calls on a new database: no two metric
rows have the same identity, no two have the same id. -/
theorem metrics_key_unique (ops : List (Op K)) : MetricsOk (runOps DB.empty ops) :=
  runOps_ok ops _ ⟨by simp [DB.empty], by simp [DB.empty]⟩

/-- The row `update_metric` returned the id of. -/
theorem updateMetric_row (db : DB K) (a : MetricArgs) :
    ∃ r ∈ (updateMetric db a).1.metrics, r.key = a.key ∧ r.id = (updateMetric db a).2 := by
  unfold updateMetric
  split
  · rename_i r hr
    have h1 := List.find?_some hr
    exact ⟨r, List.mem_of_find?_eq_some hr, by simpa using h1, rfl⟩
  · exact ⟨_, List.mem_append_right _ (List.mem_singleton.mpr rfl), rfl, rfl⟩

theorem updateMetric_of_row {db : DB K} (h : MetricsOk db) {r : MetricRow} (hr : r ∈ db.metrics)
    {a : MetricArgs} (hk : r.key = a.key) : updateMetric db a = (db, r.id) := by
  unfold updateMetric
  split
  · rename_i r' hr'
    have h1 : r'.key = a.key := by simpa using List.find?_some hr'
    have h2 := List.mem_of_find?_eq_some hr'
    have : r' = r := List.inj_on_of_nodup_map h.1 h2 hr (h1.trans hk.symm)
    rw [this]
  · rename_i hn
    have := List.find?_eq_none.mp hn r hr
    simp [hk] at this

/-- **C18**, stability. Take any history, record a metric, take any further
history: recording the same identity again (the data file may differ) returns the
same id and changes nothing at all, and the id belongs to a row with that
identity. -/
theorem metric_id_stable (ops ops' : List (Op K)) (a a' : MetricArgs) (ha : a'.key = a.key) :
    let first := updateMetric (runOps DB.empty ops) a
    let later := runOps first.1 ops'
    updateMetric later a' = (later, first.2) ∧
    ∃ r ∈ later.metrics, r.key = a.key ∧ r.id = first.2 := by
  intro first later
  obtain ⟨r, hr, hk, hid⟩ := updateMetric_row (runOps DB.empty ops) a
  have hr' : r ∈ later.metrics := (runOps_prefix ops' first.1).subset hr
  have hok : MetricsOk later := runOps_ok ops' _ (updateMetric_ok _ a (metrics_key_unique ops))
  refine ⟨?_, r, hr', hk, hid⟩
  rw [updateMetric_of_row hok hr' (hk.trans ha.symm), hid]

/-- **C18**, injectivity: different identities get different ids, whatever happens
in between. -/
theorem metric_id_injective (ops ops' : List (Op K)) (a b : MetricArgs) (hab : a.key ≠ b.key) :
    let first := updateMetric (runOps DB.empty ops) a
    (updateMetric (runOps first.1 ops') b).2 ≠ first.2 := by
  intro first heq
  obtain ⟨r, hr, hk, hid⟩ := updateMetric_row (runOps DB.empty ops) a
  obtain ⟨s, hs, hks, hids⟩ := updateMetric_row (runOps first.1 ops') b
  have hok : MetricsOk (updateMetric (runOps first.1 ops') b).1 :=
    updateMetric_ok _ b (runOps_ok ops' _ (updateMetric_ok _ a (metrics_key_unique ops)))
  have hr' : r ∈ (updateMetric (runOps first.1 ops') b).1.metrics := by
    apply (apply_prefix (runOps first.1 ops') (.metric b)).subset
    exact (runOps_prefix ops' first.1).subset hr
  have : s = r := List.inj_on_of_nodup_map hok.2 hs hr' (hids.trans (heq.trans hid.symm))
  exact hab (hk.symm.trans (this ▸ hks))

/-- A history with two metrics, one recorded twice: ids 1, 2, 1. -/
example : let a : MetricArgs := ⟨"Count", "Uni", some "run", none, none, none⟩
    let b : MetricArgs := ⟨"Count", "Uni", some "run", some "night < 10", none, none⟩
    let s1 := updateMetric (DB.empty (K := Nat)) a
    let s2 := updateMetric s1.1 b
    let s3 := updateMetric s2.1 a
    (s1.2, s2.2, s3.2, s3.1.metrics.length) = (1, 2, 1, 2) := by decide +kernel

/-! ## C19 -/

/-- Specification: what the display of metric `mid` should be after a history. -/
def displaySpec (mid : Nat) : Option DisplayVals → List (Op K) → Option DisplayVals
  | cur, [] => cur
  | cur, .display m d ow :: ops =>
    if m = mid then displaySpec mid (if ow then some d.vals else some (cur.getD d.vals)) ops
    else displaySpec mid cur ops
  | cur, _ :: ops => displaySpec mid cur ops

/-- The display values stored for a metric. -/
def DB.displayOf (db : DB K) (mid : Nat) : List DisplayVals :=
  (db.displays.filter (fun r => r.metricId == mid)).map DisplayRow.vals

theorem displayOf_update (db : DB K) (mid m : Nat) (d : DisplayDict) (ow : Bool) (cur : Option DisplayVals)
    (h : db.displayOf mid = cur.toList) :
    (updateDisplay db m d ow).displayOf mid =
      (if m = mid then (if ow then some d.vals else some (cur.getD d.vals)) else cur).toList := by
  by_cases hm : m = mid
  · subst hm
    rw [if_pos rfl]
    have hlen : (db.displays.filter (fun r => r.metricId == m)).length = cur.toList.length := by
      rw [← h, DB.displayOf, List.length_map]
    unfold updateDisplay
    simp only [hlen]
    cases cur with
    | none =>
      have h0 : db.displays.filter (fun r => r.metricId == m) = [] := List.length_eq_zero_iff.mp hlen
      simp only [Option.toList_none, List.length_nil, gt_iff_lt, lt_self_iff_false, false_and, if_false,
        Option.getD_none, ite_self]
      simp [DB.displayOf, h0]
    | some c =>
      cases ow with
      | false => simp [h]
      | true =>
        simp [DB.displayOf, List.filter_filter]
  · rw [if_neg hm, ← h]
    unfold updateDisplay
    simp only
    split
    · rfl
    · simp only [DB.displayOf, List.filter_append, List.map_append]
      have : [(DisplayRow.mk (nextId (db.displays.map DisplayRow.id)) m d.vals)].filter
          (fun r => r.metricId == mid) = [] := by simp [hm]
      rw [this]
      simp only [List.map_nil, List.append_nil]
      split
      · rw [List.filter_filter]
        congr 1
        apply List.filter_congr
        intro r _
        by_cases hr : r.metricId = mid
        · have : mid ≠ m := fun e => hm e.symm
          simp [hr, this]
        · simp [hr]
      · rfl

theorem displays_other (db : DB K) (op : Op K) (h : ∀ m d ow, op ≠ .display m d ow) :
    (op.apply db).displays = db.displays := by
  cases op with
  | metric a => simp only [Op.apply, updateMetric]; split <;> rfl
  | display mid d ow => exact absurd rfl (h mid d ow)
  | plot mid t f ow => simp only [Op.apply, updatePlot]
  | stat mid n v s => exact (stat_frame 3 mid n v db s).2.1

theorem display_run (mid : Nat) (ops : List (Op K)) : ∀ (db : DB K) (cur : Option DisplayVals),
    db.displayOf mid = cur.toList → (runOps db ops).displayOf mid = (displaySpec mid cur ops).toList := by
  induction ops with
  | nil => intro db cur h; exact h
  | cons op ops ih =>
    intro db cur h
    show (runOps (op.apply db) ops).displayOf mid = _
    cases op with
    | display m d ow =>
      rw [ih (Op.apply db (.display m d ow)) _ (displayOf_update db mid m d ow cur h)]
      simp only [displaySpec]
      by_cases hm : m = mid
      · simp [hm]
      · simp [hm]
    | metric a =>
      apply ih
      rw [DB.displayOf, displays_other _ _ (by intros; simp)]
      exact h
    | plot m t f ow =>
      apply ih
      rw [DB.displayOf, displays_other _ _ (by intros; simp)]
      exact h
    | stat m n v s =>
      apply ih
      rw [DB.displayOf, displays_other _ _ (by intros; simp)]
      exact h

/-- **C19.** After any history, every metric id has the display values the
specification asks for — at most one row: the last one submitted with overwrite,
or the first one after it — and no other. -/
theorem display_one_to_one (ops : List (Op K)) (mid : Nat) :
    (runOps DB.empty ops).displayOf mid = (displaySpec mid none ops).toList :=
  display_run mid ops _ none rfl

example : let d1 : DisplayDict := ⟨some "g", none, none, some "cap (auto)"⟩
    let d2 : DisplayDict := ⟨some "h", none, some 2, none⟩
    (runOps (DB.empty (K := Nat)) [.display 1 d1 true, .display 2 d2 true, .display 1 d2 false]).displayOf 1 =
      [⟨"g", "NULL", 0, "cap "⟩] := by decide +kernel

/-! ## C20 -/

/-- Specification: the files of (metric, plot type) after a history. -/
def plotSpec (mid : Nat) (t : String) : List String → List (Op K) → List String
  | cur, [] => cur
  | cur, .plot m t' f ow :: ops =>
    if m = mid ∧ t' = t then plotSpec mid t (if ow then [f] else cur ++ [f]) ops
    else plotSpec mid t cur ops
  | cur, _ :: ops => plotSpec mid t cur ops

/-- The files stored for (metric, plot type), oldest first. -/
def DB.plotsOf (db : DB K) (mid : Nat) (t : String) : List String :=
  (db.plots.filter (fun r => r.metricId == mid && r.plotType == t)).map PlotRow.plotFile

theorem plotsOf_update (db : DB K) (mid m : Nat) (t t' f : String) (ow : Bool) :
    (updatePlot db m t' f ow).plotsOf mid t =
      if m = mid ∧ t' = t then (if ow then [f] else db.plotsOf mid t ++ [f]) else db.plotsOf mid t := by
  unfold updatePlot DB.plotsOf
  simp only [List.filter_append, List.map_append]
  by_cases hm : m = mid ∧ t' = t
  · obtain ⟨rfl, rfl⟩ := hm
    simp only [and_self, if_true]
    cases ow with
    | false => simp
    | true =>
      split
      · simp [List.filter_filter]
      · rename_i hn
        have : db.plots.filter (fun r => r.metricId == m && r.plotType == t') = [] := by
          rw [← List.length_eq_zero_iff]
          simp only [and_true] at hn
          omega
        simp [this]
  · have h1 : [PlotRow.mk (nextId (db.plots.map PlotRow.id)) m t' f].filter
        (fun r => r.metricId == mid && r.plotType == t) = [] := by
      rw [List.filter_cons_of_neg]
      · rfl
      · simpa using hm
    rw [h1, if_neg hm]
    simp only [List.map_nil, List.append_nil]
    split
    · rw [List.filter_filter]
      congr 1
      apply List.filter_congr
      intro r _
      by_cases hr : r.metricId = mid ∧ r.plotType = t
      · obtain ⟨rfl, rfl⟩ := hr
        have : ¬ (r.metricId = m ∧ r.plotType = t') := fun e => hm ⟨e.1.symm, e.2.symm⟩
        simp only [BEq.rfl, Bool.and_self, Bool.true_and, Bool.not_eq_true', Bool.and_eq_false_iff,
          beq_eq_false_iff_ne, ne_eq]
        by_cases e1 : r.metricId = m
        · exact Or.inr fun e2 => this ⟨e1, e2⟩
        · exact Or.inl e1
      · have : (r.metricId == mid && r.plotType == t) = false := by
          rw [Bool.and_eq_false_iff]
          by_cases e1 : r.metricId = mid
          · right; simpa using fun e2 => hr ⟨e1, e2⟩
          · left; simpa using e1
        simp [this]
    · rfl

theorem plots_other (db : DB K) (op : Op K) (h : ∀ m t f ow, op ≠ .plot m t f ow) :
    (op.apply db).plots = db.plots := by
  cases op with
  | metric a => simp only [Op.apply, updateMetric]; split <;> rfl
  | display mid d ow => simp only [Op.apply, updateDisplay]; split <;> rfl
  | plot mid t f ow => exact absurd rfl (h mid t f ow)
  | stat mid n v s => exact (stat_frame 3 mid n v db s).2.2

theorem plot_run (mid : Nat) (t : String) (ops : List (Op K)) : ∀ db : DB K,
    (runOps db ops).plotsOf mid t = plotSpec mid t (db.plotsOf mid t) ops := by
  induction ops with
  | nil => intro db; rfl
  | cons op ops ih =>
    intro db
    show (runOps (op.apply db) ops).plotsOf mid t = _
    rw [ih]
    cases op with
    | plot m t' f ow =>
      simp only [plotSpec, Op.apply]
      rw [plotsOf_update]
      split <;> rfl
    | metric a => rw [DB.plotsOf, plots_other _ _ (by intros; simp)]; rfl
    | display m d ow => rw [DB.plotsOf, plots_other _ _ (by intros; simp)]; rfl
    | stat m n v s => rw [DB.plotsOf, plots_other _ _ (by intros; simp)]; rfl

/-- **C20.** After any history the plot files stored for a (metric, plot type) are
those given by the specification: the last file submitted with overwrite, followed
by the files added without overwrite since, in order. -/
theorem plots_spec (ops : List (Op K)) (mid : Nat) (t : String) :
    (runOps DB.empty ops).plotsOf mid t = plotSpec mid t [] ops := plot_run mid t ops _

example : (runOps (DB.empty (K := Nat)) [.plot 1 "Histogram" "a" false, .plot 1 "Histogram" "b" true,
    .plot 2 "Histogram" "z" true, .plot 1 "Histogram" "c" false]).plotsOf 1 "Histogram" = ["b", "c"] := by
  decide +kernel

/-! ## C21 -/

/-- The `(name, value)` pairs stored for a metric, oldest first. -/
def DB.statsOf (db : DB K) (mid : Nat) : List (String × K) :=
  (db.stats.filter (fun r => r.metricId == mid)).map (fun r => (r.name, r.value))

/-- The rows a table of summary values should give. -/
def wanted (base : String) (rows : List (String × K)) : List (String × K) :=
  rows.map (fun r => (base ++ " " ++ r.1, r.2))

theorem statsOf_add (db : DB K) (mid m : Nat) (n : String) (v : K) :
    (addStat db m n v).statsOf mid = db.statsOf mid ++ (if m = mid then [(n, v)] else []) := by
  unfold addStat DB.statsOf
  by_cases h : m = mid <;> simp [List.filter_append, h]

/-- One value: either stored once, or the retries are used up and it is dropped. -/
theorem tryStat_spec (ntry : Nat) (mid : Nat) (n : String) (v : K) (sched : List Bool) :
    ∀ (db : DB K) (tries : Nat), tries ≤ ntry →
      let r := tryStat ntry db mid n v tries sched
      ∃ used, sched = used ++ r.2.2 ∧ r.2.1 = tries + used.count true ∧ r.2.1 ≤ ntry ∧
        ((r.2.1 < ntry ∧ r.1 = addStat db mid n v) ∨ (r.2.1 = ntry ∧ r.1 = db)) := by
  induction sched with
  | nil =>
    intro db tries ht
    simp only [tryStat]
    refine ⟨[], ?_⟩
    split
    · rename_i h; simp [h, ht]
    · rename_i h; simp [ht]; omega
  | cons b s ih =>
    intro db tries ht
    simp only [tryStat]
    by_cases h : tries < ntry
    · cases b with
      | true =>
        simp only [h, if_true]
        obtain ⟨u, h1, h2, h3, h4⟩ := ih db (tries + 1) h
        refine ⟨true :: u, ?_, ?_, h3, h4⟩
        · rw [List.cons_append, ← h1]
        · rw [h2]; simp; omega
      | false =>
        simp only [h, if_true, Bool.false_eq_true, if_false]
        exact ⟨[false], by simp, by simp, ht, by simp⟩
    · simp only [h, if_false]
      exact ⟨[], by simp, by simp, ht, by simp; omega⟩

theorem storeStats_exhausted (ntry mid : Nat) (base : String) (rows : List (String × K)) :
    ∀ (db : DB K) (sched : List Bool), storeStats ntry mid base db rows ntry sched = db := by
  induction rows with
  | nil => intro db s; rfl
  | cons r rows ih =>
    intro db s
    obtain ⟨n, v⟩ := r
    have : tryStat ntry db mid (base ++ " " ++ n) v ntry s = (db, ntry, s) := by
      cases s <;> simp [tryStat]
    simp only [storeStats, this]
    exact ih db s

/-- Storing a table gives the rows of some prefix of it; the whole table unless
`ntry` failures have occurred. -/
theorem storeStats_prefix (ntry mid : Nat) (base : String) (rows : List (String × K)) :
    ∀ (db : DB K) (tries : Nat) (sched : List Bool), tries ≤ ntry → ∃ k,
      (storeStats ntry mid base db rows tries sched).statsOf mid =
        db.statsOf mid ++ (wanted base rows).take k ∧
      (tries + sched.count true < ntry → k = rows.length) := by
  induction rows with
  | nil => intro db t s _; exact ⟨0, by simp [storeStats, wanted], fun _ => rfl⟩
  | cons r rows ih =>
    intro db t s ht
    obtain ⟨n, v⟩ := r
    obtain ⟨u, h1, h2, h3, h4⟩ := tryStat_spec ntry mid (base ++ " " ++ n) v s db t ht
    simp only [storeStats]
    rcases h4 with ⟨h5, h6⟩ | ⟨h5, h6⟩
    · obtain ⟨k, hk1, hk2⟩ := ih (tryStat ntry db mid (base ++ " " ++ n) v t s).1
        (tryStat ntry db mid (base ++ " " ++ n) v t s).2.1
        (tryStat ntry db mid (base ++ " " ++ n) v t s).2.2 h3
      refine ⟨k + 1, ?_, ?_⟩
      · rw [hk1, h6, statsOf_add]
        simp [wanted]
      · intro hlt
        rw [hk2]
        · rfl
        · rw [h2]
          have : s.count true = u.count true + (tryStat ntry db mid (base ++ " " ++ n) v t s).2.2.count true := by
            conv_lhs => rw [h1, List.count_append]
          omega
    · refine ⟨0, ?_, ?_⟩
      · rw [h5, h6, storeStats_exhausted]; simp
      · intro hlt
        exfalso
        have : u.count true ≤ s.count true := by
          conv_rhs => rw [h1, List.count_append]
          omega
        omega

/-- **C21**, what holds for every lock schedule: the stored rows are the rows of a
prefix of the table, each once and in order (nothing is duplicated, reordered or
altered), and it is the whole table when fewer than `ntry` lock failures occur in
the whole call. Missing: the retries are not counted per value, see
`summary_table_lost`. -/
theorem summary_table_partial (ntry mid : Nat) (base : String) (rows : List (String × K)) (db : DB K)
    (sched : List Bool) :
    (∃ k, (updateSummaryStat ntry db mid base sched (.table rows)).statsOf mid =
        db.statsOf mid ++ (wanted base rows).take k) ∧
    (sched.count true < ntry → (updateSummaryStat ntry db mid base sched (.table rows)).statsOf mid =
        db.statsOf mid ++ wanted base rows) := by
  obtain ⟨k, h1, h2⟩ := storeStats_prefix ntry mid base rows db 0 sched (Nat.zero_le _)
  refine ⟨⟨k, h1⟩, fun h => ?_⟩
  show (storeStats ntry mid base db rows 0 sched).statsOf mid = _
  rw [h1, h2 (by omega), List.take_of_length_le (by simp [wanted])]

/-- Full statement of C21 for a fixed number of retries: if each value's own
attempts succeed within `ntry` attempts (`fails.get i` failures before the
success of value `i`, all below `ntry`), everything is stored. -/
def RetriesPerValue (ntry : Nat) : Prop :=
  ∀ (rows : List (String × Nat)) (fails : List Nat), fails.length = rows.length → (∀ x ∈ fails, x < ntry) →
    (updateSummaryStat ntry DB.empty 1 "s" (fails.flatMap (fun n => List.replicate n true ++ [false]))
      (.table rows)).statsOf 1 = wanted "s" rows

/-- **C21**, refutation: three attempts allowed, two failures for the first value,
one for the second; the second and third values are lost, silently. -/
theorem summary_table_lost : ¬ RetriesPerValue 3 := by
  intro h
  have := h [("a", 1), ("b", 2), ("c", 3)] [2, 1, 0] rfl (by decide)
  revert this
  decide +kernel

/-- **C21**, in general: as soon as `ntry` failures have happened, all remaining
values are lost even if the database is never locked again. -/
theorem summary_table_drops_rest (ntry mid : Nat) (base : String) (rows : List (String × K)) (db : DB K) :
    updateSummaryStat ntry db mid base (List.replicate ntry true) (.table rows) = db := by
  cases rows with
  | nil => rfl
  | cons r rows =>
    obtain ⟨n, v⟩ := r
    have key : ∀ k t, t + k = ntry → tryStat ntry db mid (base ++ " " ++ n) v t (List.replicate k true) =
        (db, ntry, []) := by
      intro k
      induction k with
      | zero => intro t h; have : t = ntry := by omega
                subst this; simp [tryStat]
      | succ k ih =>
        intro t h
        rw [List.replicate_succ]
        simp only [tryStat]
        rw [if_pos (by omega)]
        simp only [if_true]
        exact ih (t + 1) (by omega)
    simp only [updateSummaryStat, storeStats, key ntry 0 (by omega)]
    exact storeStats_exhausted ntry mid base rows db []

/-! ## C51: "add or update" only adds -/

/-- **C51.** Recording a plain summary value never replaces an earlier one: each
call adds one row, whatever is stored already. -/
theorem summary_value_added (ntry mid : Nat) (name : String) (v : K) (db : DB K) (sched : List Bool) (m : Nat) :
    (updateSummaryStat ntry db mid name sched (.num v)).statsOf m =
      db.statsOf m ++ (if mid = m then [(name, v)] else []) := statsOf_add db m mid name v

/-- **C51.** After `n` calls for the same metric and name on a new database, in any
history with no other summary call for that metric, there are `n` rows. -/
theorem summary_rows_accumulate (mid : Nat) (name : String) (vs : List K) :
    (runOps DB.empty (vs.map (fun v => Op.stat mid name (.num v) []))).statsOf mid = vs.map (fun v => (name, v)) := by
  have : ∀ (vs : List K) (db : DB K), (runOps db (vs.map (fun v => Op.stat mid name (.num v) []))).statsOf mid =
      db.statsOf mid ++ vs.map (fun v => (name, v)) := by
    intro vs
    induction vs with
    | nil => intro db; simp [runOps]
    | cons v vs ih =>
      intro db
      show (runOps (addStat db mid name v) _).statsOf mid = _
      rw [ih, statsOf_add]
      simp
  rw [this]
  rfl

/-- **C51**, refutation of "add a row to *or update a row*". -/
theorem summary_not_updated :
    ¬ ∀ (db : DB Nat) (mid : Nat) (name : String) (v w : Nat),
      ((updateSummaryStat 3 (updateSummaryStat 3 db mid name [] (.num v)) mid name [] (.num w)).statsOf mid).filter
        (fun r => r.1 == name) = [(name, w)] := by
  intro h
  have := h DB.empty 1 "Median" 1 2
  revert this
  decide +kernel

/-! ## C52: standardised summary names -/

/-- **C52.** Four different statistics of the same metric get the same name. -/
theorem summaryName_collides (metric : String) (info slicer : Option String) :
    buildSummaryName metric info slicer (some "Identity") = buildSummaryName metric info slicer none ∧
    buildSummaryName metric info slicer (some "Id") = buildSummaryName metric info slicer none ∧
    buildSummaryName metric info slicer (some "Count") = buildSummaryName metric info slicer none ∧
    buildSummaryName metric info (some "UniSlicer") none = buildSummaryName metric info none none :=
  ⟨rfl, rfl, rfl, by simp [buildSummaryName]⟩

/-- **C52.** The comma removal has no effect. -/
theorem summaryName_keeps_commas :
    ¬ ∀ metric info slicer stat, ',' ∉ (buildSummaryName metric info slicer stat).toList := by
  intro h
  have := h "Nvisits" (some "u,g") none (some "Mean")
  revert this
  decide +kernel

/-- **C52**, what holds: names never begin or end with a space. -/
theorem summaryName_stripped_partial (metric : String) (info slicer stat : Option String) :
    (buildSummaryName metric info slicer stat).toList.head? ≠ some ' ' ∧
    (buildSummaryName metric info slicer stat).toList.getLast? ≠ some ' ' := by
  have hd : ∀ l : List Char, (l.dropWhile (· == ' ')).head? ≠ some ' ' := by
    intro l h
    have := List.head?_dropWhile_not (p := (· == ' ')) l
    rw [h] at this
    simp at this
  have hlast : ∀ l : List Char, l.getLast? ≠ some ' ' → (l.dropWhile (· == ' ')).getLast? ≠ some ' ' := by
    intro l
    induction l with
    | nil => simp
    | cons c l ih =>
      intro h
      by_cases hc : c = ' '
      · subst hc
        rw [List.dropWhile_cons_of_pos (by simp)]
        cases l with
        | nil => simp
        | cons d l => exact ih (by simpa using h)
      · rw [List.dropWhile_cons_of_neg (by simpa using hc)]
        exact h
  unfold buildSummaryName
  simp only [String.toList_ofList, stripSpaces]
  refine ⟨hd _, hlast _ ?_⟩
  rw [List.getLast?_reverse]
  exact hd _

example : buildSummaryName "CoaddM5" (some "r band") (some "HealpixSlicer") (some "Median") =
    "Median CoaddM5 r band HealpixSlicer" := by decide +kernel

end Verif.Db
