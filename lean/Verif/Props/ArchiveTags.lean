import Verif.Model.Archive
import Mathlib.Data.List.Nodup
import Mathlib.Data.List.Count
import Mathlib.Data.List.Range
import Mathlib.Tactic.Common

/-!
# C23, C24: tags, one client and many
-/

namespace Verif.Archive

variable {U T : Type*} [DecidableEq U] [DecidableEq T]

theorem isTagged_iff (rows : List (U × T)) (u : U) (t : T) : isTagged rows u t = true ↔ (u, t) ∈ rows := by
  simp [isTagged, Nat.one_le_iff_ne_zero, List.count_eq_zero]

/-- Specification for one pair `(u, t)`: whether it is tagged after a call, given
whether it was before. -/
def tagSpec (u : U) (t : T) (b : Bool) : TagOp U T → Bool
  | .tag u' ts => b || (decide (u' = u) && decide (t ∈ ts))
  | .untag u' t' => if u' = u ∧ t' = t then false else b

theorem tagOne_mem (rows : List (U × T)) (u : U) (t : T) (x : U × T) :
    x ∈ tagOne rows u t ↔ x ∈ rows ∨ x = (u, t) := by
  unfold tagOne
  split
  · rename_i h
    rw [isTagged_iff] at h
    constructor
    · exact Or.inl
    · rintro (h' | rfl)
      · exact h'
      · exact h
  · simp

theorem tagOne_nodup (rows : List (U × T)) (u : U) (t : T) (h : rows.Nodup) : (tagOne rows u t).Nodup := by
  unfold tagOne
  split
  · exact h
  · rename_i hn
    rw [isTagged_iff] at hn
    rw [List.nodup_append]
    refine ⟨h, by simp, ?_⟩
    rintro a ha b hb rfl
    simp only [List.mem_singleton] at hb
    exact hn (hb ▸ ha)

theorem tag_mem (u : U) (ts : List T) (x : U × T) :
    ∀ rows : List (U × T), x ∈ tag rows u ts ↔ x ∈ rows ∨ (x.1 = u ∧ x.2 ∈ ts) := by
  induction ts with
  | nil => intro rows; simp [tag]
  | cons t ts ih =>
    intro rows
    have : tag rows u (t :: ts) = tag (tagOne rows u t) u ts := rfl
    rw [this, ih, tagOne_mem]
    obtain ⟨a, b⟩ := x
    simp only [Prod.mk.injEq, List.mem_cons]
    tauto

theorem tag_nodup (u : U) (ts : List T) : ∀ rows : List (U × T), rows.Nodup → (tag rows u ts).Nodup := by
  induction ts with
  | nil => intro rows h; exact h
  | cons t ts ih => intro rows h; exact ih _ (tagOne_nodup rows u t h)

theorem tagOp_mem (rows : List (U × T)) (op : TagOp U T) (u : U) (t : T) :
    (u, t) ∈ op.apply rows ↔ tagSpec u t (decide ((u, t) ∈ rows)) op = true := by
  cases op with
  | tag u' ts =>
    simp only [TagOp.apply, tag_mem, tagSpec, Bool.or_eq_true, decide_eq_true_eq, Bool.and_eq_true]
    constructor
    · rintro (h | ⟨rfl, h⟩)
      · exact Or.inl h
      · exact Or.inr ⟨rfl, h⟩
    · rintro (h | ⟨rfl, h⟩)
      · exact Or.inl h
      · exact Or.inr ⟨rfl, h⟩
  | untag u' t' =>
    simp only [TagOp.apply, tagSpec, untag]
    by_cases hx : u' = u ∧ t' = t
    · obtain ⟨rfl, rfl⟩ := hx
      simp only [and_self, if_true, Bool.false_eq_true, iff_false]
      split
      · simp
      · rename_i h
        rw [isTagged_iff] at h
        simpa using h
    · rw [if_neg hx]
      split
      · simp only [Option.getD_some, List.mem_filter, decide_eq_true_eq, ne_eq, Prod.mk.injEq]
        constructor
        · exact And.left
        · exact fun h => ⟨h, fun e => hx ⟨e.1.symm, e.2.symm⟩⟩
      · simp

theorem tagOp_nodup (rows : List (U × T)) (op : TagOp U T) (h : rows.Nodup) : (op.apply rows).Nodup := by
  cases op with
  | tag u ts => exact tag_nodup u ts rows h
  | untag u t =>
    simp only [TagOp.apply, untag]
    split
    · exact h.filter _
    · exact h

/-- **C23.** After any history of one client on an empty table there is at most one
row per (sequence, tag), and `is_tagged` says whether the last call on that pair
was a tag. -/
theorem tags_set (ops : List (TagOp U T)) :
    (ops.foldl TagOp.apply ([] : List (U × T))).Nodup ∧
    ∀ u t, isTagged (ops.foldl TagOp.apply []) u t = ops.foldl (tagSpec u t) false := by
  have key : ∀ (ops : List (TagOp U T)) (rows : List (U × T)), rows.Nodup →
      (ops.foldl TagOp.apply rows).Nodup ∧
      ∀ u t, isTagged (ops.foldl TagOp.apply rows) u t = ops.foldl (tagSpec u t) (decide ((u, t) ∈ rows)) := by
    intro ops
    induction ops with
    | nil =>
      intro rows h
      refine ⟨h, fun u t => ?_⟩
      rw [Bool.eq_iff_iff, List.foldl_nil, List.foldl_nil, isTagged_iff, decide_eq_true_eq]
    | cons op ops ih =>
      intro rows h
      obtain ⟨h1, h2⟩ := ih (op.apply rows) (tagOp_nodup rows op h)
      refine ⟨h1, fun u t => ?_⟩
      rw [List.foldl_cons, List.foldl_cons, h2]
      congr 1
      rw [Bool.eq_iff_iff, decide_eq_true_eq]
      exact tagOp_mem rows op u t
  obtain ⟨h1, h2⟩ := key ops [] List.nodup_nil
  exact ⟨h1, fun u t => by rw [h2]; simp⟩

/-- **C23.** `untag` fails exactly when the pair is not tagged; when it succeeds it
removes that pair and nothing else. -/
theorem untag_spec (rows : List (U × T)) (u : U) (t : T) :
    (untag rows u t = none ↔ (u, t) ∉ rows) ∧
    ∀ rows', untag rows u t = some rows' → ∀ x, x ∈ rows' ↔ x ∈ rows ∧ x ≠ (u, t) := by
  unfold untag
  constructor
  · rw [← isTagged_iff]
    split <;> simp_all
  · intro rows' h x
    split at h
    · cases h; simp
    · cases h

example : [TagOp.tag 1 ["a", "b", "a"], .untag 1 "b", .untag 2 "a", .tag 2 ["a"]].foldl TagOp.apply [] =
    [(1, "a"), (2, "a")] := by decide

/-! ## C24 -/

/-- The serial execution of the concurrent model agrees with `tagOne`. -/
theorem serial_tag (s : Conc U T) (c : Nat) (u : U) (t : T) :
    (s.run [.checkTag c u t, .write c]).rows = tagOne s.rows u t := by
  simp only [Conc.run, List.foldl_cons, List.foldl_nil, Conc.step, Function.update_self, tagOne]
  by_cases h : isTagged s.rows u t = true <;> simp [h]

/-- The serial execution of the concurrent model agrees with `untag`. -/
theorem serial_untag (s : Conc U T) (c : Nat) (u : U) (t : T) :
    (s.run [.checkUntag c u t, .write c]).rows = (untag s.rows u t).getD s.rows := by
  simp only [Conc.run, List.foldl_cons, List.foldl_nil, Conc.step, Function.update_self, untag]
  by_cases h : isTagged s.rows u t = true <;> simp [h]

/-- The client an action belongs to. -/
def Act.client : Act U T → Nat
  | .checkTag c _ _ => c
  | .checkUntag c _ _ => c
  | .write c => c

theorem step_other_pend (s : Conc U T) (a : Act U T) (c : Nat) (h : a.client ≠ c) :
    (s.step a).pend c = s.pend c := by
  cases a with
  | checkTag c' u t => simp [Conc.step, Function.update_of_ne (fun e : c = c' => h e.symm)]
  | checkUntag c' u t => simp [Conc.step, Function.update_of_ne (fun e : c = c' => h e.symm)]
  | write c' =>
    simp only [Conc.step]
    split <;> simp [Function.update_of_ne (fun e : c = c' => h e.symm)]

theorem run_other_pend (acts : List (Act U T)) (c : Nat) (h : ∀ a ∈ acts, a.client ≠ c) :
    ∀ s : Conc U T, (s.run acts).pend c = s.pend c := by
  induction acts with
  | nil => intro s; rfl
  | cons a acts ih =>
    intro s
    have e : s.run (a :: acts) = (s.step a).run acts := rfl
    rw [e, ih (fun x hx => h x (List.mem_cons_of_mem _ hx)), step_other_pend s a c (h a List.mem_cons_self)]

/-- No client is about to delete the pair. -/
def NoDel (s : Conc U T) (u : U) (t : T) : Prop := ∀ c, s.pend c ≠ some (.del u t)

theorem step_keep (s : Conc U T) (a : Act U T) (u : U) (t : T) (hn : NoDel s u t)
    (ha : ∀ c, a ≠ .checkUntag c u t) :
    NoDel (s.step a) u t ∧ ((u, t) ∈ s.rows → (u, t) ∈ (s.step a).rows) := by
  cases a with
  | checkTag c u' t' =>
    refine ⟨fun c' => ?_, id⟩
    simp only [Conc.step]
    by_cases hc : c' = c
    · subst hc; rw [Function.update_self]; split <;> simp
    · rw [Function.update_of_ne hc]; exact hn c'
  | checkUntag c u' t' =>
    refine ⟨fun c' => ?_, id⟩
    simp only [Conc.step]
    by_cases hc : c' = c
    · subst hc
      rw [Function.update_self]
      split
      · intro e
        simp only [Option.some.injEq, Pend.del.injEq] at e
        exact ha c' (by rw [e.1, e.2])
      · simp
    · rw [Function.update_of_ne hc]; exact hn c'
  | write c =>
    have hu : ∀ (p : Nat → Option (Pend U T)), p = s.pend → ∀ c', Function.update p c none c' ≠ some (.del u t) := by
      rintro p rfl c'
      by_cases hc : c' = c
      · subst hc; simp
      · rw [Function.update_of_ne hc]; exact hn c'
    simp only [Conc.step]
    split
    · exact ⟨hu _ rfl, fun h => List.mem_append_left _ h⟩
    · rename_i u' t' hp
      refine ⟨hu _ rfl, fun h => List.mem_filter.mpr ⟨h, ?_⟩⟩
      simp only [ne_eq, Prod.mk.injEq, decide_eq_true_eq]
      rintro ⟨rfl, rfl⟩
      exact hn c hp
    · exact ⟨hn, id⟩

theorem run_keep (acts : List (Act U T)) (u : U) (t : T) (ha : ∀ a ∈ acts, ∀ c, a ≠ .checkUntag c u t) :
    ∀ s : Conc U T, NoDel s u t → NoDel (s.run acts) u t ∧ ((u, t) ∈ s.rows → (u, t) ∈ (s.run acts).rows) := by
  induction acts with
  | nil => intro s h; exact ⟨h, id⟩
  | cons a acts ih =>
    intro s h
    obtain ⟨h1, h2⟩ := step_keep s a u t h (ha a List.mem_cons_self)
    obtain ⟨h3, h4⟩ := ih (fun x hx => ha x (List.mem_cons_of_mem _ hx)) (s.step a) h1
    exact ⟨h3, h4 ∘ h2⟩

/-- **C24.** Whatever other clients do meanwhile, as long as nobody untags this
pair, it is tagged once a client has finished tagging it, and stays so. -/
theorem concurrent_tag_holds (s : Conc U T) (c : Nat) (u : U) (t : T) (mid after : List (Act U T))
    (hn : NoDel s u t) (hc : ∀ a ∈ mid, a.client ≠ c)
    (hm : ∀ a ∈ mid ++ after, ∀ c', a ≠ .checkUntag c' u t) :
    isTagged (s.run (.checkTag c u t :: mid ++ .write c :: after)).rows u t = true := by
  rw [isTagged_iff]
  have e : s.run (.checkTag c u t :: mid ++ .write c :: after) =
      ((((s.step (.checkTag c u t)).run mid).step (.write c)).run after) := by
    simp [Conc.run, List.foldl_append]
  rw [e]
  obtain ⟨k1, k2⟩ := step_keep s (.checkTag c u t) u t hn (by simp)
  obtain ⟨k3, k4⟩ := run_keep mid u t (fun a h => hm a (List.mem_append_left _ h)) _ k1
  obtain ⟨k5, k6⟩ := step_keep ((s.step (.checkTag c u t)).run mid) (.write c) u t k3 (by simp)
  apply (run_keep after u t (fun a h => hm a (List.mem_append_right _ h)) _ k5).2
  by_cases ht : isTagged s.rows u t = true
  · rw [isTagged_iff] at ht
    exact k6 (k4 (k2 ht))
  · have hp : ((s.step (.checkTag c u t)).run mid).pend c = some (.ins u t) := by
      rw [run_other_pend mid c hc]
      simp [Conc.step, ht]
    have hw : (((s.step (.checkTag c u t)).run mid).step (.write c)).rows =
        ((s.step (.checkTag c u t)).run mid).rows ++ [(u, t)] := by
      generalize (s.step (.checkTag c u t)).run mid = s' at hp
      simp [Conc.step, hp]
    rw [hw]; simp

/-- **C24.** Whatever duplicates there are, the write of one `untag` removes the
pair completely, and no other pair. -/
theorem concurrent_untag_removes (s : Conc U T) (c : Nat) (u : U) (t : T) (h : s.pend c = some (.del u t)) :
    ∀ x, x ∈ (s.step (.write c)).rows ↔ x ∈ s.rows ∧ x ≠ (u, t) := by
  intro x
  simp [Conc.step, h]

/-- **C24**, the defect: `n` clients that tag the same pair at the same time, all
checking before any of them writes, leave `n` rows — for every `n`. -/
theorem concurrent_tag_duplicates (n : Nat) (u : U) (t : T) :
    ((Conc.mk [] (fun _ => none)).run ((List.range n).map (fun c => Act.checkTag c u t) ++
      (List.range n).map (fun c => Act.write c))).rows = List.replicate n (u, t) := by
  have h1 : ∀ (cs : List Nat) (p : Nat → Option (Pend U T)),
      (Conc.mk ([] : List (U × T)) p).run (cs.map (fun c => Act.checkTag c u t)) =
        ⟨[], fun c => if c ∈ cs then some (.ins u t) else p c⟩ := by
    intro cs
    induction cs with
    | nil => intro p; simp [Conc.run]
    | cons c cs ih =>
      intro p
      have e : (Conc.mk ([] : List (U × T)) p).run ((c :: cs).map (fun c => Act.checkTag c u t)) =
          (Conc.mk ([] : List (U × T)) (Function.update p c (some (.ins u t)))).run
            (cs.map (fun c => Act.checkTag c u t)) := by
        simp [Conc.run, Conc.step, isTagged]
      rw [e, ih]
      congr 1
      funext d
      by_cases h2 : d ∈ cs
      · simp [h2]
      · by_cases h3 : d = c
        · subst h3; simp
        · simp [h2, h3]
  have h2 : ∀ (cs : List Nat) (rows : List (U × T)) (p : Nat → Option (Pend U T)), cs.Nodup →
      (∀ c ∈ cs, p c = some (.ins u t)) →
      ((Conc.mk rows p).run (cs.map (fun c => Act.write c))).rows = rows ++ List.replicate cs.length (u, t) := by
    intro cs
    induction cs with
    | nil => intro rows p _ _; simp [Conc.run]
    | cons c cs ih =>
      intro rows p hnd hp
      have e : (Conc.mk rows p).run ((c :: cs).map (fun c => Act.write c)) =
          (Conc.mk (rows ++ [(u, t)]) (Function.update p c none)).run (cs.map (fun c => Act.write c)) := by
        simp [Conc.run, Conc.step, hp c List.mem_cons_self]
      rw [e, ih]
      · simp [List.replicate_succ]
      · exact (List.nodup_cons.mp hnd).2
      · intro d hd
        have : d ≠ c := fun e => (List.nodup_cons.mp hnd).1 (e ▸ hd)
        rw [Function.update_of_ne this]
        exact hp d (List.mem_cons_of_mem _ hd)
  rw [show ∀ (s : Conc U T) a b, s.run (a ++ b) = (s.run a).run b from
    fun s a b => List.foldl_append]
  rw [h1, h2 _ _ _ List.nodup_range]
  · simp
  · intro c hc; simp [hc]

/-- Two clients tag at once, a third untags: duplicate row, then gone. -/
example : (fun s : Conc Nat String => (s.rows, (s.run [.checkUntag 2 7 "a", .write 2]).rows))
    ((Conc.mk [] (fun _ => none)).run [.checkTag 0 7 "a", .checkTag 1 7 "a", .write 0, .write 1]) =
    ([(7, "a"), (7, "a")], []) := by decide

end Verif.Archive
