import Verif.Model.StackerEq
import Mathlib.Data.List.Nodup

/-!
# C207: equality of stackers
-/

namespace Verif.StackEq

variable {X : Type} [DecidableEq X]

theorem get_of_mem (o : Obj X) (h : (o.attrs.map Prod.fst).Nodup) (e : String × Attr X) (he : e ∈ o.attrs) :
    o.get e.1 = some e.2 := by
  unfold Obj.get
  generalize o.attrs = l at h he
  induction l with
  | nil => simp at he
  | cons a l ih =>
    rw [List.map_cons, List.nodup_cons] at h
    rw [List.find?_cons]
    rcases List.mem_cons.1 he with rfl | he
    · simp
    · have : (a.1 == e.1) = false := by
        simp only [beq_eq_false_iff_ne, ne_eq]
        exact fun hh => h.1 (hh ▸ List.mem_map_of_mem he)
      rw [this]
      exact ih h.2 he

theorem get_mem (o : Obj X) (k : String) (w : Attr X) (h : o.get k = some w) : (k, w) ∈ o.attrs := by
  unfold Obj.get at h
  rw [Option.map_eq_some_iff] at h
  obtain ⟨e, he, rfl⟩ := h
  have h1 := List.find?_some he
  have h2 := List.mem_of_find?_eq_some he
  simp only [beq_iff_eq] at h1
  rw [← h1]
  exact h2

theorem get_none (o : Obj X) (k : String) (h : k ∉ o.attrs.map Prod.fst) : o.get k = none := by
  cases hg : o.get k with
  | none => rfl
  | some w => exact absurd (List.mem_map_of_mem (f := Prod.fst) (get_mem o k w hg)) h

/-- When stackers are equal. -/
theorem eq_iff (a b : Obj X) : stackerEq a b = true ↔ a.cls = b.cls ∧
    ∀ e ∈ a.attrs, skipped e.1 = false → b.get e.1 = some e.2 := by
  unfold stackerEq
  by_cases h : a.cls = b.cls
  · rw [if_neg (not_not.2 h), List.all_eq_true]
    refine ⟨fun hh => ⟨h, fun e he hs => ?_⟩, fun hh e he => ?_⟩
    · have := hh e he
      rw [hs, Bool.false_or] at this
      cases hg : b.get e.1 with
      | none => rw [hg] at this; simp at this
      | some w => rw [hg] at this; simp only [decide_eq_true_eq] at this; rw [this]
    · cases hs : skipped e.1 with
      | true => rfl
      | false => rw [hh.2 e he hs]; simp
  · rw [if_pos h]
    simp [h]

/-- C207: a stacker is equal to itself. -/
theorem eq_refl (a : Obj X) (h : (a.attrs.map Prod.fst).Nodup) : stackerEq a a = true :=
  (eq_iff a a).2 ⟨rfl, fun e he _ => get_of_mem a h e he⟩

theorem ne_iff (a b : Obj X) : stackerNe a b = !stackerEq a b := by
  unfold stackerNe
  cases stackerEq a b <;> rfl

/-- C207: new stackers of the same class without public methods are equal exactly if they have the same
configuration. -/
theorem eq_new_partial (u v : ℕ) (cls : String) (c d : List (String × X)) (hk : c.map Prod.fst = d.map Prod.fst)
    (hnd : (c.map Prod.fst).Nodup) (hp : ∀ e ∈ c, e.1.startsWith "_" = false ∧ e.1 ≠ "registry" ∧ e.1 ≠ "run" ∧ e.1 ≠ "next") :
    stackerEq (make u cls c []) (make v cls d []) = true ↔ c = d := by
  replace hp : ∀ e ∈ c, skipped e.1 = false := by
    intro e he
    obtain ⟨h1, h2, h3, h4⟩ := hp e he
    simp [skipped, h1, h2, h3, h4]
  have hmap : ∀ (u : ℕ) (c : List (String × X)), (make u cls c []).attrs.map Prod.fst = c.map Prod.fst := by
    intro u c
    unfold make
    simp [Function.comp_def]
  have hndc : ((make u cls c []).attrs.map Prod.fst).Nodup := by rw [hmap]; exact hnd
  have hndd : ((make v cls d []).attrs.map Prod.fst).Nodup := by rw [hmap, ← hk]; exact hnd
  rw [eq_iff]
  constructor
  · rintro ⟨_, h⟩
    have hlen : c.length = d.length := by simpa using congrArg List.length hk
    refine List.ext_getElem hlen fun i h1 h2 => ?_
    have hm : ((c[i]).1, Attr.val (c[i]).2) ∈ (make u cls c []).attrs := by
      unfold make
      simp only [List.map_nil, List.append_nil]
      exact List.mem_map.2 ⟨c[i], List.getElem_mem h1, rfl⟩
    have hg := h _ hm (hp _ (List.getElem_mem h1))
    have hki : (c[i]).1 = (d[i]).1 := by
      have := List.getElem_of_eq hk (i := i) (by simpa using h1)
      simpa using this
    have hm' : ((d[i]).1, Attr.val (d[i]).2) ∈ (make v cls d []).attrs := by
      unfold make
      simp only [List.map_nil, List.append_nil]
      exact List.mem_map.2 ⟨d[i], List.getElem_mem h2, rfl⟩
    have hg' := get_of_mem _ hndd _ hm'
    simp only at hg hg'
    rw [hki, hg'] at hg
    simp only [Option.some.injEq, Attr.val.injEq] at hg
    exact Prod.ext hki hg.symm
  · rintro rfl
    refine ⟨rfl, fun e he _ => ?_⟩
    have : e ∈ (make v cls c []).attrs := he
    exact get_of_mem _ hndd e this

/-- C207 is false: a stacker that was run (whose types were not set) is not equal to a new one made in the same way, though
the new one is equal to it. -/
theorem eq_used_false (floats : X) (isNone : X → Bool) (u v : ℕ) (cls : String) (c : List (String × X))
    (hnd : (c.map Prod.fst).Nodup) (hc : "cols_added_dtypes" ∉ c.map Prod.fst) :
    stackerEq (used floats isNone (make u cls c [])) (make v cls c []) = false ∧
    stackerEq (make v cls c []) (used floats isNone (make u cls c [])) = true := by
  have hmap : ∀ u : ℕ, (make u cls c []).attrs.map Prod.fst = c.map Prod.fst := by
    intro u
    unfold make
    simp [Function.comp_def]
  have hn : ∀ u : ℕ, (make u cls c []).get "cols_added_dtypes" = none := fun u => get_none _ _ (by rw [hmap]; exact hc)
  have hu : used floats isNone (make u cls c []) =
      ⟨u, cls, (make u cls c []).attrs ++ [("cols_added_dtypes", .val floats)]⟩ := by
    unfold used
    rw [hn]
    rfl
  rw [hu]
  constructor
  · cases h : stackerEq _ (make v cls c []) with
    | false => rfl
    | true =>
      have := ((eq_iff _ _).1 h).2 ("cols_added_dtypes", .val floats) (by simp)
        (show skipped "cols_added_dtypes" = false by decide +kernel)
      simp only at this
      rw [hn v] at this
      cases this
  · refine (eq_iff _ _).2 ⟨rfl, fun e he _ => ?_⟩
    refine get_of_mem _ ?_ e (List.mem_append_left _ he)
    rw [List.map_append, hmap]
    simp only [List.map_cons, List.map_nil]
    rw [List.nodup_append]
    refine ⟨hnd, by simp, fun a ha b hb => ?_⟩
    rw [List.mem_singleton] at hb
    subst hb
    exact fun e => hc (e ▸ ha)

/-- C207 is false: two stackers of a class with a public method are never equal, however they are made. -/
theorem eq_methods_false (u v : ℕ) (huv : u ≠ v) (cls : String) (c d : List (String × X)) (ms : List String) (k : String) (hk : k ∈ ms)
    (hs : skipped k = false) :
    stackerEq (make u cls c ms) (make v cls d ms) = false := by
  cases h : stackerEq (make u cls c ms) (make v cls d ms) with
  | false => rfl
  | true =>
    have := ((eq_iff _ _).1 h).2 (k, .method u) (by
      unfold make
      exact List.mem_append_right _ (List.mem_map.2 ⟨k, hk, rfl⟩)) hs
    have hm := get_mem _ _ _ this
    unfold make at hm
    rcases List.mem_append.1 hm with hm | hm
    · obtain ⟨e, he, h2⟩ := List.mem_map.1 hm
      simp only [Prod.mk.injEq, reduceCtorEq, and_false] at h2
    · obtain ⟨e, _, h2⟩ := List.mem_map.1 hm
      simp only [Prod.mk.injEq, Attr.method.injEq] at h2
      exact absurd h2.2.symm huv

/-- Two stackers of a night column: made in the same way, one of them used, and made differently. -/
example : let a := make 0 "AStacker" [("cols_req", 1), ("units", 2)] []
    let b := make 1 "AStacker" [("cols_req", 1), ("units", 2)] []
    let c := make 2 "AStacker" [("cols_req", 1), ("units", 3)] []
    stackerEq a b = true ∧ stackerEq a c = false ∧ stackerNe (used 9 (fun _ => false) a) b = true ∧
    stackerNe b (used 9 (fun _ => false) a) = false ∧ stackerEq (used 9 (fun _ => false) a) (used 9 (fun _ => false) b) = true ∧
    stackerEq (make 0 "W" [("a", 1)] ["define_ddname"]) (make 1 "W" [("a", 1)] ["define_ddname"]) = false := by
  decide +kernel

end Verif.StackEq
