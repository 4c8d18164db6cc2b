import Mathlib.Data.List.Dedup
import Mathlib.Tactic.Linarith
import Verif.Model.Proto
import Verif.Props.BaseMetric

/-!
# The prototype archive of simulations
-/

namespace Verif.Proto

open Verif.BaseM (put lookup_put)

/-! ## The number of a simulation -/

private theorem foldl_max (l : List Int) (a : Int) : a ≤ l.foldl max a ∧ (∀ x ∈ l, x ≤ l.foldl max a) ∧ (l.foldl max a = a ∨ l.foldl max a ∈ l) := by
  induction l generalizing a with
  | nil => simp
  | cons b l ih =>
    obtain ⟨h1, h2, h3⟩ := ih (max a b)
    simp only [List.foldl_cons]
    refine ⟨le_trans (le_max_left a b) h1, ?_, ?_⟩
    · intro x hx
      rcases List.mem_cons.1 hx with rfl | hx
      · exact le_trans (le_max_right a x) h1
      · exact h2 x hx
    · rcases h3 with h3 | h3
      · rcases max_choice a b with h | h
        · left; rw [h3, h]
        · right; rw [h3, h]; simp
      · right; exact List.mem_cons_of_mem _ h3

/-- **C422.** The number of a new simulation is larger than all there are, by one from the largest, and 1 if there are none. -/
theorem index_spec (parse : String → Option Int) (dirs : List String) :
    (∀ d ∈ dirs, ∀ i, parse d = some i → i < nextIndex parse dirs) ∧
    ((∀ d ∈ dirs, parse d = none) → nextIndex parse dirs = 1) ∧
    ((∃ d ∈ dirs, parse d ≠ none) → ∃ d ∈ dirs, parse d = some (nextIndex parse dirs - 1)) := by
  have hm : ∀ i, i ∈ dirs.filterMap parse ↔ ∃ d ∈ dirs, parse d = some i := fun i => List.mem_filterMap
  unfold nextIndex
  cases h : dirs.filterMap parse with
  | nil =>
    rw [List.filterMap_eq_nil_iff] at h
    refine ⟨fun d hd i hi => ?_, fun _ => rfl, ?_⟩
    · rw [h d hd] at hi; simp at hi
    · rintro ⟨d, hd, hn⟩
      exact absurd (h d hd) hn
  | cons a l =>
    rw [h] at hm
    obtain ⟨h1, h2, h3⟩ := foldl_max l a
    refine ⟨fun d hd i hi => ?_, fun hn => ?_, fun _ => ?_⟩
    · have : i ∈ a :: l := (hm i).2 ⟨d, hd, hi⟩
      simp only
      rcases List.mem_cons.1 this with rfl | hi
      · omega
      · have := h2 i hi; omega
    · obtain ⟨d, hd, he⟩ := (hm a).1 (by simp)
      rw [hn d hd] at he; simp at he
    · simp only [add_sub_cancel_right]
      refine (hm _).1 ?_
      rcases h3 with h3 | h3
      · rw [h3]; simp
      · exact List.mem_cons_of_mem _ h3

/-- **C422.** The directory of a new simulation is a new one. -/
theorem index_fresh (parse : String → Option Int) (render : Int → String) (hr : ∀ i, parse (render i) = some i) (dirs : List String) :
    render (nextIndex parse dirs) ∉ dirs := by
  intro h
  have := (index_spec parse dirs).1 _ h _ (hr _)
  omega

/-- **C422.** Simulations that are added one after the other have numbers one after the other, from 1 on on a new day. -/
theorem index_sequence (parse : String → Option Int) (render : Int → String) (hr : ∀ i, parse (render i) = some i) (dirs : List String) (n : ℕ) :
    addDirs parse render dirs n = dirs ++ (List.range n).map (fun i : ℕ => render (nextIndex parse dirs + i)) ∧
    ((∀ d ∈ dirs, parse d = none) → addDirs parse render dirs n = dirs ++ (List.range n).map (fun i : ℕ => render (1 + i))) := by
  have key : ∀ n : ℕ, addDirs parse render dirs n = dirs ++ (List.range n).map (fun i : ℕ => render (nextIndex parse dirs + i)) ∧
      nextIndex parse (addDirs parse render dirs n) = nextIndex parse dirs + n := by
    intro n
    induction n with
    | zero => simp [addDirs]
    | succ n ih =>
      obtain ⟨h1, h2⟩ := ih
      have e : addDirs parse render dirs (n + 1) = dirs ++ (List.range (n + 1)).map (fun i : ℕ => render (nextIndex parse dirs + i)) := by
        show mkdir _ _ = _
        unfold mkdir
        rw [if_neg (index_fresh parse render hr _), h2, h1, List.range_succ, List.map_append, List.append_assoc]
        rfl
      refine ⟨e, ?_⟩
      obtain ⟨s1, s2, s3⟩ := index_spec parse (addDirs parse render dirs (n + 1))
      have hin : render (nextIndex parse dirs + n) ∈ addDirs parse render dirs (n + 1) := by
        rw [e, List.range_succ]; simp
      have lo := s1 _ hin _ (hr _)
      obtain ⟨d, hd, hp⟩ := s3 ⟨_, hin, by rw [hr]; simp⟩
      rw [e] at hd
      rcases List.mem_append.1 hd with hd | hd
      · have := (index_spec parse dirs).1 d hd _ hp
        omega
      · obtain ⟨i, hi, rfl⟩ := List.mem_map.1 hd
        rw [hr] at hp
        have := Option.some.inj hp
        have := List.mem_range.1 hi
        push_cast
        omega
  refine ⟨(key n).1, fun h => ?_⟩
  rw [(key n).1, (index_spec parse dirs).2.1 h]

/-- **C422.** Two programs that look before either has made its directory get the same one. -/
theorem index_race (parse : String → Option Int) (render : Int → String) (dirs : List String) :
    let s := [Act.look false, .look true, .make false, .make true].foldl (Two.step parse render) ⟨dirs, fun _ => none, fun _ => none⟩
    s.made false = some (render (nextIndex parse dirs)) ∧ s.made true = s.made false := by
  simp [Two.step]

/-- **C422.** One after the other they get different ones. -/
theorem index_no_race (parse : String → Option Int) (render : Int → String) (hr : ∀ i, parse (render i) = some i) (dirs : List String) :
    let s := [Act.look false, .make false, .look true, .make true].foldl (Two.step parse render) ⟨dirs, fun _ => none, fun _ => none⟩
    s.made false = some (render (nextIndex parse dirs)) ∧ s.made true = some (render (nextIndex parse dirs + 1)) := by
  have h := (index_sequence parse render hr dirs 1).1
  have e : nextIndex parse (mkdir dirs (render (nextIndex parse dirs))) = nextIndex parse dirs + 1 := by
    have h2 := (index_sequence parse render hr dirs 2).1
    have h1 : addDirs parse render dirs 1 = mkdir dirs (render (nextIndex parse dirs)) := rfl
    have h3 : addDirs parse render dirs 2 = mkdir (addDirs parse render dirs 1) (render (nextIndex parse (addDirs parse render dirs 1))) := rfl
    have hf := index_fresh parse render hr (addDirs parse render dirs 1)
    rw [h3, mkdir, if_neg hf, h1, mkdir, if_neg (index_fresh parse render hr dirs), List.append_assoc] at h2
    have h4 := List.append_cancel_left h2
    simp only [List.range_succ, List.range_zero, List.nil_append, List.map_cons, List.map_nil, List.cons_append,
      List.cons.injEq, and_true] at h4
    have h5 := congrArg parse h4.2
    rw [hr, hr] at h5
    rw [mkdir, if_neg (index_fresh parse render hr dirs)]
    exact_mod_cast Option.some.inj h5
  simp [Two.step, e]

example : nextIndex (fun d => [("1", 1), ("9", 9), ("10", 10)].lookup d) ["1", "10", "9", "notes"] = 11 ∧
    nextIndex (fun d => [("1", 1), ("9", 9), ("10", 10)].lookup d) ["notes"] = 1 := by decide +kernel

/-! ## Directories -/

section Files
variable {C H : Type}

private theorem keys_put {V : Type} (d : List (String × V)) (k : String) (v : V) :
    (put d k v).map Prod.fst = if k ∈ d.map Prod.fst then d.map Prod.fst else d.map Prod.fst ++ [k] := by
  induction d with
  | nil => simp [put]
  | cons e d ih =>
    obtain ⟨a, b⟩ := e
    unfold put
    by_cases h : k = a
    · simp [h]
    · rw [if_neg h, List.map_cons, ih]
      simp only [List.map_cons, List.mem_cons, h, false_or]
      split <;> simp

private theorem mem_put_values {V : Type} (d : List (String × V)) (k : String) (v : V) (e : String × V) :
    e ∈ put d k v → e = (k, v) ∨ e ∈ d := by
  induction d with
  | nil => simp [put]
  | cons x d ih =>
    obtain ⟨a, b⟩ := x
    unfold put
    by_cases h : k = a
    · rw [if_pos h]
      intro he
      rcases List.mem_cons.1 he with rfl | he
      · left; rfl
      · right; exact List.mem_cons_of_mem _ he
    · rw [if_neg h]
      intro he
      rcases List.mem_cons.1 he with rfl | he
      · right; simp
      · rcases ih he with h | h
        · left; exact h
        · right; exact List.mem_cons_of_mem _ h

private theorem mem_put_self {V : Type} (d : List (String × V)) (k : String) (v : V) : (k, v) ∈ put d k v := by
  induction d with
  | nil => simp [put]
  | cons x d ih =>
    obtain ⟨a, b⟩ := x
    unfold put
    split
    · simp
    · exact List.mem_cons_of_mem _ ih

private theorem mem_put_other {V : Type} (d : List (String × V)) (k : String) (v : V) (e : String × V) (he : e ∈ d) (hk : e.1 ≠ k) :
    e ∈ put d k v := by
  induction d with
  | nil => simp at he
  | cons x d ih =>
    obtain ⟨a, b⟩ := x
    unfold put
    split
    next h =>
      rcases List.mem_cons.1 he with rfl | he
      · exact absurd h.symm hk
      · exact List.mem_cons_of_mem _ he
    · rcases List.mem_cons.1 he with rfl | he
      · simp
      · exact List.mem_cons_of_mem _ (ih he)

private theorem put_fresh {V : Type} (d : List (String × V)) (k : String) (v : V) (h : k ∉ d.map Prod.fst) : put d k v = d ++ [(k, v)] := by
  induction d with
  | nil => rfl
  | cons x d ih =>
    obtain ⟨a, b⟩ := x
    simp only [List.map_cons, List.mem_cons, not_or] at h
    unfold put
    rw [if_neg h.1, ih h.2, List.cons_append]

private theorem copyLoop_spec (src : List (String × C)) (fs : List (FileInfo H)) (dest : List (String × C)) :
    ((copyLoop src fs dest).2 = none ↔ ∀ f ∈ fs, src.lookup f.name ≠ none) ∧
    ((copyLoop src fs dest).2 = none → ∀ n, (copyLoop src fs dest).1.lookup n = if n ∈ fs.map FileInfo.name then src.lookup n else dest.lookup n) ∧
    (∀ n, n ∉ fs.map FileInfo.name → (copyLoop src fs dest).1.lookup n = dest.lookup n) ∧
    ((copyLoop src fs dest).2 = none ∨ (copyLoop src fs dest).2 = some .notFound) := by
  induction fs generalizing dest with
  | nil => simp [copyLoop]
  | cons f fs ih =>
    unfold copyLoop
    cases h : src.lookup f.name with
    | none =>
      simp only [List.mem_cons, forall_eq_or_imp, h]
      simp
    | some c =>
      obtain ⟨h1, h2, h3, h4⟩ := ih (put dest f.name c)
      simp only [List.mem_cons, forall_eq_or_imp, h, List.map_cons]
      refine ⟨by rw [h1]; simp, fun hn n => ?_, fun n hn => ?_, h4⟩
      · rw [h2 hn n, lookup_put]
        by_cases hnf : n = f.name
        · subst hnf; simp [h]
        · simp [hnf]
      · simp only [not_or] at hn
        rw [h3 n hn.2, lookup_put, if_neg hn.1]

/-- **C423.** The transfer succeeds just if the metadata and all files in them are there, and then these files are there and nothing else, as they were. -/
theorem transfer_spec (src : List (String × C)) (files : List (String × FileInfo H)) (hk : "metadata" ∉ files.map Prod.fst) :
    ((transfer src files).2 = none ↔ src.lookup "sim_metadata.yaml" ≠ none ∧ ∀ f ∈ files, src.lookup f.2.name ≠ none) ∧
    ((transfer src files).2 = none → ∀ n, (transfer src files).1.lookup n =
      if n = "sim_metadata.yaml" ∨ n ∈ files.map (fun f => f.2.name) then src.lookup n else none) := by
  unfold transfer
  rw [put_fresh _ _ _ hk]
  cases h : src.lookup yamlName with
  | none =>
    have : src.lookup "sim_metadata.yaml" = none := h
    simp [this]
  | some y =>
    obtain ⟨h1, h2, h3, h4⟩ := copyLoop_spec src ((files ++ [("metadata", (⟨yamlName, none⟩ : FileInfo H))]).map Prod.snd) []
    have hy : src.lookup "sim_metadata.yaml" = some y := h
    simp only
    constructor
    · rw [h1]
      simp only [List.map_append, List.map_cons, List.map_nil, List.mem_append, List.mem_map, List.mem_singleton, hy]
      constructor
      · intro hall
        exact ⟨by simp, fun f hf => hall f.2 (Or.inl ⟨f, hf, rfl⟩)⟩
      · rintro ⟨-, hall⟩ f (⟨g, hg, rfl⟩ | rfl)
        · exact hall g hg
        · rw [h]; simp
    · intro hn n
      rw [h2 hn n]
      have : n ∈ ((files ++ [("metadata", (⟨yamlName, none⟩ : FileInfo H))]).map Prod.snd).map FileInfo.name ↔
          n = "sim_metadata.yaml" ∨ n ∈ files.map (fun f => f.2.name) := by
        simp only [List.map_append, List.map_map, List.map_cons, List.map_nil, List.mem_append, List.mem_singleton]
        rw [or_comm]
        rfl
      simp only [this, List.lookup_nil]

/-- **C423.** A transfer that fails leaves no metadata, so that the simulation is not found. -/
theorem transfer_fail (src : List (String × C)) (files : List (String × FileInfo H)) (hk : "metadata" ∉ files.map Prod.fst)
    (hn : "sim_metadata.yaml" ∉ files.map (fun f => f.2.name)) (e : PyErr) (h : (transfer src files).2 = some e) :
    (transfer src files).1.lookup "sim_metadata.yaml" = none := by
  unfold transfer at h ⊢
  rw [put_fresh _ _ _ hk] at h ⊢
  cases hy : src.lookup yamlName with
  | none => rfl
  | some y =>
    rw [hy] at h
    simp only [List.map_append, List.map_cons, List.map_nil] at h ⊢
    have key : ∀ (fs : List (FileInfo H)) (dest : List (String × C)), (∀ f ∈ fs, f.name ≠ yamlName) → dest.lookup yamlName = none →
        (copyLoop src (fs ++ [⟨yamlName, none⟩]) dest).2 = some e → (copyLoop src (fs ++ [⟨yamlName, none⟩]) dest).1.lookup yamlName = none := by
      intro fs
      induction fs with
      | nil =>
        intro dest _ _ he
        simp [copyLoop, hy] at he
      | cons f fs ih =>
        intro dest hf hd he
        rw [List.cons_append] at he ⊢
        unfold copyLoop at he ⊢
        cases hs : src.lookup f.name with
        | none => exact hd
        | some c =>
          rw [hs] at he
          refine ih _ (fun g hg => hf g (List.mem_cons_of_mem _ hg)) ?_ he
          rw [lookup_put, if_neg (fun hh => hf f (by simp) hh.symm)]
          exact hd
    refine key _ _ ?_ rfl h
    intro f hf he
    obtain ⟨g, hg, rfl⟩ := List.mem_map.1 hf
    exact hn (List.mem_map.2 ⟨g, hg, he⟩)

/-- **C423.** That is so only if the metadata have no entry for themselves: with the files of an exported simulation they may be there without the visits. -/
theorem transfer_fail_false : ¬ ∀ (src : List (String × Nat)) (files : List (String × FileInfo Nat)) (e : PyErr), (transfer src files).2 = some e →
    (transfer src files).1.lookup "sim_metadata.yaml" = none := by
  intro h
  have := h [("sim_metadata.yaml", 5)] [("metadata", ⟨"sim_metadata.yaml", none⟩), ("observations", ⟨"opsim.db", none⟩)] .notFound (by decide +kernel)
  revert this
  decide +kernel

/-- **C424.** If all files are there and have hashes, the check compares each one's hash with the one in the metadata; otherwise it raises. -/
theorem check_spec [DecidableEq H] (md5 : C → H) (dir : List (String × C)) (files : List (String × FileInfo H)) :
    ((∀ f ∈ files, dir.lookup f.2.name ≠ none ∧ f.2.md5 ≠ none) →
      check md5 dir files = .ok (files.map (fun f => (f.2.name, decide (f.2.md5 = (dir.lookup f.2.name).map md5))))) ∧
    ((∃ f ∈ files, dir.lookup f.2.name = none ∨ f.2.md5 = none) → ∃ e, check md5 dir files = .error e) := by
  induction files with
  | nil => simp [check]
  | cons f fs ih =>
    obtain ⟨h1, h2⟩ := ih
    unfold check
    cases hl : dir.lookup f.2.name with
    | none =>
      refine ⟨fun h => absurd hl (h f (by simp)).1, fun _ => ⟨_, rfl⟩⟩
    | some c =>
      cases hm : f.2.md5 with
      | none => exact ⟨fun h => absurd hm (h f (by simp)).2, fun _ => ⟨_, rfl⟩⟩
      | some x =>
        constructor
        · intro h
          simp only
          rw [h1 (fun g hg => h g (List.mem_cons_of_mem _ hg))]
          simp [hl, hm]
        · rintro ⟨g, hg, hh⟩
          rcases List.mem_cons.1 hg with rfl | hg
          · rw [hl, hm] at hh; simp at hh
          · obtain ⟨e, he⟩ := h2 ⟨g, hg, hh⟩
            simp only
            rw [he]
            exact ⟨_, rfl⟩

/-- **C424.** The check of a simulation that was exported from the other archive always raises. -/
theorem check_exported [DecidableEq H] (md5 : C → H) (dir : List (String × C)) (files : List (String × String)) :
    ∃ e, check md5 dir (exportFiles (H := H) files) = .error e := by
  refine (check_spec md5 dir _).2 ⟨("metadata", ⟨yamlName, none⟩), ?_, Or.inr rfl⟩
  exact mem_put_self _ _ _

private theorem collect_inv (P : String → Prop) (Q : String → Prop) (obs : C) (rewards : Option C) (stats : C) (ins : List (String × String × C))
    (hP : P "opsim.db" ∧ P "rewards.h5" ∧ P "obs_stats.txt") (hQ : Q "observations" ∧ Q "rewards" ∧ Q "statistics")
    (hi : ∀ i ∈ ins, Q i.1 ∧ P i.2.1) :
    ∀ f ∈ (collect obs rewards stats ins).2, Q f.1 ∧ P f.2 ∧ (collect obs rewards stats ins).1.lookup f.2 ≠ none := by
  have key : ∀ (ins : List (String × String × C)) (s : List (String × C) × List (String × String)),
      (∀ f ∈ s.2, Q f.1 ∧ P f.2 ∧ s.1.lookup f.2 ≠ none) → (∀ i ∈ ins, Q i.1 ∧ P i.2.1) →
      ∀ f ∈ (ins.foldl (fun s i => (put s.1 i.2.1 i.2.2, put s.2 i.1 i.2.1)) s).2, Q f.1 ∧ P f.2 ∧
        (ins.foldl (fun s i => (put s.1 i.2.1 i.2.2, put s.2 i.1 i.2.1)) s).1.lookup f.2 ≠ none := by
    intro ins
    induction ins with
    | nil => intro s hs _; exact hs
    | cons i ins ih =>
      intro s hs hi
      refine ih _ ?_ (fun j hj => hi j (List.mem_cons_of_mem _ hj))
      intro f hf
      rcases mem_put_values _ _ _ _ hf with rfl | hf
      · refine ⟨(hi i (by simp)).1, (hi i (by simp)).2, ?_⟩
        rw [lookup_put, if_pos rfl]; simp
      · obtain ⟨a, b, c⟩ := hs f hf
        refine ⟨a, b, ?_⟩
        rw [lookup_put]
        split
        · simp
        · exact c
  unfold collect
  refine key ins _ ?_ hi
  cases rewards with
  | none =>
    intro f hf
    simp only at hf ⊢
    rw [lookup_put]
    rcases mem_put_values _ _ _ _ hf with rfl | hf
    · exact ⟨hQ.2.2, hP.2.2, by simp⟩
    · rw [List.mem_singleton] at hf
      subst hf
      exact ⟨hQ.1, hP.1, by simp [List.lookup]⟩
  | some r =>
    intro f hf
    simp only at hf ⊢
    rw [lookup_put, lookup_put]
    rcases mem_put_values _ _ _ _ hf with rfl | hf
    · exact ⟨hQ.2.2, hP.2.2, by simp⟩
    rcases mem_put_values _ _ _ _ hf with rfl | hf
    · exact ⟨hQ.2.1, hP.2.1, by simp⟩
    · rw [List.mem_singleton] at hf
      subst hf
      exact ⟨hQ.1, hP.1, by simp [List.lookup]⟩

/-- **C424.** A directory that was made and transferred passes the check, for all files, unless one of the supplied files is named like the metadata or has
their type. -/
theorem made_check_partial [DecidableEq H] (md5 : C → H) (obs : C) (rewards : Option C) (stats : C) (ins : List (String × String × C)) (yaml : C)
    (hi : ∀ i ∈ ins, i.1 ≠ "metadata" ∧ i.2.1 ≠ "sim_metadata.yaml") :
    let d := makeDir md5 obs rewards stats ins yaml
    (transfer d.1 d.2).2 = none ∧ ∃ r, check md5 (transfer d.1 d.2).1 d.2 = .ok r ∧ r.map Prod.fst = d.2.map (fun f => f.2.name) ∧ ∀ e ∈ r, e.2 = true := by
  intro d
  have inv := collect_inv (fun n => n ≠ "sim_metadata.yaml") (fun t => t ≠ "metadata") obs rewards stats ins (by decide) (by decide) hi
  have hfiles : ∀ f ∈ d.2, f.1 ≠ "metadata" ∧ f.2.name ≠ "sim_metadata.yaml" ∧ d.1.lookup f.2.name ≠ none ∧ f.2.md5 = (d.1.lookup f.2.name).map md5 ∧
      f.2.md5 ≠ none := by
    intro f hf
    obtain ⟨g, hg, rfl⟩ := List.mem_map.1 hf
    obtain ⟨h1, h2, h3⟩ := inv g hg
    have e : d.1.lookup g.2 = (collect obs rewards stats ins).1.lookup g.2 := by
      show (put _ "sim_metadata.yaml" yaml).lookup _ = _
      rw [lookup_put, if_neg h2]
    simp only
    refine ⟨h1, h2, by rw [e]; exact h3, by rw [e], ?_⟩
    cases hl : (collect obs rewards stats ins).1.lookup g.2 with
    | none => exact absurd hl h3
    | some c => simp
  have hk : "metadata" ∉ d.2.map Prod.fst := by
    intro h
    obtain ⟨f, hf, he⟩ := List.mem_map.1 h
    exact (hfiles f hf).1 he
  have hyaml : d.1.lookup "sim_metadata.yaml" ≠ none := by
    show (put _ "sim_metadata.yaml" yaml).lookup _ ≠ _
    rw [lookup_put, if_pos rfl]; simp
  obtain ⟨t1, t2⟩ := transfer_spec d.1 d.2 hk
  have hok := t1.2 ⟨hyaml, fun f hf => (hfiles f hf).2.2.1⟩
  refine ⟨hok, ?_⟩
  have hl : ∀ f ∈ d.2, (transfer d.1 d.2).1.lookup f.2.name = d.1.lookup f.2.name := by
    intro f hf
    rw [t2 hok, if_pos (Or.inr (List.mem_map.2 ⟨f, hf, rfl⟩))]
  refine ⟨_, (check_spec md5 _ d.2).1 (fun f hf => ⟨by rw [hl f hf]; exact (hfiles f hf).2.2.1, (hfiles f hf).2.2.2.2⟩), ?_, ?_⟩
  · rw [List.map_map]; rfl
  · intro e he
    obtain ⟨f, hf, rfl⟩ := List.mem_map.1 he
    simp only [decide_eq_true_eq]
    rw [hl f hf]
    exact (hfiles f hf).2.2.2.1

/-- **C424.** With a supplied file of that name it does not, although nothing has happened to the files. -/
theorem made_check_false : ¬ ∀ (obs : Nat) (rewards : Option Nat) (stats : Nat) (ins : List (String × String × Nat)) (yaml : Nat),
    let d := makeDir id obs rewards stats ins yaml
    ∃ r, check id (transfer d.1 d.2).1 d.2 = .ok r ∧ ∀ e ∈ r, e.2 = true := by
  intro h
  obtain ⟨r, hr, hall⟩ := h 1 none 2 [("old", "sim_metadata.yaml", 3)] 4
  have e : check id (transfer (makeDir id 1 none 2 [("old", "sim_metadata.yaml", 3)] 4).1 (makeDir id 1 none 2 [("old", "sim_metadata.yaml", 3)] 4).2).1
      (makeDir id 1 none 2 [("old", "sim_metadata.yaml", 3)] 4).2 = .ok [("opsim.db", true), ("obs_stats.txt", true), ("sim_metadata.yaml", false)] := by
    decide +kernel
  rw [e] at hr
  have := Except.ok.inj hr
  subst this
  exact absurd (hall ("sim_metadata.yaml", false) (by simp)) (by decide)

/-- **C424.** A file whose contents have another hash is found. -/
theorem check_changed [DecidableEq H] (md5 : C → H) (dir : List (String × C)) (files : List (String × FileInfo H)) (r : List (String × Bool))
    (h : check md5 dir files = .ok r) (f : String × FileInfo H) (hf : f ∈ files) (c : C) (hc : dir.lookup f.2.name = some c) (hh : f.2.md5 ≠ some (md5 c)) :
    (f.2.name, false) ∈ r := by
  have hall : ∀ f ∈ files, dir.lookup f.2.name ≠ none ∧ f.2.md5 ≠ none := by
    intro g hg
    by_contra hn
    rw [not_and_or, not_not, not_not] at hn
    obtain ⟨e, he⟩ := (check_spec md5 dir files).2 ⟨g, hg, hn⟩
    rw [he] at h; simp at h
  rw [(check_spec md5 dir files).1 hall] at h
  rw [← Except.ok.inj h]
  refine List.mem_map.2 ⟨f, hf, ?_⟩
  rw [hc]
  simp [hh]

private theorem foldl_ins (ins : List (String × String × C)) (s : List (String × C) × List (String × String)) :
    (∀ n, n ∉ ins.map (fun i => i.2.1) → (ins.foldl (fun s i => (put s.1 i.2.1 i.2.2, put s.2 i.1 i.2.1)) s).1.lookup n = s.1.lookup n) ∧
    (∀ t, t ∉ ins.map Prod.fst → (ins.foldl (fun s i => (put s.1 i.2.1 i.2.2, put s.2 i.1 i.2.1)) s).2.lookup t = s.2.lookup t) ∧
    ((ins.map (fun i => i.2.1)).Nodup → ∀ i ∈ ins, (ins.foldl (fun s i => (put s.1 i.2.1 i.2.2, put s.2 i.1 i.2.1)) s).1.lookup i.2.1 = some i.2.2) ∧
    ((ins.map Prod.fst).Nodup → ∀ i ∈ ins, (ins.foldl (fun s i => (put s.1 i.2.1 i.2.2, put s.2 i.1 i.2.1)) s).2.lookup i.1 = some i.2.1) := by
  induction ins generalizing s with
  | nil => simp
  | cons j ins ih =>
    obtain ⟨h1, h2, h3, h4⟩ := ih (put s.1 j.2.1 j.2.2, put s.2 j.1 j.2.1)
    simp only [List.foldl_cons, List.map_cons, List.mem_cons, not_or, List.nodup_cons]
    refine ⟨fun n hn => ?_, fun t ht => ?_, fun hn i hi => ?_, fun hn i hi => ?_⟩
    · rw [h1 n hn.2, lookup_put, if_neg hn.1]
    · rw [h2 t ht.2, lookup_put, if_neg ht.1]
    · rcases hi with rfl | hi
      · rw [h1 _ hn.1, lookup_put, if_pos rfl]
      · exact h3 hn.2 i hi
    · rcases hi with rfl | hi
      · rw [h2 _ hn.1, lookup_put, if_pos rfl]
      · exact h4 hn.2 i hi

/-- **C425.** The supplied files are in the directory under their types if no two have the same name or type and none is named like the metadata; the
visits are, if none is named like their file or has their type. -/
theorem made_files_partial (md5 : C → H) (obs : C) (rewards : Option C) (stats : C) (ins : List (String × String × C)) (yaml : C)
    (hn : (ins.map (fun i => i.2.1)).Nodup) (ht : (ins.map Prod.fst).Nodup) (hy : "sim_metadata.yaml" ∉ ins.map (fun i => i.2.1)) :
    let d := makeDir md5 obs rewards stats ins yaml
    (∀ i ∈ ins, d.2.lookup i.1 = some ⟨i.2.1, some (md5 i.2.2)⟩ ∧ d.1.lookup i.2.1 = some i.2.2) ∧
    ("opsim.db" ∉ ins.map (fun i => i.2.1) → "observations" ∉ ins.map Prod.fst →
      d.2.lookup "observations" = some ⟨"opsim.db", some (md5 obs)⟩ ∧ d.1.lookup "opsim.db" = some obs) := by
  intro d
  have hl : ∀ n, n ≠ "sim_metadata.yaml" → d.1.lookup n = (collect obs rewards stats ins).1.lookup n := by
    intro n h
    show (put _ "sim_metadata.yaml" yaml).lookup _ = _
    rw [lookup_put, if_neg h]
  have hf : ∀ t, d.2.lookup t = ((collect obs rewards stats ins).2.lookup t).map (fun n => ⟨n, ((collect obs rewards stats ins).1.lookup n).map md5⟩) := by
    intro t
    show ((collect obs rewards stats ins).2.map _).lookup t = _
    generalize (collect obs rewards stats ins).2 = l
    induction l with
    | nil => rfl
    | cons e l ih =>
      rw [List.map_cons, List.lookup_cons, List.lookup_cons]
      cases t == e.1 with
      | true => rfl
      | false => exact ih
  obtain ⟨f1, f2, f3, f4⟩ := foldl_ins ins (put (match rewards with | none => [("opsim.db", obs)] | some r => put [("opsim.db", obs)] "rewards.h5" r) "obs_stats.txt" stats,
    put (match rewards with | none => [("observations", "opsim.db")] | some _ => put [("observations", "opsim.db")] "rewards" "rewards.h5") "statistics" "obs_stats.txt")
  constructor
  · intro i hi
    have h1 : (collect obs rewards stats ins).1.lookup i.2.1 = some i.2.2 := f3 hn i hi
    have h2 : (collect obs rewards stats ins).2.lookup i.1 = some i.2.1 := f4 ht i hi
    have hne : i.2.1 ≠ "sim_metadata.yaml" := fun h => hy (h ▸ List.mem_map.2 ⟨i, hi, rfl⟩)
    rw [hf, hl _ hne, h2, h1]
    simp [h1]
  · intro ho hto
    have h1 : (collect obs rewards stats ins).1.lookup "opsim.db" = some obs := by
      refine (f1 _ ho).trans ?_
      rw [lookup_put, if_neg (by decide)]
      cases rewards with
      | none => simp [List.lookup]
      | some r => simp only; rw [lookup_put, if_neg (by decide)]; simp [List.lookup]
    have h2 : (collect obs rewards stats ins).2.lookup "observations" = some "opsim.db" := by
      refine (f2 _ hto).trans ?_
      rw [lookup_put, if_neg (by decide)]
      cases rewards with
      | none => simp [List.lookup]
      | some r => simp only; rw [lookup_put, if_neg (by decide)]; simp [List.lookup]
    rw [hf, hl _ (by decide), h2, h1]
    simp [h1]

/-- **C425.** Otherwise files are lost: a script and a notebook of the same name in different directories, or visits that are supplied as well. -/
theorem made_files_false : ¬ ∀ (obs : Nat) (rewards : Option Nat) (stats : Nat) (ins : List (String × String × Nat)) (yaml : Nat),
    (ins.map Prod.fst).Nodup → ∀ i ∈ ins, (makeDir id obs rewards stats ins yaml).1.lookup i.2.1 = some i.2.2 := by
  intro h
  have := h 1 none 2 [("script", "run", 3), ("notebook", "run", 4)] 5 (by decide) ("script", "run", 3) (by simp)
  revert this
  decide +kernel

/-- **C425.** The files of the command line have their own names for types: there is one with the type `scheduler` just if a file has this name. -/
theorem cli_types (a b c : Option String) :
    (∀ t n, (t, n) ∈ cliFiles a b c ↔ t = n ∧ some n ∈ [a, b, c]) := by
  intro t n
  unfold cliFiles
  have key : ∀ (l : List (Option String)) (d : List (String × String)), (∀ e ∈ d, e.1 = e.2) →
      ((t, n) ∈ l.foldl (fun d f => match f with | none => d | some n => put d n n) d ↔ (t, n) ∈ d ∨ (t = n ∧ some n ∈ l)) := by
    intro l
    induction l with
    | nil => simp
    | cons f l ih =>
      intro d hd
      cases f with
      | none =>
        simp only [List.foldl_cons, List.mem_cons, reduceCtorEq, false_or]
        exact ih d hd
      | some m =>
        simp only [List.foldl_cons, List.mem_cons, Option.some.injEq]
        rw [ih (put d m m)]
        · constructor
          · rintro (h | ⟨h1, h2⟩)
            · rcases mem_put_values _ _ _ _ h with h | h
              · simp only [Prod.mk.injEq] at h
                right; exact ⟨h.1.trans h.2.symm, Or.inl h.2⟩
              · left; exact h
            · right; exact ⟨h1, Or.inr h2⟩
          · rintro (h | ⟨h1, h2 | h2⟩)
            · left
              by_cases hm : t = m
              · have := hd _ h
                simp only at this
                rw [← this, hm]
                exact mem_put_self _ _ _
              · exact mem_put_other _ _ _ _ h hm
            · left; rw [h1, h2]; exact mem_put_self _ _ _
            · right; exact ⟨h1, h2⟩
        · intro e he
          rcases mem_put_values _ _ _ _ he with rfl | he
          · rfl
          · exact hd e he
  exact (key [a, b, c] [] (by simp)).trans (by simp)

/-- **C425.** So the scheduler that is supplied is not found by its type. -/
theorem cli_false : ¬ ∀ (s : String) (b c : Option String), (cliFiles (some s) b c).lookup "scheduler" = some s := by
  intro h
  exact absurd (h "scheduler.pickle.xz" none none) (by decide +kernel)

example : cliFiles (some "s.xz") none (some "n.ipynb") = [("s.xz", "s.xz"), ("n.ipynb", "n.ipynb")] := by decide +kernel

end Files

/-! ## Reading the metadata -/

section Window
variable {M : Type}

private theorem keys_put' {K V : Type} [DecidableEq K] (d : List (K × V)) (k : K) (v : V) :
    (put d k v).map Prod.fst = if k ∈ d.map Prod.fst then d.map Prod.fst else d.map Prod.fst ++ [k] := by
  induction d with
  | nil => simp [put]
  | cons e d ih =>
    obtain ⟨a, b⟩ := e
    unfold put
    by_cases h : k = a
    · simp [h]
    · rw [if_neg h, List.map_cons, ih]
      simp only [List.map_cons, List.mem_cons, h, false_or]
      split <;> simp

private theorem lookup_none {V : Type} {l : List (Uri × V)} {u : Uri} : l.lookup u = none ↔ u ∉ l.map Prod.fst := by
  induction l with
  | nil => simp
  | cons e l ih =>
    rw [List.lookup_cons, List.map_cons, List.mem_cons, not_or]
    by_cases h : u = e.1
    · simp [h]
    · have : (u == e.1) = false := by simpa using h
      rw [this, ← ih]
      simp [h]

private theorem lookup_some {V : Type} {l : List (Uri × V)} (hn : (l.map Prod.fst).Nodup) {u : Uri} {m : V} : l.lookup u = some m ↔ (u, m) ∈ l := by
  induction l with
  | nil => simp
  | cons e l ih =>
    rw [List.map_cons, List.nodup_cons] at hn
    rw [List.lookup_cons, List.mem_cons]
    by_cases h : u = e.1
    · subst h
      simp only [beq_self_eq_true, Option.some.injEq]
      constructor
      · rintro rfl; left; rfl
      · rintro (h | h)
        · rw [← h]
        · exact absurd (List.mem_map.2 ⟨_, h, rfl⟩) hn.1
    · have : (u == e.1) = false := by simpa using h
      rw [this]
      simp only
      rw [ih hn.2]
      constructor
      · intro h; right; exact h
      · rintro (h' | h')
        · rw [← h'] at h; simp at h
        · exact h'

private theorem lookup_puts {V : Type} (new acc : List (Uri × V)) (hn : (new.map Prod.fst).Nodup) (u : Uri) :
    (new.foldl (fun a e => put a e.1 e.2) acc).lookup u = (new.lookup u).or (acc.lookup u) := by
  induction new generalizing acc with
  | nil => rfl
  | cons e l ih =>
    rw [List.map_cons, List.nodup_cons] at hn
    rw [List.foldl_cons, ih _ hn.2, lookup_put, List.lookup_cons]
    by_cases h : u = e.1
    · subst h
      rw [lookup_none.2 hn.1]
      simp
    · have : (u == e.1) = false := by simpa using h
      rw [this, if_neg h]

private theorem lookup_filter {V : Type} (l : List (Uri × V)) (p : Uri → Bool) (u : Uri) :
    (l.filter (fun e => p e.1)).lookup u = if p u then l.lookup u else none := by
  induction l with
  | nil => simp
  | cons e l ih =>
    by_cases h : u = e.1
    · subst h
      by_cases hp : p e.1
      · rw [List.filter_cons_of_pos (by exact hp), List.lookup_cons, List.lookup_cons]
        simp [hp]
      · rw [List.filter_cons_of_neg (by exact hp), ih]
        simp [hp]
    · have hb : (u == e.1) = false := by simpa using h
      by_cases hp : p e.1
      · rw [List.filter_cons_of_pos (by exact hp), List.lookup_cons, List.lookup_cons, hb, ih]
      · rw [List.filter_cons_of_neg (by exact hp), List.lookup_cons, hb, ih]

private theorem lookup_map {V W : Type} (l : List (Uri × V)) (g : Uri → V → W) (u : Uri) :
    (l.map (fun e => (e.1, g e.1 e.2))).lookup u = (l.lookup u).map (g u) := by
  induction l with
  | nil => simp
  | cons e l ih =>
    rw [List.map_cons, List.lookup_cons, List.lookup_cons]
    by_cases h : u = e.1
    · subst h; simp
    · have hb : (u == e.1) = false := by simpa using h
      rw [hb]
      exact ih

private theorem readDay_lookup (arch c : List (Uri × M)) (ha : (arch.map Prod.fst).Nodup) (hc : (c.map Prod.fst).Nodup) (verify : Bool)
    (acc : List (Uri × M)) (d : Int) (u : Uri) :
    (readDay arch c verify acc d).lookup u = if u.date = d then
      ((if verify || decide (maxDate c ≤ u.date) then (arch.lookup u).map (fun m => (c.lookup u).getD m) else c.lookup u)).or (acc.lookup u)
      else acc.lookup u := by
  unfold readDay
  simp only
  rw [lookup_puts]
  · by_cases hd : u.date = d
    · rw [if_pos hd, ← hd]
      split
      next h =>
        rw [lookup_map _ (fun v m => (c.lookup v).getD m), lookup_filter _ (fun v => decide (v.date = u.date))]
        simp
      next h =>
        rw [lookup_filter _ (fun v => decide (v.date = u.date))]
        simp
    · rw [if_neg hd]
      split
      next h =>
        rw [lookup_map _ (fun v m => (c.lookup v).getD m), lookup_filter _ (fun v => decide (v.date = d))]
        simp [hd]
      next h =>
        rw [lookup_filter _ (fun v => decide (v.date = d))]
        simp [hd]
  · split
    · rw [List.map_map]
      exact List.Nodup.sublist (List.Sublist.map _ List.filter_sublist) ha
    · exact List.Nodup.sublist (List.Sublist.map _ List.filter_sublist) hc

private theorem readAll_fst (arch c : List (Uri × M)) (verify : Bool) (ds : List Int) (s : List (Uri × M) × List Uri) :
    (ds.foldl (readStep arch c verify) s).1 = ds.foldl (readDay arch c verify) s.1 := by
  induction ds generalizing s with
  | nil => rfl
  | cons d ds ih => rw [List.foldl_cons, List.foldl_cons, ih]; rfl

private theorem readDays_lookup (arch c : List (Uri × M)) (ha : (arch.map Prod.fst).Nodup) (hc : (c.map Prod.fst).Nodup) (verify : Bool)
    (ds : List Int) (acc : List (Uri × M)) (u : Uri) :
    (ds.foldl (readDay arch c verify) acc).lookup u = if u.date ∈ ds then
      ((if verify || decide (maxDate c ≤ u.date) then (arch.lookup u).map (fun m => (c.lookup u).getD m) else c.lookup u)).or (acc.lookup u)
      else acc.lookup u := by
  induction ds generalizing acc with
  | nil => simp
  | cons d ds ih =>
    rw [List.foldl_cons, ih, readDay_lookup arch c ha hc]
    generalize (if verify || decide (maxDate c ≤ u.date) then (arch.lookup u).map (fun m => (c.lookup u).getD m) else c.lookup u) = v
    by_cases h1 : u.date = d
    · rw [if_pos h1, if_pos (show u.date ∈ d :: ds by rw [h1]; simp)]
      split
      · cases v <;> simp
      · rfl
    · rw [if_neg h1]
      simp [h1]

private theorem mem_days (latest nights d : Int) : d ∈ days latest nights ↔ latest - nights < d ∧ d ≤ latest := by
  unfold days
  simp only [List.mem_map, List.mem_range]
  constructor
  · rintro ⟨i, hi, rfl⟩; omega
  · rintro ⟨h1, h2⟩
    exact ⟨(d - (latest - nights + 1)).toNat, by omega, by omega⟩

private theorem read_lookup (arch : List (Uri × M)) (comp : Option (List (Uri × M))) (ha : (arch.map Prod.fst).Nodup)
    (hc : ((comp.getD []).map Prod.fst).Nodup) (verify : Bool) (latest nights : Int) (u : Uri) :
    (read arch comp verify latest nights).lookup u = if latest - nights < u.date ∧ u.date ≤ latest then
      (if verify || decide (maxDate (comp.getD []) ≤ u.date) then (arch.lookup u).map (fun m => ((comp.getD []).lookup u).getD m)
        else (comp.getD []).lookup u) else none := by
  unfold read readAll
  rw [readAll_fst, readDays_lookup arch _ ha hc]
  simp only [mem_days, List.lookup_nil, Option.or_none]

/-- **C426.** Without a compilation the simulations that are read are exactly those of the archive that were added in the window of nights. -/
theorem read_direct (arch : List (Uri × M)) (ha : (arch.map Prod.fst).Nodup) (hd : ∀ e ∈ arch, 15020 ≤ e.1.date) (latest nights : Int) (u : Uri) :
    (read arch none false latest nights).lookup u = if latest - nights < u.date ∧ u.date ≤ latest then arch.lookup u else none := by
  rw [read_lookup arch none ha (by simp)]
  split
  · have e : maxDate (Option.getD none [] : List (Uri × M)) = 15020 := rfl
    rw [e]
    simp only [Bool.false_or, decide_eq_true_eq, Option.getD_none, List.lookup_nil]
    split
    · simp
    next h =>
      symm
      rw [lookup_none]
      intro hm
      obtain ⟨x, hx, rfl⟩ := List.mem_map.1 hm
      exact h (hd x hx)
  · rfl

/-- **C426.** They come in the order of the days, each one once. -/
theorem read_order (arch : List (Uri × M)) (comp : Option (List (Uri × M))) (verify : Bool) (latest nights : Int) :
    ((read arch comp verify latest nights).map Prod.fst).Pairwise (fun a b => a.date ≤ b.date) ∧
    ((read arch comp verify latest nights).map Prod.fst).Nodup := by
  have puts : ∀ (new acc : List (Uri × M)) (d : Int), (∀ e ∈ new, e.1.date = d) →
      (acc.map Prod.fst).Pairwise (fun a b => a.date ≤ b.date) → (acc.map Prod.fst).Nodup → (∀ u ∈ acc.map Prod.fst, u.date ≤ d) →
      ((new.foldl (fun a e => put a e.1 e.2) acc).map Prod.fst).Pairwise (fun a b => a.date ≤ b.date) ∧
      ((new.foldl (fun a e => put a e.1 e.2) acc).map Prod.fst).Nodup ∧
      (∀ u ∈ (new.foldl (fun a e => put a e.1 e.2) acc).map Prod.fst, u.date ≤ d) := by
    intro new
    induction new with
    | nil => intro acc d _ h1 h2 h3; exact ⟨h1, h2, h3⟩
    | cons e new ih =>
      intro acc d hn h1 h2 h3
      have he : e.1.date = d := hn e (by simp)
      refine ih _ d (fun x hx => hn x (List.mem_cons_of_mem _ hx)) ?_ ?_ ?_
      · rw [keys_put']
        split
        · exact h1
        · rw [List.pairwise_append]
          refine ⟨h1, by simp, fun a ha b hb => ?_⟩
          rw [List.mem_singleton.1 hb, he]
          exact h3 a ha
      · rw [keys_put']
        split
        · exact h2
        next hk =>
          rw [List.nodup_append]
          refine ⟨h2, by simp, fun a ha b hb => ?_⟩
          rw [List.mem_singleton.1 hb]
          rintro rfl
          exact hk ha
      · rw [keys_put']
        split
        · exact h3
        · intro u hu
          rcases List.mem_append.1 hu with hu | hu
          · exact h3 u hu
          · rw [List.mem_singleton.1 hu, he]
  have main : ∀ (ds : List Int) (acc : List (Uri × M)), ds.Pairwise (· < ·) → (∀ d ∈ ds, ∀ u ∈ acc.map Prod.fst, u.date ≤ d) →
      (acc.map Prod.fst).Pairwise (fun a b => a.date ≤ b.date) → (acc.map Prod.fst).Nodup →
      ((ds.foldl (readDay arch (comp.getD []) verify) acc).map Prod.fst).Pairwise (fun a b => a.date ≤ b.date) ∧
      ((ds.foldl (readDay arch (comp.getD []) verify) acc).map Prod.fst).Nodup := by
    intro ds
    induction ds with
    | nil => intro acc _ _ h1 h2; exact ⟨h1, h2⟩
    | cons d ds ih =>
      intro acc hp ha h1 h2
      rw [List.pairwise_cons] at hp
      have hnew : ∀ e ∈ (if verify || decide (maxDate (comp.getD []) ≤ d)
          then (arch.filter (fun e => decide (e.1.date = d))).map (fun e => (e.1, ((comp.getD []).lookup e.1).getD e.2))
          else (comp.getD []).filter (fun e => decide (e.1.date = d))), e.1.date = d := by
        split
        · intro e he
          obtain ⟨x, hx, rfl⟩ := List.mem_map.1 he
          simpa using (List.mem_filter.1 hx).2
        · intro e he
          simpa using (List.mem_filter.1 he).2
      obtain ⟨p1, p2, p3⟩ := puts _ acc d hnew h1 h2 (ha d (by simp))
      rw [List.foldl_cons]
      exact ih _ hp.2 (fun d' hd' u hu => le_trans (p3 u hu) (hp.1 d' hd').le) p1 p2
  unfold read readAll
  rw [readAll_fst]
  refine main _ [] ?_ (by simp) (by simp) (by simp)
  unfold days
  rw [List.pairwise_map]
  exact List.pairwise_lt_range.imp (fun h => by omega)

/-- **C426.** With the check the result is the one without the compilation, if the values of the compilation are right, whatever is missing from it; and those
that are reported are just those of the window that are in the compilation and not in the archive. -/
theorem read_verify (arch c : List (Uri × M)) (ha : (arch.map Prod.fst).Nodup) (hc : (c.map Prod.fst).Nodup) (hd : ∀ e ∈ arch, 15020 ≤ e.1.date)
    (hv : ∀ u m m', arch.lookup u = some m → c.lookup u = some m' → m' = m) (latest nights : Int) :
    (∀ u, (read arch (some c) true latest nights).lookup u = (read arch none false latest nights).lookup u) ∧
    (∀ u, u ∈ (readAll arch (some c) true latest nights).2 ↔
      (latest - nights < u.date ∧ u.date ≤ latest) ∧ u ∈ c.map Prod.fst ∧ u ∉ arch.map Prod.fst) := by
  constructor
  · intro u
    rw [read_direct arch ha hd, read_lookup arch (some c) ha (by simpa using hc)]
    simp only [Bool.true_or, if_true, Option.getD_some]
    congr 1
    cases h1 : arch.lookup u with
    | none => rfl
    | some m =>
      cases h2 : c.lookup u with
      | none => simp
      | some m' => simp [hv u m m' h1 h2]
  · intro u
    have main : ∀ (ds : List Int) (s : List (Uri × M) × List Uri),
        (u ∈ (ds.foldl (readStep arch c true) s).2 ↔ u ∈ s.2 ∨ (u.date ∈ ds ∧ u ∈ c.map Prod.fst ∧ u ∉ arch.map Prod.fst ∧ s.1.lookup u = none)) := by
      intro ds
      induction ds with
      | nil => simp
      | cons d ds ih =>
        intro s
        rw [List.foldl_cons, ih]
        have e1 : (readStep arch c true s d).1.lookup u = if u.date = d then ((arch.lookup u).map (fun m => (c.lookup u).getD m)).or (s.1.lookup u)
            else s.1.lookup u := by
          show (readDay arch c true s.1 d).lookup u = _
          rw [readDay_lookup arch c ha hc]
          simp
        have e2 : u ∈ (readStep arch c true s d).2 ↔ u ∈ s.2 ∨ (u.date = d ∧ u ∈ c.map Prod.fst ∧ (readStep arch c true s d).1.lookup u = none) := by
          have e0 : (readStep arch c true s d).2 = s.2 ++ ((c.filter (fun e => decide (e.1.date = d))).map Prod.fst).filter
              (fun u => ((readStep arch c true s d).1.lookup u).isNone) := rfl
          rw [e0, List.mem_append, List.mem_filter]
          refine or_congr_right ?_
          rw [Option.isNone_iff_eq_none]
          have : u ∈ (c.filter (fun e => decide (e.1.date = d))).map Prod.fst ↔ u.date = d ∧ u ∈ c.map Prod.fst := by
            simp only [List.mem_map, List.mem_filter, decide_eq_true_eq]
            constructor
            · rintro ⟨x, ⟨h1, h2⟩, rfl⟩; exact ⟨h2, x, h1, rfl⟩
            · rintro ⟨h1, x, h2, rfl⟩; exact ⟨x, ⟨h2, h1⟩, rfl⟩
          rw [this, and_assoc]
        rw [e2, e1, ← lookup_none (l := arch)]
        by_cases hd : u.date = d
        · simp only [hd, if_true, true_and, List.mem_cons, true_or]
          cases arch.lookup u with
          | none => simp; tauto
          | some m => simp
        · simp only [hd, if_false, false_and, or_false, List.mem_cons, false_or]
    show u ∈ ((days latest nights).foldl (readStep arch (Option.getD (some c) []) true) ([], [])).2 ↔ _
    rw [Option.getD_some, main]
    simp [mem_days]

private theorem maxDate_le (c : List (Uri × M)) : (∀ e ∈ c, e.1.date ≤ maxDate c) ∧ (∀ T, 15020 ≤ T → (∀ e ∈ c, e.1.date ≤ T) → maxDate c ≤ T) := by
  unfold maxDate
  obtain ⟨h1, h2, h3⟩ := foldl_max (c.map (fun e => e.1.date)) 15020
  refine ⟨fun e he => h2 _ (List.mem_map.2 ⟨e, he, rfl⟩), fun T hT h => ?_⟩
  rcases h3 with h3 | h3
  · rw [h3]; exact hT
  · obtain ⟨e, he, hh⟩ := List.mem_map.1 h3
    rw [← hh]; exact h e he

private theorem nextId_fresh (arch : List (Uri × M)) (d : Int) : (⟨d, nextId arch d⟩ : Uri) ∉ arch.map Prod.fst := by
  intro h
  obtain ⟨e, he, hu⟩ := List.mem_map.1 h
  have hd : e.1.date = d := by rw [hu]
  have hi : e.1.id = nextId arch d := by rw [hu]
  have hm : e.1.id ∈ (arch.filter (fun e => decide (e.1.date = d))).map (fun e => e.1.id) :=
    List.mem_map.2 ⟨e, List.mem_filter.2 ⟨he, by simpa using hd⟩, rfl⟩
  unfold nextId at hi
  cases hl : (arch.filter (fun e => decide (e.1.date = d))).map (fun e => e.1.id) with
  | nil => rw [hl] at hm; simp at hm
  | cons a l =>
    rw [hl] at hm hi
    obtain ⟨h1, h2, -⟩ := foldl_max l a
    simp only at hi
    rcases List.mem_cons.1 hm with h | h
    · omega
    · have := h2 _ h; omega

/-- What is true in each state: no URI is there twice, no day is in the future, and the compilation is that of some day `T` not in the future, with all
simulations of the `N` nights before that day. -/
private def Inv (N : Int) (s : St M) : Prop :=
  (s.arch.map Prod.fst).Nodup ∧ 15020 ≤ s.today ∧ (∀ e ∈ s.arch, 15020 ≤ e.1.date ∧ e.1.date ≤ s.today) ∧
  ∀ c, s.comp = some c → (c.map Prod.fst).Nodup ∧ (∀ e ∈ c, e ∈ s.arch) ∧
    ∃ T, 15020 ≤ T ∧ T ≤ s.today ∧ (∀ e ∈ c, e.1.date ≤ T) ∧ ∀ e ∈ s.arch, T - N < e.1.date → e.1.date < T → e ∈ c

private theorem inv_read {N : Int} {s : St M} (h : Inv N s) (latest nights : Int) (u : Uri) :
    ((read s.arch s.comp false latest nights).lookup u = none ∨ (read s.arch s.comp false latest nights).lookup u = s.arch.lookup u) ∧
    ((read s.arch s.comp false latest nights).lookup u ≠ none → latest - nights < u.date ∧ u.date ≤ latest) ∧
    (latest - nights < u.date → u.date ≤ latest → s.today - N < u.date →
      (read s.arch s.comp false latest nights).lookup u = s.arch.lookup u) := by
  obtain ⟨h1, h0, h2, h3⟩ := h
  cases hc : s.comp with
  | none =>
    rw [read_direct s.arch h1 (fun e he => (h2 e he).1)]
    by_cases hw : latest - nights < u.date ∧ u.date ≤ latest
    · rw [if_pos hw]; exact ⟨Or.inr rfl, fun _ => hw, fun _ _ _ => rfl⟩
    · rw [if_neg hw]
      exact ⟨Or.inl rfl, fun hn => absurd rfl hn, fun a b _ => absurd ⟨a, b⟩ hw⟩
  | some c =>
    obtain ⟨c1, c2, T, T0, T1, T2, T3⟩ := h3 c hc
    rw [read_lookup s.arch (some c) h1 (by simpa using c1)]
    by_cases hw : latest - nights < u.date ∧ u.date ≤ latest
    swap
    · rw [if_neg hw]
      exact ⟨Or.inl rfl, fun hn => absurd rfl hn, fun a b _ => absurd ⟨a, b⟩ hw⟩
    rw [if_pos hw]
    simp only [Bool.false_or, decide_eq_true_eq, Option.getD_some]
    have hsub : ∀ m, c.lookup u = some m → s.arch.lookup u = some m := fun m hm => (lookup_some h1).2 (c2 _ ((lookup_some c1).1 hm))
    split
    next hm =>
      have e : (s.arch.lookup u).map (fun m => (c.lookup u).getD m) = s.arch.lookup u := by
        cases ha : s.arch.lookup u with
        | none => rfl
        | some m =>
          cases hcl : c.lookup u with
          | none => rfl
          | some m' =>
            have := hsub m' hcl
            rw [ha] at this
            simp [Option.some.inj this]
      rw [e]
      exact ⟨Or.inr rfl, fun _ => hw, fun _ _ _ => rfl⟩
    next hm =>
      have hmax : maxDate c ≤ T := (maxDate_le c).2 T T0 T2
      refine ⟨?_, fun _ => hw, fun _ _ hN => ?_⟩
      · cases hcl : c.lookup u with
        | none => left; rfl
        | some m => right; exact (hsub m hcl).symm
      · cases ha : s.arch.lookup u with
        | none =>
          cases hcl : c.lookup u with
          | none => rfl
          | some m => rw [hsub m hcl] at ha; simp at ha
        | some m =>
          have := T3 (u, m) ((lookup_some h1).1 ha) (by simp only; omega) (by simp only; omega)
          exact (lookup_some c1).2 this

private theorem inv_step {N : Int} (ok : List (Uri × M) → Bool) {s : St M} (h : Inv N s) (o : Op M) (ho : ∀ a n, o = .compile a n → N ≤ n) :
    Inv N (s.step ok o) := by
  have h' := h
  obtain ⟨h1, h0, h2, h3⟩ := h
  cases o with
  | wait k =>
    refine ⟨h1, ?_, fun e he => ⟨(h2 e he).1, ?_⟩, fun c hc => ?_⟩
    · show 15020 ≤ s.today + k; omega
    · have := (h2 e he).2
      show e.1.date ≤ s.today + k; omega
    · obtain ⟨c1, c2, T, T0, T1, T2, T3⟩ := h3 c hc
      exact ⟨c1, c2, T, T0, by show T ≤ s.today + k; omega, T2, T3⟩
  | add m =>
    refine ⟨?_, h0, fun e he => ?_, fun c hc => ?_⟩
    · show ((s.arch ++ [_]).map Prod.fst).Nodup
      rw [List.map_append, List.nodup_append]
      refine ⟨h1, by simp, fun a ha b hb => ?_⟩
      simp only [List.map_cons, List.map_nil, List.mem_singleton] at hb
      rw [hb]
      rintro rfl
      exact nextId_fresh s.arch s.today ha
    · rcases List.mem_append.1 he with he | he
      · exact h2 e he
      · rw [List.mem_singleton.1 he]
        exact ⟨h0, le_refl _⟩
    · obtain ⟨c1, c2, T, T0, T1, T2, T3⟩ := h3 c hc
      refine ⟨c1, fun e he => List.mem_append_left _ (c2 e he), T, T0, T1, T2, fun e he ha hb => ?_⟩
      rcases List.mem_append.1 he with he | he
      · exact T3 e he ha hb
      · rw [List.mem_singleton.1 he] at hb
        simp only at hb
        omega
  | compile a n =>
    have hn := ho a n rfl
    have e : s.step ok (.compile a n) = if ok (read s.arch (if a then s.comp else none) false s.today n) then
        { s with comp := some (read s.arch (if a then s.comp else none) false s.today n) } else s := rfl
    rw [e]
    by_cases hok : ok (read s.arch (if a then s.comp else none) false s.today n) = true
    swap
    · rw [if_neg hok]; exact h'
    rw [if_pos hok]
    refine ⟨h1, h0, h2, fun c hc => ?_⟩
    have hc := Option.some.inj hc
    subst hc
    have hinv : Inv N ⟨s.today, s.arch, if a then s.comp else none⟩ := by
      refine ⟨h1, h0, h2, fun c hc => ?_⟩
      cases a with
      | true => exact h3 c hc
      | false => simp at hc
    have hr := inv_read hinv s.today n
    simp only at hr
    have hnd := (read_order s.arch (if a then s.comp else none) false s.today n).2
    refine ⟨hnd, fun e he => ?_, s.today, h0, le_refl _, fun e he => ?_, fun e he ha hb => ?_⟩
    · have hl := (lookup_some hnd).2 he
      rcases (hr e.1).1 with hx | hx
      · rw [hl] at hx; simp at hx
      · rw [hl] at hx
        exact (lookup_some h1).1 hx.symm
    · have hl := (lookup_some hnd).2 he
      exact ((hr e.1).2.1 (by rw [hl]; simp)).2
    · have := (hr e.1).2.2 (by omega) hb.le ha
      rw [(lookup_some h1).2 he] at this
      exact (lookup_some hnd).1 this

/-- **C427.** Whatever is done with an archive – simulations are added, days go by, and the compilation is made anew or with `append`, over at least `N` nights –,
reading with the compilation gives what reading without it gives, for any window in the last `N` nights. -/
theorem cache_sound (ok : List (Uri × M) → Bool) (today : Int) (h0 : 15020 ≤ today) (N : Int) (ops : List (Op M))
    (hN : ∀ a n, Op.compile a n ∈ ops → N ≤ n) (latest nights : Int) (u : Uri)
    (hw : (St.run ok ⟨today, [], none⟩ ops).today - N ≤ latest - nights) :
    (read (St.run ok ⟨today, [], none⟩ ops).arch (St.run ok ⟨today, [], none⟩ ops).comp false latest nights).lookup u =
      (read (St.run ok ⟨today, [], none⟩ ops).arch none false latest nights).lookup u := by
  have key : ∀ (ops : List (Op M)) (s : St M), Inv N s → (∀ a n, Op.compile a n ∈ ops → N ≤ n) → Inv N (St.run ok s ops) := by
    intro ops
    induction ops with
    | nil => intro s hs _; exact hs
    | cons o ops ih =>
      intro s hs ho
      refine ih (s.step ok o) (inv_step ok hs o ?_) (fun a n h => ho a n (List.mem_cons_of_mem _ h))
      rintro a n rfl
      exact ho a n (by simp)
  have hinv := key ops ⟨today, [], none⟩ ⟨by simp, h0, by simp, by simp⟩ hN
  obtain ⟨i1, i0, i2, -⟩ := id hinv
  rw [read_direct _ i1 (fun e he => (i2 e he).1)]
  obtain ⟨r1, r2, r3⟩ := inv_read hinv latest nights u
  by_cases hwin : latest - nights < u.date ∧ u.date ≤ latest
  · rw [if_pos hwin]
    exact r3 hwin.1 hwin.2 (by omega)
  · rw [if_neg hwin]
    by_contra hne
    exact hwin (r2 hne)

/-- **C427.** No simulation is lost or gets the place of another one: what is added has a URI that was not there, and all others are as before. -/
theorem archive_keeps (ok : List (Uri × M) → Bool) (s : St M) (m : M) (hn : (s.arch.map Prod.fst).Nodup) :
    (∀ u, u ≠ (⟨s.today, nextId s.arch s.today⟩ : Uri) → (s.step ok (.add m)).arch.lookup u = s.arch.lookup u) ∧
    s.arch.lookup ⟨s.today, nextId s.arch s.today⟩ = none ∧
    (s.step ok (.add m)).arch.lookup ⟨s.today, nextId s.arch s.today⟩ = some m ∧ ((s.step ok (.add m)).arch.map Prod.fst).Nodup := by
  have hf := nextId_fresh s.arch s.today
  have hnd : ((s.step ok (.add m)).arch.map Prod.fst).Nodup := by
    show ((s.arch ++ [_]).map Prod.fst).Nodup
    rw [List.map_append, List.nodup_append]
    refine ⟨hn, by simp, fun a ha b hb => ?_⟩
    simp only [List.map_cons, List.map_nil, List.mem_singleton] at hb
    rw [hb]
    rintro rfl
    exact hf ha
  refine ⟨fun u hu => ?_, lookup_none.2 hf, (lookup_some hnd).2 (by show _ ∈ s.arch ++ [_]; simp), hnd⟩
  cases h : s.arch.lookup u with
  | some x => exact (lookup_some hnd).2 (List.mem_append_left _ ((lookup_some hn).1 h))
  | none =>
    rw [lookup_none] at h ⊢
    show u ∉ (s.arch ++ [_]).map Prod.fst
    rw [List.map_append, List.mem_append, not_or]
    exact ⟨h, by simpa using hu⟩

end Window

/-- **C427.** With a compilation over fewer nights than are read simulations are missing. -/
theorem cache_false : ¬ ∀ (ops : List (Op Nat)) (nights : Int) (u : Uri),
    (read (St.run (fun _ => true) ⟨60000, [], none⟩ ops).arch (St.run (fun _ => true) ⟨60000, [], none⟩ ops).comp false
      (St.run (fun _ => true) ⟨60000, [], none⟩ ops).today nights).lookup u =
    (read (St.run (fun _ => true) ⟨60000, [], none⟩ ops).arch none false (St.run (fun _ => true) ⟨60000, [], none⟩ ops).today nights).lookup u := by
  intro h
  have := h [.add 7, .wait 1, .add 8, .compile false 1] 5 ⟨60000, 1⟩
  revert this
  decide +kernel

/-- Two simulations on one day and one on the next; a compilation in between and one with `append` at the end. -/
example : (St.run (fun _ => true) ⟨60000, [], none⟩ [Op.add 7, .compile false 10, .add 8, .wait 1, .add 9, .compile true 10, .add 10]).comp =
    some [(⟨60000, 1⟩, 7), (⟨60000, 2⟩, 8), (⟨60001, 1⟩, 9)] := by decide +kernel

/-! ## The tables of a compilation -/

section Tables
variable {U A : Type} [DecidableEq U]

/-- The two dates of a simulation: under the newer or the older names. -/
def datesOk (m : Meta A) : Prop :=
  ∀ d, m.dates = some d → ("start" ∈ d.map Prod.fst ∨ "first" ∈ d.map Prod.fst) ∧ ("end" ∈ d.map Prod.fst ∨ "last" ∈ d.map Prod.fst)

private theorem lookup_isSome {V : Type} (d : List (String × V)) (k : String) : (∃ v, d.lookup k = some v) ↔ k ∈ d.map Prod.fst := by
  induction d with
  | nil => simp
  | cons e d ih =>
    rw [List.lookup_cons, List.map_cons, List.mem_cons, ← ih]
    by_cases h : k = e.1
    · simp [h]
    · have : (k == e.1) = false := by simpa using h
      rw [this]; simp [h]

private theorem lookup_isNone {V : Type} (d : List (String × V)) (k : String) : d.lookup k = none ↔ k ∉ d.map Prod.fst := by
  rw [← lookup_isSome]
  cases d.lookup k <;> simp

private theorem simRow_ok (m : Meta A) : (∃ r, simRow m = .ok r) ↔ datesOk m := by
  have or2 : ∀ (d : List (String × A)) (a b : String), (d.lookup a).or (d.lookup b) = none ↔ ¬ (a ∈ d.map Prod.fst ∨ b ∈ d.map Prod.fst) := by
    intro d a b
    rw [Option.or_eq_none_iff, lookup_isNone, lookup_isNone, not_or]
  unfold simRow datesOk
  cases m.dates with
  | none => simp
  | some d =>
    simp only [Option.some.injEq, forall_eq']
    cases h1 : (d.lookup "start").or (d.lookup "first") with
    | none =>
      have := (or2 d _ _).1 h1
      simp only
      constructor
      · rintro ⟨r, hr⟩; simp at hr
      · intro h; exact absurd h.1 this
    | some f =>
      have h1' : "start" ∈ d.map Prod.fst ∨ "first" ∈ d.map Prod.fst := by
        by_contra hc; rw [(or2 d _ _).2 hc] at h1; simp at h1
      cases h2 : (d.lookup "end").or (d.lookup "last") with
      | none =>
        have := (or2 d _ _).1 h2
        simp only
        constructor
        · rintro ⟨r, hr⟩; simp at hr
        · intro h; exact absurd h.2 this
      | some g =>
        have h2' : "end" ∈ d.map Prod.fst ∨ "last" ∈ d.map Prod.fst := by
          by_contra hc; rw [(or2 d _ _).2 hc] at h2; simp at h2
        simp only
        exact ⟨fun _ => ⟨h1', h2'⟩, fun _ => ⟨_, rfl⟩⟩

omit [DecidableEq U] in
private theorem simRows_ok (l : List (U × Meta A)) :
    ((∃ r, simRows l = .ok r) ↔ ∀ x ∈ l, datesOk x.2) ∧
    ∀ r, simRows l = .ok r → List.Forall₂ (fun x y => y.1 = x.1 ∧ simRow x.2 = .ok y.2) l r := by
  induction l with
  | nil =>
    refine ⟨by simp [simRows], fun r h => ?_⟩
    simp only [simRows, Except.ok.injEq] at h
    subst h
    exact List.Forall₂.nil
  | cons x l ih =>
    unfold simRows
    cases h1 : simRow x.2 with
    | error e =>
      have : ¬ datesOk x.2 := by rw [← simRow_ok, h1]; simp
      refine ⟨?_, by simp⟩
      simp [this]
    | ok r =>
      have hx : datesOk x.2 := by rw [← simRow_ok, h1]; exact ⟨_, rfl⟩
      cases h2 : simRows l with
      | error e =>
        have : ¬ ∀ x ∈ l, datesOk x.2 := by rw [← ih.1, h2]; simp
        refine ⟨?_, by simp⟩
        simp only [List.mem_cons, forall_eq_or_imp, hx, true_and]
        simp only [reduceCtorEq, exists_false, false_iff]
        exact this
      | ok rs =>
        have : ∀ x ∈ l, datesOk x.2 := by rw [← ih.1, h2]; exact ⟨_, rfl⟩
        refine ⟨?_, fun r' h => ?_⟩
        · simp only [List.mem_cons, forall_eq_or_imp, hx, true_and]
          exact ⟨fun _ => this, fun _ => ⟨_, rfl⟩⟩
        · simp only [Except.ok.injEq] at h
          subst h
          exact List.Forall₂.cons ⟨rfl, h1⟩ (ih.2 rs h2)

omit [DecidableEq U] in
/-- **C428.** The compilation is made just if each simulation with dates has both of them, and there are a simulation, a file, a `sim_runner_kwargs` and a tag. -/
theorem compile_ok_iff (l : List (U × Meta A)) :
    (∃ t, compileTables l = .ok t) ↔ (∀ x ∈ l, datesOk x.2) ∧ (∃ x ∈ l, x.2.files.getD [] ≠ []) ∧ (∃ x ∈ l, x.2.kwargs ≠ none) ∧
      (∃ x ∈ l, x.2.tags.getD [] ≠ []) := by
  obtain ⟨h1, h2⟩ := simRows_ok l
  unfold compileTables
  cases hs : simRows l with
  | error e =>
    have : ¬ ∀ x ∈ l, datesOk x.2 := by rw [← h1, hs]; simp
    simp only [reduceCtorEq, exists_false, false_iff]
    exact fun h => this h.1
  | ok sims =>
    have hall : ∀ x ∈ l, datesOk x.2 := by rw [← h1, hs]; exact ⟨_, rfl⟩
    have hlen := (h2 sims hs).length_eq
    have e1 : sims = [] ↔ l = [] := by
      rw [← List.length_eq_zero_iff, ← hlen, List.length_eq_zero_iff]
    have e2 : l.flatMap (fun x => (x.2.files.getD []).map (fun f => (x.1, f.1, f.2))) = [] ↔ ∀ x ∈ l, x.2.files.getD [] = [] := by
      simp [List.flatMap_eq_nil_iff]
    have e3 : l.filterMap (fun x => x.2.kwargs.map (fun k => (x.1, k))) = [] ↔ ∀ x ∈ l, x.2.kwargs = none := by
      simp [List.filterMap_eq_nil_iff]
    have e4 : l.flatMap (fun x => (x.2.tags.getD []).map (fun t => (x.1, t))) = [] ↔ ∀ x ∈ l, x.2.tags.getD [] = [] := by
      simp [List.flatMap_eq_nil_iff]
    simp only
    split
    next h =>
      rw [e1, e2, e3, e4] at h
      simp only [reduceCtorEq, exists_false, false_iff]
      rintro ⟨-, ⟨x, hx, a⟩, ⟨y, hy, b⟩, ⟨z, hz, c⟩⟩
      rcases h with h | h | h | h
      · rw [h] at hx; simp at hx
      · exact a (h x hx)
      · exact b (h y hy)
      · exact c (h z hz)
    next h =>
      rw [e1, e2, e3, e4] at h
      push Not at h
      exact ⟨fun _ => ⟨hall, h.2⟩, fun _ => ⟨_, rfl⟩⟩

omit [DecidableEq U] in
/-- **C428.** One simulation in the archive with only a first date – `make_sim_data_dir` writes it for a start without a duration – and nothing is compiled any more. -/
theorem compile_first_only (l : List (U × Meta A)) (x : U × Meta A) (hx : x ∈ l) (v : A) (hd : x.2.dates = some [("first", v)]) :
    ¬ ∃ t, compileTables l = .ok t := by
  rw [compile_ok_iff]
  rintro ⟨h, -⟩
  have := (h x hx _ hd).2
  simp at this

/-- The metadata are those of the simulation. -/
def Same (m : Meta A) (y : MetaN A) : Prop :=
  (∀ k, y.other.lookup k = (m.other.lookup k).map some) ∧
  (∀ k, y.dates.lookup k = ((m.dates.getD []).lookup k).map some) ∧
  y.tags = m.tags ∧
  (y.kwargs = none ↔ m.kwargs = none) ∧ (∀ k, (y.kwargs.getD []).lookup k = ((m.kwargs.getD []).lookup k).map some) ∧
  (y.files = none ↔ m.files = none) ∧
  List.Forall₂ (fun f g => g.1 = f.1 ∧ ∀ k, g.2.lookup k = (f.2.lookup k).map some) (m.files.getD []) (y.files.getD [])

/-- What becomes of the metadata: the dates that are not there are NaN, an empty list of tags is gone, and each file gets the keys of all files of the compilation. -/
def ReadBack (l : List (U × Meta A)) (m : Meta A) (y : MetaN A) : Prop :=
  (∀ k, y.other.lookup k = (m.other.lookup k).map some) ∧
  y.dates = [("first", m.dates.bind (fun d => (d.lookup "start").or (d.lookup "first"))), ("last", m.dates.bind (fun d => (d.lookup "end").or (d.lookup "last")))] ∧
  y.tags = (if m.tags.getD [] = [] then none else m.tags) ∧
  (y.kwargs = none ↔ m.kwargs = none) ∧ (∀ k, (y.kwargs.getD []).lookup k = ((m.kwargs.getD []).lookup k).map some) ∧
  (y.files = none ↔ m.files.getD [] = []) ∧
  List.Forall₂ (fun f g => g.1 = f.1 ∧ ∀ k, ((∃ z ∈ l, ∃ h ∈ z.2.files.getD [], k ∈ h.2.map Prod.fst) → g.2.lookup k = some (f.2.lookup k)) ∧
    ((¬ ∃ z ∈ l, ∃ h ∈ z.2.files.getD [], k ∈ h.2.map Prod.fst) → g.2.lookup k = none)) (m.files.getD []) (y.files.getD [])

private theorem lookup_full (cols : List String) (r : List (String × A)) (k : String) :
    (fullRow cols r).lookup k = if k ∈ cols then some (r.lookup k) else none := by
  unfold fullRow
  induction cols with
  | nil => simp
  | cons c cols ih =>
    rw [List.map_cons, List.lookup_cons]
    by_cases h : k = c
    · simp [h]
    · have : (k == c) = false := by simpa using h
      rw [this, ih]
      simp [h]

private theorem mem_columns (rows : List (List (String × A))) (k : String) : k ∈ columns rows ↔ ∃ r ∈ rows, k ∈ r.map Prod.fst := by
  unfold columns
  rw [List.mem_dedup, List.mem_flatMap]

private theorem lookup_drop (d : List (String × Option A)) (p : String → Bool) (hn : (d.map Prod.fst).Nodup) (k : String) :
    (dropNan (d.filter (fun e => p e.1))).lookup k = if p k then ((d.lookup k).join).map some else none := by
  unfold dropNan
  induction d with
  | nil => simp
  | cons e d ih =>
    rw [List.map_cons, List.nodup_cons] at hn
    have ih := ih hn.2
    by_cases h : k = e.1
    · subst h
      have hnone : (d.lookup e.1) = none := (lookup_isNone d e.1).2 hn.1
      rw [hnone] at ih
      by_cases hp : p e.1
      · rw [List.filter_cons_of_pos (by exact hp), List.lookup_cons]
        cases hv : e.2 with
        | none =>
          rw [List.filter_cons_of_neg (by simp [hv]), ih]
          simp
        | some v =>
          rw [List.filter_cons_of_pos (by simp [hv]), List.lookup_cons]
          simp [hp, hv]
      · rw [List.filter_cons_of_neg (by exact hp), ih]
        simp [hp]
    · have hb : (k == e.1) = false := by simpa using h
      rw [List.lookup_cons, hb]
      by_cases hp : p e.1
      · rw [List.filter_cons_of_pos (by exact hp)]
        cases hv : e.2 with
        | none => rw [List.filter_cons_of_neg (by simp [hv])]; exact ih
        | some v => rw [List.filter_cons_of_pos (by simp [hv]), List.lookup_cons, hb]; exact ih
      · rw [List.filter_cons_of_neg (by exact hp)]; exact ih

private theorem full_keys (cols : List String) (r : List (String × A)) : (fullRow cols r).map Prod.fst = cols := by
  unfold fullRow
  rw [List.map_map]
  exact List.map_id _

omit [DecidableEq U] in
private theorem filter_flat {W X : Type} [DecidableEq U] (l : List (U × W)) (f : W → List X) (x : U × W) (hx : x ∈ l) (hn : (l.map Prod.fst).Nodup) :
    (l.flatMap (fun z => (f z.2).map (fun w => (z.1, w)))).filter (fun e => decide (e.1 = x.1)) = (f x.2).map (fun w => (x.1, w)) := by
  induction l with
  | nil => simp at hx
  | cons z l ih =>
    rw [List.map_cons, List.nodup_cons] at hn
    rw [List.flatMap_cons, List.filter_append]
    have hno : ∀ u, u ∉ l.map Prod.fst → (l.flatMap (fun z => (f z.2).map (fun w => (z.1, w)))).filter (fun e => decide (e.1 = u)) = [] := by
      intro u hu
      rw [List.filter_eq_nil_iff]
      intro e he
      obtain ⟨y, hy, he⟩ := List.mem_flatMap.1 he
      obtain ⟨w, -, rfl⟩ := List.mem_map.1 he
      simp only [decide_eq_true_eq]
      rintro rfl
      exact hu (List.mem_map.2 ⟨y, hy, rfl⟩)
    rcases List.mem_cons.1 hx with rfl | hx
    · rw [hno _ hn.1, List.append_nil, List.filter_eq_self]
      intro e he
      obtain ⟨w, -, rfl⟩ := List.mem_map.1 he
      simp
    · rw [ih hx hn.2]
      have : ((f z.2).map (fun w => (z.1, w))).filter (fun e => decide (e.1 = x.1)) = [] := by
        rw [List.filter_eq_nil_iff]
        intro e he
        obtain ⟨w, -, rfl⟩ := List.mem_map.1 he
        simp only [decide_eq_true_eq]
        intro hzx
        exact hn.1 (hzx ▸ List.mem_map.2 ⟨x, hx, rfl⟩)
      rw [this, List.nil_append]

private theorem lookup_kw {W X : Type} (l : List (U × W)) (f : W → Option X) (x : U × W) (hx : x ∈ l) (hn : (l.map Prod.fst).Nodup) :
    (l.filterMap (fun z => (f z.2).map (fun w => (z.1, w)))).lookup x.1 = f x.2 := by
  induction l with
  | nil => simp at hx
  | cons z l ih =>
    rw [List.map_cons, List.nodup_cons] at hn
    rw [List.filterMap_cons]
    rcases List.mem_cons.1 hx with rfl | hx
    · cases hf : f x.2 with
      | some w => simp
      | none =>
        simp only [Option.map_none]
        have : ∀ (l : List (U × W)), x.1 ∉ l.map Prod.fst → (l.filterMap (fun z => (f z.2).map (fun w => (z.1, w)))).lookup x.1 = none := by
          intro l
          induction l with
          | nil => simp
          | cons y l ih =>
            intro hy
            rw [List.map_cons, List.mem_cons, not_or] at hy
            rw [List.filterMap_cons]
            cases f y.2 with
            | none => exact ih hy.2
            | some w =>
              simp only [Option.map_some]
              have hb : (x.1 == y.1) = false := by simpa using hy.1
              rw [List.lookup_cons]
              simp only [hb]
              exact ih hy.2
        exact this l hn.1
    · have hne : x.1 ≠ z.1 := fun h => hn.1 (h ▸ List.mem_map.2 ⟨x, hx, rfl⟩)
      have hb : (x.1 == z.1) = false := by simpa using hne
      cases f z.2 with
      | none => exact ih hx hn.2
      | some w =>
        simp only [Option.map_some]
        rw [List.lookup_cons]
        simp only [hb]
        exact ih hx hn.2

private theorem simRow_lookup {m : Meta A} {r : List (String × A)} (h : simRow m = .ok r)
    (ho : "first_simulated_date" ∉ m.other.map Prod.fst ∧ "last_simulated_date" ∉ m.other.map Prod.fst) :
    (∀ k, k ≠ "first_simulated_date" → k ≠ "last_simulated_date" → r.lookup k = m.other.lookup k) ∧
    r.lookup "first_simulated_date" = m.dates.bind (fun d => (d.lookup "start").or (d.lookup "first")) ∧
    r.lookup "last_simulated_date" = m.dates.bind (fun d => (d.lookup "end").or (d.lookup "last")) := by
  have app : ∀ (a b : List (String × A)) (k : String), (a ++ b).lookup k = (a.lookup k).or (b.lookup k) := by
    intro a b k
    induction a with
    | nil => rfl
    | cons e a ih =>
      rw [List.cons_append, List.lookup_cons, List.lookup_cons, ih]
      cases k == e.1 <;> rfl
  unfold simRow at h
  cases hd : m.dates with
  | none =>
    rw [hd] at h
    simp only [Except.ok.injEq] at h
    subst h
    exact ⟨fun _ _ _ => rfl, (lookup_isNone _ _).2 ho.1, (lookup_isNone _ _).2 ho.2⟩
  | some d =>
    rw [hd] at h
    simp only at h
    simp only [Option.bind_some]
    cases h1 : (d.lookup "start").or (d.lookup "first") with
    | none => rw [h1] at h; simp at h
    | some f =>
      cases h2 : (d.lookup "end").or (d.lookup "last") with
      | none => rw [h1, h2] at h; simp at h
      | some g =>
        rw [h1, h2] at h
        simp only [Except.ok.injEq] at h
        subst h
        refine ⟨fun k k1 k2 => ?_, ?_, ?_⟩
        · rw [app]
          have b1 : (k == "first_simulated_date") = false := by simpa using k1
          have b2 : (k == "last_simulated_date") = false := by simpa using k2
          simp [List.lookup_cons, b1, b2]
        · rw [app, (lookup_isNone _ _).2 ho.1]; rfl
        · rw [app, (lookup_isNone _ _).2 ho.2]; rfl

/-- **C428.** A compilation can be read just if a simulation in it has dates, and then it gives the simulations in their order, with the metadata of each one
as far as the tables hold them. -/
theorem tables_spec (l : List (U × Meta A)) (t : Tables U A) (h : compileTables l = .ok t) (hn : (l.map Prod.fst).Nodup)
    (ho : ∀ x ∈ l, "first_simulated_date" ∉ x.2.other.map Prod.fst ∧ "last_simulated_date" ∉ x.2.other.map Prod.fst) :
    ((∃ r, readTables t = .ok r) ↔ ∃ x ∈ l, x.2.dates ≠ none) ∧
    ∀ r, readTables t = .ok r → List.Forall₂ (fun x y => y.1 = x.1 ∧ ReadBack l x.2 y.2) l r := by
  obtain ⟨h1, h2⟩ := simRows_ok l
  unfold compileTables at h
  cases hs : simRows l with
  | error e => rw [hs] at h; simp at h
  | ok sims =>
    rw [hs] at h
    simp only at h
    split at h
    · simp at h
    simp only [Except.ok.injEq] at h
    subst h
    have hf := h2 sims hs
    have hall : ∀ x ∈ l, datesOk x.2 := by rw [← h1, hs]; exact ⟨_, rfl⟩
    have hmem : ∀ {a b : List _} (R : (U × Meta A) → (U × List (String × A)) → Prop), List.Forall₂ R a b → ∀ y ∈ b, ∃ x ∈ a, R x y := by
      intro a b R hR
      induction hR with
      | nil => simp
      | cons hxy _ ih =>
        intro y hy
        rcases List.mem_cons.1 hy with rfl | hy
        · exact ⟨_, by simp, hxy⟩
        · obtain ⟨x, hx, hr⟩ := ih y hy
          exact ⟨x, List.mem_cons_of_mem _ hx, hr⟩
    have hmem' : ∀ {a b : List _} (R : (U × Meta A) → (U × List (String × A)) → Prop), List.Forall₂ R a b → ∀ x ∈ a, ∃ y ∈ b, R x y := by
      intro a b R hR
      induction hR with
      | nil => simp
      | cons hxy _ ih =>
        intro y hy
        rcases List.mem_cons.1 hy with rfl | hy
        · exact ⟨_, by simp, hxy⟩
        · obtain ⟨x, hx, hr⟩ := ih y hy
          exact ⟨x, List.mem_cons_of_mem _ hx, hr⟩
    constructor
    · unfold readTables
      simp only
      have c1 : ("first_simulated_date" ∈ columns (sims.map Prod.snd) ∧ "last_simulated_date" ∈ columns (sims.map Prod.snd)) ↔ ∃ x ∈ l, x.2.dates ≠ none := by
        rw [mem_columns, mem_columns]
        constructor
        · rintro ⟨⟨r, hr, hk⟩, -⟩
          obtain ⟨y, hy, rfl⟩ := List.mem_map.1 hr
          obtain ⟨x, hx, hxy⟩ := hmem _ hf y hy
          refine ⟨x, hx, fun hd => ?_⟩
          have := (simRow_lookup hxy.2 (ho x hx)).2.1
          rw [hd, Option.bind_none, lookup_isNone] at this
          exact this hk
        · rintro ⟨x, hx, hd⟩
          obtain ⟨y, hy, hxy⟩ := hmem' _ hf x hx
          obtain ⟨-, l1, l2⟩ := simRow_lookup hxy.2 (ho x hx)
          obtain ⟨d, hd⟩ := Option.ne_none_iff_exists'.1 hd
          obtain ⟨d1, d2⟩ := hall x hx d hd
          rw [hd, Option.bind_some] at l1 l2
          refine ⟨⟨y.2, List.mem_map.2 ⟨y, hy, rfl⟩, ?_⟩, ⟨y.2, List.mem_map.2 ⟨y, hy, rfl⟩, ?_⟩⟩
          · by_contra hc
            rw [(lookup_isNone _ _).2 hc] at l1
            have l1 := l1.symm
            rw [Option.or_eq_none_iff, lookup_isNone, lookup_isNone] at l1
            tauto
          · by_contra hc
            rw [(lookup_isNone _ _).2 hc] at l2
            have l2 := l2.symm
            rw [Option.or_eq_none_iff, lookup_isNone, lookup_isNone] at l2
            tauto
      split
      next hc => exact ⟨fun _ => c1.1 hc, fun _ => ⟨_, rfl⟩⟩
      next hc =>
        refine ⟨fun ⟨r, hr⟩ => by simp at hr, fun hx => absurd (c1.2 hx) hc⟩
    · intro r hr
      unfold readTables at hr
      simp only at hr
      split at hr
      swap
      · simp at hr
      simp only [Except.ok.injEq] at hr
      subst hr
      rw [List.forall₂_map_right_iff]
      have hf' : List.Forall₂ (fun x y => (x ∈ l ∧ y ∈ sims) ∧ y.1 = x.1 ∧ simRow x.2 = .ok y.2) l sims := by
        have aux : ∀ {a b : List _} (R : (U × Meta A) → (U × List (String × A)) → Prop), List.Forall₂ R a b →
            List.Forall₂ (fun x y => (x ∈ a ∧ y ∈ b) ∧ R x y) a b := by
          intro a b R hR
          induction hR with
          | nil => exact List.Forall₂.nil
          | cons hxy _ ih =>
            refine List.Forall₂.cons ⟨by simp, hxy⟩ (ih.imp (fun x y h => ⟨⟨List.mem_cons_of_mem _ h.1.1, List.mem_cons_of_mem _ h.1.2⟩, h.2⟩))
        exact aux _ hf
      refine hf'.imp (fun x y hxy => ?_)
      obtain ⟨⟨hx, hy⟩, hu, hrow⟩ := hxy
      obtain ⟨l0, l1, l2⟩ := simRow_lookup hrow (ho x hx)
      refine ⟨hu, fun k => ?_, ?_, ?_, ?_, fun k => ?_, ?_, ?_⟩
      · show (dropNan ((fullRow (columns (sims.map Prod.snd)) y.2).filter
          (fun e => (fun (s : String) => decide (s ≠ "first_simulated_date" ∧ s ≠ "last_simulated_date")) e.1))).lookup k = _
        rw [lookup_drop _ (fun (s : String) => decide (s ≠ "first_simulated_date" ∧ s ≠ "last_simulated_date"))
          (by rw [full_keys]; exact List.nodup_dedup _)]
        simp only [decide_eq_true_eq]
        by_cases hk : k ≠ "first_simulated_date" ∧ k ≠ "last_simulated_date"
        · rw [if_pos hk, lookup_full, ← l0 k hk.1 hk.2]
          split
          · simp
          next hc =>
            have : y.2.lookup k = none := by
              rw [lookup_isNone]
              intro hm
              exact hc ((mem_columns _ _).2 ⟨y.2, List.mem_map.2 ⟨y, hy, rfl⟩, hm⟩)
            rw [this]; rfl
        · rw [if_neg hk]
          have : x.2.other.lookup k = none := by
            rw [lookup_isNone]
            by_cases hk1 : k = "first_simulated_date"
            · rw [hk1]; exact (ho x hx).1
            · have hk2 : k = "last_simulated_date" := by
                by_contra hc; exact hk ⟨hk1, hc⟩
              rw [hk2]; exact (ho x hx).2
          rw [this]; rfl
      · show [("first", y.2.lookup "first_simulated_date"), ("last", y.2.lookup "last_simulated_date")] = _
        rw [l1, l2]
      · show (if (l.flatMap (fun z => (z.2.tags.getD []).map (fun w => (z.1, w)))).filter (fun e => decide (e.1 = y.1)) = [] then none else
          some (((l.flatMap (fun z => (z.2.tags.getD []).map (fun w => (z.1, w)))).filter (fun e => decide (e.1 = y.1))).map Prod.snd)) = _
        rw [hu, filter_flat l (fun m => m.tags.getD []) x hx hn]
        rw [List.map_map]
        have e : ((x.2.tags.getD []).map (Prod.snd ∘ fun w => (x.1, w))) = x.2.tags.getD [] := List.map_id _
        rw [e]
        cases hts : x.2.tags with
        | none => rfl
        | some ts => cases ts <;> rfl
      · show ((l.filterMap (fun z => z.2.kwargs.map (fun w => (z.1, w)))).lookup y.1).map _ = none ↔ _
        rw [hu, lookup_kw l (fun m => m.kwargs) x hx hn, Option.map_eq_none_iff]
      · show (((((l.filterMap (fun z => z.2.kwargs.map (fun w => (z.1, w)))).lookup y.1).map
          (fun k => dropNan (fullRow (columns ((l.filterMap (fun z => z.2.kwargs.map (fun w => (z.1, w)))).map Prod.snd)) k)))).getD []).lookup k = _
        rw [hu, lookup_kw l (fun m => m.kwargs) x hx hn]
        cases hk : x.2.kwargs with
        | none => rfl
        | some kw =>
          simp only [Option.map_some, Option.getD_some]
          have := lookup_drop (fullRow (columns ((l.filterMap (fun z => z.2.kwargs.map (fun w => (z.1, w)))).map Prod.snd)) kw) (fun _ => true)
            (by rw [full_keys]; exact List.nodup_dedup _) k
          simp only [List.filter_true, if_true] at this
          rw [this, lookup_full]
          split
          · simp
          next hc =>
            have : kw.lookup k = none := by
              rw [lookup_isNone]
              intro hm
              refine hc ((mem_columns _ _).2 ⟨kw, List.mem_map.2 ⟨(x.1, kw), List.mem_filterMap.2 ⟨x, hx, ?_⟩, rfl⟩, hm⟩)
              rw [hk]; rfl
            rw [this]; rfl
      · show (if (l.flatMap (fun z => (z.2.files.getD []).map (fun w => (z.1, w)))).filter (fun e => decide (e.1 = y.1)) = [] then none else some _) = none ↔ _
        rw [hu, filter_flat l (fun m => m.files.getD []) x hx hn]
        simp
      · have e : (readSim ⟨sims, l.flatMap (fun x => (x.2.files.getD []).map (fun f => (x.1, f.1, f.2))),
            l.filterMap (fun x => x.2.kwargs.map (fun k => (x.1, k))), l.flatMap (fun x => (x.2.tags.getD []).map (fun t => (x.1, t)))⟩ y).files.getD [] =
            (x.2.files.getD []).map (fun f => (f.1, fullRow (columns ((l.flatMap (fun x => (x.2.files.getD []).map (fun f => (x.1, f.1, f.2)))).map
              (fun f => f.2.2))) f.2)) := by
          show (if (l.flatMap (fun z => (z.2.files.getD []).map (fun w => (z.1, w)))).filter (fun e => decide (e.1 = y.1)) = [] then none else
            some (((l.flatMap (fun z => (z.2.files.getD []).map (fun w => (z.1, w)))).filter (fun e => decide (e.1 = y.1))).map _)).getD [] = _
          rw [hu, filter_flat l (fun m => m.files.getD []) x hx hn]
          split
          next hc =>
            have : x.2.files.getD [] = [] := by simpa using hc
            rw [this]; rfl
          · rw [Option.getD_some, List.map_map]
            rfl
        show List.Forall₂ _ _ ((readSim _ y).files.getD [])
        rw [e, List.forall₂_map_right_iff, List.forall₂_same]
        intro f hfm
        refine ⟨rfl, fun k => ?_⟩
        have hcol : k ∈ columns ((l.flatMap (fun x => (x.2.files.getD []).map (fun f => (x.1, f.1, f.2)))).map (fun f => f.2.2)) ↔
            ∃ z ∈ l, ∃ h ∈ z.2.files.getD [], k ∈ h.2.map Prod.fst := by
          rw [mem_columns]
          constructor
          · rintro ⟨r, hr, hk⟩
            obtain ⟨w, hw, rfl⟩ := List.mem_map.1 hr
            obtain ⟨z, hz, hw⟩ := List.mem_flatMap.1 hw
            obtain ⟨g, hg, rfl⟩ := List.mem_map.1 hw
            exact ⟨z, hz, g, hg, hk⟩
          · rintro ⟨z, hz, g, hg, hk⟩
            exact ⟨g.2, List.mem_map.2 ⟨(z.1, g.1, g.2), List.mem_flatMap.2 ⟨z, hz, List.mem_map.2 ⟨g, hg, rfl⟩⟩, rfl⟩, hk⟩
        simp only
        rw [lookup_full]
        exact ⟨fun hz => if_pos (hcol.2 hz), fun hz => if_neg (fun hc => hz (hcol.1 hc))⟩

/-- **C428.** If all simulations have both dates, all their files the same keys, and no list of tags or files is empty, then what is read is what was compiled. -/
theorem tables_round_partial (l : List (U × Meta A)) (t : Tables U A) (h : compileTables l = .ok t) (hn : (l.map Prod.fst).Nodup)
    (ho : ∀ x ∈ l, "first_simulated_date" ∉ x.2.other.map Prod.fst ∧ "last_simulated_date" ∉ x.2.other.map Prod.fst)
    (hd : ∀ x ∈ l, ∃ a b, x.2.dates = some [("first", a), ("last", b)]) (ht : ∀ x ∈ l, x.2.tags ≠ some [] ∧ x.2.files ≠ some [])
    (hk : ∀ x ∈ l, ∀ y ∈ l, ∀ f ∈ x.2.files.getD [], ∀ g ∈ y.2.files.getD [], ∀ k ∈ g.2.map Prod.fst, k ∈ f.2.map Prod.fst) :
    ∃ r, readTables t = .ok r ∧ List.Forall₂ (fun x y => y.1 = x.1 ∧ Same x.2 y.2) l r := by
  obtain ⟨s1, s2⟩ := tables_spec l t h hn ho
  have hne : l ≠ [] := by
    obtain ⟨-, ⟨x, hx, -⟩, -⟩ := (compile_ok_iff l).1 ⟨t, h⟩
    exact List.ne_nil_of_mem hx
  obtain ⟨x0, hx0⟩ := List.exists_mem_of_ne_nil l hne
  obtain ⟨r, hr⟩ := s1.2 ⟨x0, hx0, by obtain ⟨a, b, e⟩ := hd x0 hx0; rw [e]; simp⟩
  refine ⟨r, hr, ?_⟩
  have aux : ∀ {a : List (U × Meta A)} {b : List (U × MetaN A)} (R : (U × Meta A) → (U × MetaN A) → Prop), List.Forall₂ R a b →
      List.Forall₂ (fun x y => x ∈ a ∧ R x y) a b := by
    intro a b R hR
    induction hR with
    | nil => exact List.Forall₂.nil
    | cons hxy _ ih => exact List.Forall₂.cons ⟨by simp, hxy⟩ (ih.imp (fun x y h => ⟨List.mem_cons_of_mem _ h.1, h.2⟩))
  refine (aux _ (s2 r hr)).imp (fun x y hxy => ?_)
  obtain ⟨hx, hu, r1, r2, r3, r4, r5, r6, r7⟩ := hxy
  refine ⟨hu, r1, fun k => ?_, ?_, r4, r5, ?_, ?_⟩
  · obtain ⟨a, b, e⟩ := hd x hx
    rw [r2, e]
    simp only [Option.bind_some, Option.getD_some]
    have e1 : (List.lookup "start" [("first", a), ("last", b)]).or (List.lookup "first" [("first", a), ("last", b)]) = some a := rfl
    have e2 : (List.lookup "end" [("first", a), ("last", b)]).or (List.lookup "last" [("first", a), ("last", b)]) = some b := rfl
    rw [e1, e2]
    simp only [List.lookup_cons, List.lookup_nil]
    cases k == "first" <;> cases k == "last" <;> rfl
  · rw [r3]
    have := (ht x hx).1
    cases hts : x.2.tags with
    | none => rfl
    | some ts =>
      cases ts with
      | nil => exact absurd hts this
      | cons a ts => rfl
  · rw [r6]
    have := (ht x hx).2
    cases hts : x.2.files with
    | none => simp
    | some ts =>
      cases ts with
      | nil => exact absurd hts this
      | cons a ts => simp
  · have aux' : ∀ {a : List (String × List (String × A))} {b : List (String × List (String × Option A))} (R : _ → _ → Prop), List.Forall₂ R a b →
        List.Forall₂ (fun x y => x ∈ a ∧ R x y) a b := by
      intro a b R hR
      induction hR with
      | nil => exact List.Forall₂.nil
      | cons hxy _ ih => exact List.Forall₂.cons ⟨by simp, hxy⟩ (ih.imp (fun x y h => ⟨List.mem_cons_of_mem _ h.1, h.2⟩))
    refine (aux' _ r7).imp (fun f g hfg => ?_)
    obtain ⟨hf, e, hg⟩ := hfg
    refine ⟨e, fun k => ?_⟩
    by_cases hz : ∃ z ∈ l, ∃ h ∈ z.2.files.getD [], k ∈ h.2.map Prod.fst
    · rw [(hg k).1 hz]
      obtain ⟨z, hz, w, hw, hkw⟩ := hz
      obtain ⟨v, hv⟩ := (lookup_isSome f.2 k).2 (hk x hx z hz f hf w hw k hkw)
      rw [hv]; rfl
    · rw [(hg k).2 hz]
      have : f.2.lookup k = none := by
        rw [lookup_isNone]
        intro hm
        exact hz ⟨x, hx, f, hf, hm⟩
      rw [this]; rfl

end Tables

/-- **C428.** In general it is not: the simulation without dates gets two that are NaN, and the file without a checksum one that is NaN. -/
theorem tables_round_false : ∃ (l : List (Nat × Meta Nat)) (t : Tables Nat Nat) (r : List (Nat × MetaN Nat)),
    (l.map Prod.fst).Nodup ∧ compileTables l = .ok t ∧ readTables t = .ok r ∧
    (∃ x ∈ l, ∃ y, r.lookup x.1 = some y ∧ x.2.dates = none ∧ y.dates = [("first", none), ("last", none)] ∧ ¬ Same x.2 y) ∧
    (∃ x ∈ l, ∃ y, r.lookup x.1 = some y ∧ x.2.files = some [("rewards", [("name", 4)])] ∧ y.files = some [("rewards", [("md5", none), ("name", some 4)])]) := by
  refine ⟨[(1, ⟨[("label", 5)], none, some [("rewards", [("name", 4)])], none, none⟩),
    (2, ⟨[("label", 6)], some [("first", 60000), ("last", 60001)], some [("observations", [("md5", 9), ("name", 3)])], some [("anomalous", 1)], some [7]⟩)],
    _, _, by decide, rfl, rfl, ⟨_, by simp; left; rfl, _, rfl, rfl, rfl, ?_⟩, ⟨_, by simp; left; rfl, _, rfl, rfl, rfl⟩⟩
  rintro ⟨-, h, -⟩
  have := h "first"
  revert this
  decide +kernel

/-- Two simulations, one of them with `sim_runner_kwargs`. -/
example : (compileTables [(1, (⟨[("label", 5)], some [("first", 60000), ("last", 60001)], some [("observations", [("name", 3)])], none, some [7]⟩ : Meta Nat)),
    (2, ⟨[], some [("start", 60001), ("end", 60002)], none, some [("anomalous", 1)], some [7, 8]⟩)]).toOption.bind (fun t => (readTables t).toOption) =
    some [(1, ⟨[("label", some 5)], [("first", some 60000), ("last", some 60001)], some [("observations", [("name", some 3)])], none, some [7]⟩),
      (2, ⟨[], [("first", some 60001), ("last", some 60002)], none, some [("anomalous", some 1)], some [7, 8]⟩)] := by decide +kernel

/-! ## Comparing a compilation with the archive -/

section Diffs
variable {U V : Type} [DecidableEq U]

/-- **C429.** No difference is reported just if each value in the archive has an equal one in the compilation, and each key in the compilation is one of the archive. -/
theorem differences_nil (eq : V → V → Bool) (direct compiled : List (U × List (String × V))) :
    differences eq direct compiled = [] ↔
      (∀ s ∈ direct, ∀ kv ∈ s.2, ∃ w, (compiled.lookup s.1).bind (fun m => m.lookup kv.1) = some w ∧ eq kv.2 w = true) ∧
      (∀ s ∈ compiled, ∀ kv ∈ s.2, ∃ v, (direct.lookup s.1).bind (fun m => m.lookup kv.1) = some v) := by
  unfold differences
  rw [List.append_eq_nil_iff, List.flatMap_eq_nil_iff, List.flatMap_eq_nil_iff]
  refine and_congr ?_ ?_
  · refine forall_congr' (fun s => forall_congr' (fun _ => ?_))
    rw [List.flatMap_eq_nil_iff]
    refine forall_congr' (fun kv => forall_congr' (fun _ => ?_))
    cases (compiled.lookup s.1).bind (fun m => m.lookup kv.1) with
    | none => simp
    | some w => cases he : eq kv.2 w <;> simp [he]
  · refine forall_congr' (fun s => forall_congr' (fun _ => ?_))
    rw [List.flatMap_eq_nil_iff]
    refine forall_congr' (fun kv => forall_congr' (fun _ => ?_))
    cases direct.lookup s.1 with
    | none => simp
    | some m => cases hm : m.lookup kv.1 <;> simp [hm]

/-- **C429.** Each value of a simulation in the archive is compared: one that is not in the compilation or is another one there is reported under its key, and one that
is equal there is not. -/
theorem differences_mem (eq : V → V → Bool) (direct compiled : List (U × List (String × V))) (hd : ∀ s ∈ direct, direct.lookup s.1 = some s.2)
    (hk : ∀ s ∈ direct, ∀ kv ∈ s.2, s.2.lookup kv.1 = some kv.2) (s : U × List (String × V)) (hs : s ∈ direct) (kv : String × V) (hkv : kv ∈ s.2) :
    (s.1, some kv.1) ∈ differences eq direct compiled ↔ ¬ ∃ w, (compiled.lookup s.1).bind (fun m => m.lookup kv.1) = some w ∧ eq kv.2 w = true := by
  unfold differences
  rw [List.mem_append]
  have h2 : (s.1, some kv.1) ∉ compiled.flatMap (fun s => s.2.flatMap (fun kv =>
      match direct.lookup s.1 with
      | none => [(s.1, none)]
      | some m => if (m.lookup kv.1).isNone then [(s.1, some kv.1)] else [])) := by
    intro hm
    obtain ⟨z, hz, hm⟩ := List.mem_flatMap.1 hm
    obtain ⟨w, hw, hm⟩ := List.mem_flatMap.1 hm
    cases hl : direct.lookup z.1 with
    | none => rw [hl] at hm; simp at hm
    | some m =>
      rw [hl] at hm
      simp only at hm
      split at hm
      next hc =>
        rw [List.mem_singleton, Prod.mk.injEq, Option.some.injEq] at hm
        rw [← hm.1, hd s hs] at hl
        have hl := Option.some.inj hl
        rw [← hl, ← hm.2, hk s hs kv hkv] at hc
        simp at hc
      · simp at hm
  constructor
  · rintro (hm | hm)
    swap
    · exact absurd hm h2
    obtain ⟨z, hz, hm⟩ := List.mem_flatMap.1 hm
    obtain ⟨w, hw, hm⟩ := List.mem_flatMap.1 hm
    rintro ⟨x, hx, hex⟩
    have key : z.1 = s.1 ∧ w.1 = kv.1 ∧ ¬ ∃ x, (compiled.lookup z.1).bind (fun m => m.lookup w.1) = some x ∧ eq w.2 x = true := by
      cases hb : (compiled.lookup z.1).bind (fun m => m.lookup w.1) with
      | none =>
        rw [hb] at hm
        simp only [List.mem_singleton, Prod.mk.injEq, Option.some.injEq] at hm
        exact ⟨hm.1.symm, hm.2.symm, by simp⟩
      | some x =>
        rw [hb] at hm
        simp only at hm
        split at hm
        · simp at hm
        next he =>
          simp only [List.mem_singleton, Prod.mk.injEq, Option.some.injEq] at hm
          refine ⟨hm.1.symm, hm.2.symm, ?_⟩
          rintro ⟨x', h1, h2⟩
          rw [Option.some.inj h1] at he
          exact he h2
    obtain ⟨k1, k2, k3⟩ := key
    have e1 : z.2 = s.2 := by
      have a := hd z hz
      rw [k1, hd s hs] at a
      exact (Option.some.inj a).symm
    have e2 : w.2 = kv.2 := by
      have a := hk z hz w hw
      rw [k2, e1, hk s hs kv hkv] at a
      exact (Option.some.inj a).symm
    exact k3 ⟨x, by rw [k1, k2]; exact hx, by rw [e2]; exact hex⟩
  · intro hno
    left
    refine List.mem_flatMap.2 ⟨s, hs, List.mem_flatMap.2 ⟨kv, hkv, ?_⟩⟩
    cases hb : (compiled.lookup s.1).bind (fun m => m.lookup kv.1) with
    | none => simp
    | some x =>
      simp only
      rw [if_neg (fun he => hno ⟨x, hb, he⟩)]
      simp

end Diffs

/-- One value differs, one key is missing and one simulation is not in the archive. -/
example : differences (fun a b => decide (a = b)) [(1, [("label", 3), ("host", 4)]), (2, [("label", 5)])] [(1, [("label", 9)]), (2, [("label", 5)]), (3, [("label", 1)])] =
    [(1, some "label"), (1, some "host"), (3, none)] := by decide +kernel

/-! ## The latest simulation -/

/-- The simulation covers the nights, is of the telescope, if it has one, and has all tags. -/
def Eligible (q : Query) (s : Sim) : Prop :=
  (∃ f, s.first = some f ∧ f ≤ q.first) ∧ (∃ l, s.last = some l ∧ q.last ≤ l) ∧ (∀ t, s.telescope = some t → lower t = lower q.telescope) ∧
  ∃ ts, s.tags = some ts ∧ ∀ t ∈ q.tags, t ∈ ts

/-- A key that is needed is not there. -/
def Lacks (q : Query) (s : Sim) : Prop :=
  s.first = none ∨ (∃ f, s.first = some f ∧ f ≤ q.first) ∧
    (s.last = none ∨ (∃ l, s.last = some l ∧ q.last ≤ l) ∧ (∀ t, s.telescope = some t → lower t = lower q.telescope) ∧ s.tags = none)

private theorem consider_spec (q : Query) (best : Option Sim) (s : Sim) :
    (Lacks q s → consider q best s = .error .key) ∧
    (¬ Lacks q s → ¬ Eligible q s → consider q best s = .ok best) ∧
    (Eligible q s → consider q best s = .ok (match best with
      | none => some s
      | some b => if s.date < b.date then some b else if s.id < b.id then some b else some s)) := by
  unfold consider Lacks Eligible
  cases hf : s.first with
  | none => simp
  | some f =>
    simp only [Option.some.injEq, exists_eq_left', reduceCtorEq, false_or]
    by_cases h1 : q.first < f
    · rw [if_pos h1]
      have : ¬ f ≤ q.first := by omega
      simp [this]
    · rw [if_neg h1]
      have h1' : f ≤ q.first := by omega
      simp only [h1', true_and]
      cases hl : s.last with
      | none => simp
      | some l =>
        simp only [Option.some.injEq, exists_eq_left', reduceCtorEq, false_or]
        by_cases h2 : l < q.last
        · rw [if_pos h2]
          have : ¬ q.last ≤ l := by omega
          simp [this]
        · rw [if_neg h2]
          have h2' : q.last ≤ l := by omega
          simp only [h2', true_and]
          by_cases h3 : s.telescope.any (fun t => decide (lower t ≠ lower q.telescope)) = true
          · rw [if_pos h3]
            have : ¬ ∀ t, s.telescope = some t → lower t = lower q.telescope := by
              cases ht : s.telescope with
              | none => rw [ht] at h3; simp at h3
              | some t => rw [ht] at h3; simpa using h3
            simp [this]
          · rw [if_neg h3]
            have h3' : ∀ t, s.telescope = some t → lower t = lower q.telescope := by
              intro t ht
              rw [ht] at h3
              simpa using h3
            rw [show (∀ t, s.telescope = some t → lower t = lower q.telescope) ↔ True from iff_true_intro h3']
            simp only [true_and]
            cases hts : s.tags with
            | none => simp
            | some ts =>
              simp only [Option.some.injEq, exists_eq_left', reduceCtorEq]
              by_cases h4 : ∀ t ∈ q.tags, t ∈ ts
              · rw [if_neg (not_not.2 h4)]
                refine ⟨fun h => h.elim, fun _ h => absurd h4 h, fun _ => ?_⟩
                cases best with
                | none => rfl
                | some b =>
                  simp only
                  split
                  · rfl
                  · split <;> rfl
              · rw [if_pos h4]
                exact ⟨fun h => h.elim, fun _ _ => rfl, fun h => absurd h h4⟩

/-- **C430.** The search raises just if one of the simulations lacks a key that is needed, whatever the others are like. -/
theorem find_raises (q : Query) (sims : List Sim) (best : Option Sim) :
    (∃ s ∈ sims, Lacks q s) ↔ findLoop q sims best = .error .key := by
  induction sims generalizing best with
  | nil => simp [findLoop]
  | cons s l ih =>
    obtain ⟨c1, c2, c3⟩ := consider_spec q best s
    unfold findLoop
    by_cases h : Lacks q s
    · rw [c1 h]
      simp [h]
    · have : ∃ b, consider q best s = .ok b := by
        by_cases he : Eligible q s
        · exact ⟨_, c3 he⟩
        · exact ⟨_, c2 h he⟩
      obtain ⟨b, hb⟩ := this
      rw [hb]
      simp only
      rw [← ih b]
      simp [h]

/-- **C430.** A simulation that was made by `export_sim_to_prototype_sim_archive` – its dates are under another key – makes every search raise that it is in the window of. -/
theorem find_exported (q : Query) (sims : List Sim) (s : Sim) (hs : s ∈ sims) (h : s.first = none) : findLoop q sims none = .error .key :=
  (find_raises q sims none).1 ⟨s, hs, Or.inl h⟩

/-- **C430.** Else it gives one that fits, and `None` just if there is none; of those that fit, in the order of their days, it is one with the highest number of its
day, and of those the one of the latest day. -/
theorem find_spec (q : Query) (sims : List Sim) (hl : ∀ s ∈ sims, ¬ Lacks q s) (ho : sims.Pairwise (fun a b => a.date ≤ b.date)) :
    ∃ r, findLoop q sims none = .ok r ∧ (r = none ↔ ∀ s ∈ sims, ¬ Eligible q s) ∧
      ∀ b, r = some b → b ∈ sims ∧ Eligible q b ∧ ∀ s ∈ sims, Eligible q s → s.id < b.id ∨ (s.id = b.id ∧ s.date ≤ b.date) := by
  have main : ∀ (l pre : List Sim) (best : Option Sim), (∀ s ∈ l, ¬ Lacks q s) → (pre ++ l).Pairwise (fun a b => a.date ≤ b.date) →
      (best = none ↔ ∀ s ∈ pre, ¬ Eligible q s) →
      (∀ b, best = some b → b ∈ pre ∧ Eligible q b ∧ ∀ s ∈ pre, Eligible q s → s.id < b.id ∨ (s.id = b.id ∧ s.date ≤ b.date)) →
      ∃ r, findLoop q l best = .ok r ∧ (r = none ↔ ∀ s ∈ pre ++ l, ¬ Eligible q s) ∧
        ∀ b, r = some b → b ∈ pre ++ l ∧ Eligible q b ∧ ∀ s ∈ pre ++ l, Eligible q s → s.id < b.id ∨ (s.id = b.id ∧ s.date ≤ b.date) := by
    intro l
    induction l with
    | nil =>
      intro pre best _ _ h1 h2
      exact ⟨best, rfl, by rw [List.append_nil]; exact h1, by rw [List.append_nil]; exact h2⟩
    | cons s l ih =>
      intro pre best hl ho h1 h2
      obtain ⟨-, c2, c3⟩ := consider_spec q best s
      have e : pre ++ s :: l = (pre ++ [s]) ++ l := by simp
      rw [e] at ho ⊢
      have hs := hl s (by simp)
      have hl' : ∀ x ∈ l, ¬ Lacks q x := fun x hx => hl x (List.mem_cons_of_mem _ hx)
      unfold findLoop
      by_cases he : Eligible q s
      · rw [c3 he]
        simp only
        refine ih (pre ++ [s]) _ hl' ho ?_ ?_
        · constructor
          · intro hn
            cases hb : best with
            | none => rw [hb] at hn; simp at hn
            | some b =>
              rw [hb] at hn
              simp only at hn
              split at hn
              · simp at hn
              · split at hn <;> simp at hn
          · intro hn; exact absurd he (hn s (by simp))
        · intro b' hb'
          cases hb : best with
          | none =>
            rw [hb] at hb'
            simp only [Option.some.injEq] at hb'
            subst hb'
            refine ⟨by simp, he, fun x hx hex => ?_⟩
            rcases List.mem_append.1 hx with hx | hx
            · exact absurd hex (h1.1 hb x hx)
            · rw [List.mem_singleton.1 hx]; right; exact ⟨rfl, le_refl _⟩
          | some b =>
            obtain ⟨p1, p2, p3⟩ := h2 b hb
            rw [hb] at hb'
            simp only at hb'
            have hdate : b.date ≤ s.date := by
              rw [List.pairwise_append] at ho
              have := ho.1
              rw [List.pairwise_append] at this
              exact this.2.2 b p1 s (by simp)
            rw [if_neg (by omega)] at hb'
            split at hb'
            next hid =>
              have hb' := Option.some.inj hb'
              subst hb'
              refine ⟨List.mem_append_left _ p1, p2, fun x hx hex => ?_⟩
              rcases List.mem_append.1 hx with hx | hx
              · exact p3 x hx hex
              · rw [List.mem_singleton.1 hx]; left; exact hid
            next hid =>
              have hb' := Option.some.inj hb'
              subst hb'
              refine ⟨by simp, he, fun x hx hex => ?_⟩
              rcases List.mem_append.1 hx with hx | hx
              · have hxs : x.date ≤ s.date := by
                  rw [List.pairwise_append] at ho
                  have := ho.1
                  rw [List.pairwise_append] at this
                  exact this.2.2 x hx s (by simp)
                rcases p3 x hx hex with p | p
                · left; omega
                · by_cases hxs' : x.id < s.id
                  · left; exact hxs'
                  · right; exact ⟨by omega, hxs⟩
              · rw [List.mem_singleton.1 hx]; right; exact ⟨rfl, le_refl _⟩
      · rw [c2 hs he]
        simp only
        refine ih (pre ++ [s]) best hl' ho ?_ ?_
        · rw [h1]
          constructor
          · intro h x hx
            rcases List.mem_append.1 hx with hx | hx
            · exact h x hx
            · rw [List.mem_singleton.1 hx]; exact he
          · intro h x hx; exact h x (List.mem_append_left _ hx)
        · intro b hb
          obtain ⟨p1, p2, p3⟩ := h2 b hb
          refine ⟨List.mem_append_left _ p1, p2, fun x hx hex => ?_⟩
          rcases List.mem_append.1 hx with hx | hx
          · exact p3 x hx hex
          · rw [List.mem_singleton.1 hx] at hex; exact absurd hex he
  have := main sims [] none hl (by simpa using ho) (by simp) (by simp)
  simpa using this

/-- **C430.** The order of the days is the one in which the simulations are read. -/
theorem find_read {M : Type} (sim : Uri → M → Sim) (hsim : ∀ u m, (sim u m).date = u.date) (arch : List (Uri × M)) (comp : Option (List (Uri × M)))
    (latest nights : Int) : ((read arch comp false latest nights).map (fun e => sim e.1 e.2)).Pairwise (fun a b => a.date ≤ b.date) := by
  have h := (read_order arch comp false latest nights).1
  rw [List.pairwise_map] at h
  rw [List.pairwise_map]
  exact h.imp (fun {a b} hab => by rw [hsim, hsim]; exact hab)

/-- **C430.** Among simulations of one day it is the most recent one. -/
theorem find_latest_partial (q : Query) (sims : List Sim) (hl : ∀ s ∈ sims, ¬ Lacks q s) (ho : sims.Pairwise (fun a b => a.date ≤ b.date)) (d : Int)
    (hd : ∀ s ∈ sims, Eligible q s → s.date = d) (b : Sim) (hb : findLoop q sims none = .ok (some b)) :
    Eligible q b ∧ ∀ s ∈ sims, Eligible q s → s.date < b.date ∨ (s.date = b.date ∧ s.id ≤ b.id) := by
  obtain ⟨r, h1, -, h3⟩ := find_spec q sims hl ho
  rw [hb] at h1
  simp only [Except.ok.injEq] at h1
  obtain ⟨m, e, h⟩ := h3 b h1.symm
  refine ⟨e, fun s hs hes => Or.inr ⟨by rw [hd s hs hes, hd b m e], ?_⟩⟩
  rcases h s hs hes with h | h <;> omega

/-- **C430.** Over more days it is not: the third simulation of yesterday is taken, not the first one of today. -/
theorem find_latest_false : ¬ ∀ (q : Query) (sims : List Sim), (∀ s ∈ sims, ¬ Lacks q s) → sims.Pairwise (fun a b => a.date ≤ b.date) →
    ∀ b, findLoop q sims none = .ok (some b) → ∀ s ∈ sims, Eligible q s → s.date < b.date ∨ (s.date = b.date ∧ s.id ≤ b.id) := by
  intro h
  let s1 : Sim := ⟨60000, 3, some 60001, some 60002, none, some ["ideal", "nominal"], some "a.db"⟩
  let s2 : Sim := ⟨60001, 1, some 60001, some 60003, none, some ["ideal", "nominal"], some "b.db"⟩
  have := h ⟨60001, 60001, ["ideal", "nominal"], "simonyi"⟩ [s1, s2] (by simp [s1, s2, Lacks]) (by simp [s1, s2]) s1 (by decide +kernel) s2 (by simp)
    ⟨⟨60001, rfl, le_refl _⟩, ⟨60003, rfl, by decide⟩, by simp [s2], ⟨_, rfl, by simp⟩⟩
  revert this
  decide

/-- The second one of today, not the first one of today nor the one without the tag. -/
example : findLatest ⟨60001, 60001, ["nominal"], "simonyi"⟩ [⟨60000, 1, some 60001, some 60002, none, some ["nominal"], some "a"⟩,
    ⟨60001, 1, some 60001, some 60002, some "Simonyi", some ["nominal"], some "b"⟩, ⟨60001, 2, some 60001, some 60002, none, some ["ideal", "nominal"], some "c"⟩,
    ⟨60001, 3, some 60001, some 60002, none, some ["ideal"], some "d"⟩] =
    .ok (some (⟨60001, 2, some 60001, some 60002, none, some ["ideal", "nominal"], some "c"⟩, "c")) := by decide +kernel

/-! ## The visits of the latest simulation -/

section Fetch
variable {W : Type}

/-- **C431.** Without a simulation that fits no visits are given: there is an exception, and no count of 0. -/
theorem fetch_none (visits : Sim × String → List W) :
    fetch visits (.ok none) = .error .type ∧ nominalVisits visits (.ok none) = .error .type := ⟨rfl, rfl⟩

/-- **C431.** The visits are those of the simulation that was found; the number of them is only given if there is one. -/
theorem fetch_some (visits : Sim × String → List W) (r : Except PyErr (Option (Sim × String))) (n : Nat) :
    nominalVisits visits r = .ok n ↔ ∃ b, r = .ok (some b) ∧ (visits b).length = n := by
  unfold nominalVisits fetch
  cases r with
  | error e => simp
  | ok o => cases o <;> simp

/-- **C431.** The visits of a day more than one day ahead are never given: the window of nights is empty. -/
theorem tap_ahead {M : Type} (sim : Uri → M → Sim) (q : Query) (arch : List (Uri × M)) (comp : Option (List (Uri × M))) (today : Int) (now ref : Rat)
    (h : now + 1 ≤ ref) (visits : Sim × String → List W) : fetch visits (latestOf sim q arch comp today (tapAge now ref)) = .error .type := by
  have hage : tapAge now ref ≤ 0 := by
    unfold tapAge
    have : ⌈now - ref⌉ ≤ -1 := by
      rw [Int.ceil_le]
      push_cast
      linarith
    omega
  have hd : days today (tapAge now ref) = [] := by
    unfold days
    have : (tapAge now ref).toNat = 0 := by omega
    simp [this]
  have hr : read arch comp false today (tapAge now ref) = [] := by
    unfold read readAll
    rw [hd]; rfl
  unfold latestOf
  rw [hr]
  rfl

/-- **C431.** The windows of nights reach back to one day before the day asked for, and to three days before the night, and less than a day further. -/
theorem ages (now ref created : Rat) :
    (ref - 1 ≤ created → now - created ≤ tapAge now ref) ∧ (ref - 3 ≤ created → now - created ≤ statsAge now ref) ∧
      (tapAge now ref : Rat) < now - ref + 2 ∧ (statsAge now ref : Rat) < now - ref + 4 := by
  have h1 := Int.le_ceil (now - ref)
  have h2 := Int.ceil_lt_add_one (now - ref)
  unfold tapAge statsAge
  push_cast
  refine ⟨fun h => ?_, fun h => ?_, ?_, ?_⟩ <;> linarith

end Fetch

/-- For the day two and a half days ahead and for the evening of today. -/
example : tapAge (60000 + 1 / 2) 60003 = -1 ∧ tapAge (60000 + 3 / 4) (60000 + 1 / 2) = 2 ∧ statsAge (60000 + 3 / 4) (60000 + 1 / 2) = 4 := by
  refine ⟨?_, ?_, ?_⟩ <;> decide +kernel

end Verif.Proto
