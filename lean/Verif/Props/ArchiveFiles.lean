import Verif.Model.Archive
import Mathlib.Data.List.Nodup
import Mathlib.Tactic.Common

/-!
# C25, C26, C27, C57: registered files, archive integrity, conda environments
-/

namespace Verif.Archive

variable {U H L : Type*} [DecidableEq U]

/-- Specification of one `register_file` call on "what is registered for (sequence,
type)". -/
def regSpec (m : U → String → Option (H × L)) (c : RegCall U H L) : U → String → Option (H × L) :=
  if c.ftype = "visits" then m
  else if (m c.uuid c.ftype).isSome ∧ c.update = false then m
  else fun u f => if u = c.uuid ∧ f = c.ftype then some (c.sha, c.url) else m u f

/-- What a table says is registered, through the two query calls. -/
def registered (rows : List (FileRow U H L)) (u : U) (f : String) : Option (H × L) :=
  match getFileSha rows u f, getFileUrl rows u f with
  | .ok s, .ok l => some (s, l)
  | _, _ => none

/-- (sequence, type) is a key. -/
def FilesOk (rows : List (FileRow U H L)) : Prop := (rows.map (fun r => (r.uuid, r.ftype))).Nodup

theorem matching_mem {rows : List (FileRow U H L)} {u : U} {f : String} {r : FileRow U H L} :
    r ∈ matching rows u f ↔ r ∈ rows ∧ r.uuid = u ∧ r.ftype = f := by
  simp [matching]

theorem matching_le_one {rows : List (FileRow U H L)} (h : FilesOk rows) (u : U) (f : String) :
    matching rows u f = [] ∨ ∃ r, matching rows u f = [r] := by
  cases hm : matching rows u f with
  | nil => exact Or.inl rfl
  | cons r l =>
    right
    cases l with
    | nil => exact ⟨r, rfl⟩
    | cons s l =>
      exfalso
      have hnd : ((matching rows u f).map (fun r => (r.uuid, r.ftype))).Nodup :=
        h.sublist (List.filter_sublist.map _)
      have h1 : r ∈ matching rows u f := by rw [hm]; simp
      have h2 : s ∈ matching rows u f := by rw [hm]; simp
      rw [matching_mem] at h1 h2
      rw [hm] at hnd
      simp [h1.2, h2.2] at hnd

theorem registered_some {rows : List (FileRow U H L)} (h : FilesOk rows) {u : U} {f : String} {s : H} {l : L} :
    registered rows u f = some (s, l) ↔ FileRow.mk u f s l ∈ rows := by
  unfold registered getFileSha getFileUrl
  rcases matching_le_one h u f with hm | ⟨r, hm⟩
  · rw [hm]
    simp only [reduceCtorEq, false_iff]
    intro hin
    have : FileRow.mk u f s l ∈ matching rows u f := matching_mem.mpr ⟨hin, rfl, rfl⟩
    rw [hm] at this; simp at this
  · rw [hm]
    have hr : r ∈ rows ∧ r.uuid = u ∧ r.ftype = f := by rw [← matching_mem, hm]; simp
    simp only [Option.some.injEq, Prod.mk.injEq]
    constructor
    · rintro ⟨rfl, rfl⟩
      obtain ⟨a, b, c, d⟩ := r
      obtain ⟨h1, rfl, rfl⟩ := hr
      exact h1
    · intro hin
      have : FileRow.mk u f s l ∈ matching rows u f := matching_mem.mpr ⟨hin, rfl, rfl⟩
      rw [hm] at this
      simp only [List.mem_singleton] at this
      rw [← this]; exact ⟨rfl, rfl⟩

theorem registered_none {rows : List (FileRow U H L)} (h : FilesOk rows) {u : U} {f : String} :
    registered rows u f = none ↔ ∀ r ∈ rows, ¬ (r.uuid = u ∧ r.ftype = f) := by
  constructor
  · rintro hn ⟨a, b, c, d⟩ hr ⟨rfl, rfl⟩
    rw [(registered_some h).mpr hr] at hn
    cases hn
  · intro hh
    cases e : registered rows u f with
    | none => rfl
    | some p => exact absurd ⟨rfl, rfl⟩ (hh _ ((registered_some h).mp e))

theorem getFileUrl_ok_iff {rows : List (FileRow U H L)} (h : FilesOk rows) (u : U) (f : String) :
    (∃ l, getFileUrl rows u f = .ok l) ↔ (registered rows u f).isSome := by
  unfold registered getFileSha getFileUrl
  rcases matching_le_one h u f with hm | ⟨r, hm⟩ <;> simp [hm]

/-- One call keeps the key and refines the specification. -/
theorem register_step (rows : List (FileRow U H L)) (h : FilesOk rows) (c : RegCall U H L) :
    FilesOk (c.apply rows) ∧ ∀ u f, registered (c.apply rows) u f = regSpec (registered rows) c u f := by
  unfold RegCall.apply registerFile regSpec
  by_cases hv : c.ftype = "visits"
  · simp [h, hv]
  · simp only [hv, if_false]
    cases hg : getFileUrl rows c.uuid c.ftype with
    | ok l =>
      have hs : (registered rows c.uuid c.ftype).isSome := (getFileUrl_ok_iff h _ _).mp ⟨l, hg⟩
      cases hu : c.update with
      | false =>
        simp [h, hs]
      | true =>
        simp only [if_true, hs, Bool.true_eq_false, and_false, if_false]
        set rows' := rows.map (fun r => if r.uuid = c.uuid ∧ r.ftype = c.ftype then
          { r with sha := c.sha, url := c.url } else r) with hr'
        have hk : FilesOk rows' := by
          have : rows'.map (fun r => (r.uuid, r.ftype)) = rows.map (fun r => (r.uuid, r.ftype)) := by
            rw [hr', List.map_map]
            apply List.map_congr_left
            intro r _
            simp only [Function.comp]
            split <;> rfl
          unfold FilesOk
          rw [this]; exact h
        refine ⟨hk, fun u f => ?_⟩
        by_cases hx : u = c.uuid ∧ f = c.ftype
        · rw [if_pos hx]
          obtain ⟨rfl, rfl⟩ := hx
          rw [registered_some hk]
          obtain ⟨p, hp⟩ := Option.isSome_iff_exists.mp hs
          have := (registered_some h (s := p.1) (l := p.2)).mp hp
          rw [hr']
          exact List.mem_map.mpr ⟨_, this, by simp⟩
        · rw [if_neg hx]
          cases hp : registered rows u f with
          | none =>
            rw [registered_none hk]
            rw [registered_none h] at hp
            intro r hr
            obtain ⟨r0, hr0, rfl⟩ := List.mem_map.mp hr
            have := hp r0 hr0
            split <;> exact this
          | some p =>
            rw [registered_some hk (s := p.1) (l := p.2)]
            have := (registered_some h (s := p.1) (l := p.2)).mp hp
            exact List.mem_map.mpr ⟨_, this, if_neg hx⟩
    | error e =>
      have hs : registered rows c.uuid c.ftype = none := by
        rw [← Option.not_isSome_iff_eq_none, ← getFileUrl_ok_iff h, hg]; simp
      simp only [hs, Option.isSome_none, Bool.false_eq_true, false_and, if_false]
      have hk : FilesOk (rows ++ [FileRow.mk c.uuid c.ftype c.sha c.url]) := by
        unfold FilesOk
        rw [List.map_append, List.nodup_append]
        refine ⟨h, by simp, ?_⟩
        rintro a ha b hb rfl
        simp only [List.map_cons, List.map_nil, List.mem_singleton] at hb
        obtain ⟨r, hr, hr2⟩ := List.mem_map.mp ha
        rw [hb] at hr2
        simp only [Prod.mk.injEq] at hr2
        exact (registered_none h).mp hs r hr hr2
      refine ⟨hk, fun u f => ?_⟩
      by_cases hx : u = c.uuid ∧ f = c.ftype
      · rw [if_pos hx]
        obtain ⟨rfl, rfl⟩ := hx
        rw [registered_some hk]; simp
      · rw [if_neg hx]
        cases hp : registered rows u f with
        | none =>
          rw [registered_none hk]
          rw [registered_none h] at hp
          intro r hr
          rcases List.mem_append.mp hr with hr | hr
          · exact hp r hr
          · simp only [List.mem_singleton] at hr
            subst hr
            exact fun e => hx ⟨e.1.symm, e.2.symm⟩
        | some p =>
          rw [registered_some hk (s := p.1) (l := p.2)]
          exact List.mem_append_left _ ((registered_some h (s := p.1) (l := p.2)).mp hp)

/-- **C25.** After any history of `register_file` calls there is at most one entry
per (sequence, type), and the two query calls return what the specification says:
the first registration, or the latest one made with `update`. -/
theorem files_registered (cs : List (RegCall U H L)) :
    FilesOk (cs.foldl RegCall.apply []) ∧
    ∀ u f, registered (cs.foldl RegCall.apply []) u f = (cs.foldl regSpec (fun _ _ => none)) u f := by
  have key : ∀ (cs : List (RegCall U H L)) (rows : List (FileRow U H L)) (m), FilesOk rows →
      registered rows = m →
      FilesOk (cs.foldl RegCall.apply rows) ∧ registered (cs.foldl RegCall.apply rows) = cs.foldl regSpec m := by
    intro cs
    induction cs with
    | nil => intro rows m h e; exact ⟨h, e⟩
    | cons c cs ih =>
      intro rows m h e
      obtain ⟨h1, h2⟩ := register_step rows h c
      apply ih _ _ h1
      rw [← e]
      funext u f
      exact h2 u f
  obtain ⟨h1, h2⟩ := key cs [] (fun _ _ => none) (by simp [FilesOk]) (by
    funext u f; simp [registered, getFileSha, getFileUrl, matching])
  exact ⟨h1, fun u f => by rw [h2]⟩

/-- **C25.** Which calls fail: type "visits" always; an existing type without
`update`; no other (in a reachable table). -/
theorem register_fails_iff (cs : List (RegCall U H L)) (c : RegCall U H L) :
    (∃ e, registerFile (cs.foldl RegCall.apply []) c.uuid c.ftype c.sha c.url c.update = .error e) ↔
      c.ftype = "visits" ∨
      ((registered (cs.foldl RegCall.apply []) c.uuid c.ftype).isSome ∧ c.update = false) := by
  have h := (files_registered cs).1
  generalize cs.foldl RegCall.apply [] = rows at *
  unfold registerFile
  by_cases hv : c.ftype = "visits"
  · simp [hv]
  · simp only [hv, if_false, false_or]
    cases hg : getFileUrl rows c.uuid c.ftype with
    | ok l =>
      have hs : (registered rows c.uuid c.ftype).isSome := (getFileUrl_ok_iff h _ _).mp ⟨l, hg⟩
      cases hu : c.update <;> simp [hs]
    | error e =>
      have hs : ¬ (registered rows c.uuid c.ftype).isSome := by
        rw [← getFileUrl_ok_iff h, hg]; simp
      simp [hs]

example : ([⟨1, "rewards", 10, "u1", false⟩, ⟨1, "rewards", 11, "u2", false⟩, ⟨1, "rewards", 12, "u3", true⟩,
    ⟨1, "visits", 13, "u4", true⟩] : List (RegCall Nat Nat String)).foldl RegCall.apply [] =
    [⟨1, "rewards", 12, "u3"⟩] := by decide

/-! ## C26 -/

section Integrity
variable {C : Type*}

/-- Specification: every registered file is in the store and has the registered
hash. -/
def Integrity (hash : C → H) (a : Arch U H C) : Prop :=
  ∀ r ∈ a.files, ∃ c, a.store r.url = some c ∧ hash c = r.sha

/-- The part of a history that excludes the two ways to lose integrity: no call
dies, names do not clash between types, and nothing is refused (a type is added a
second time only with `update`). -/
structure Careful (cs : List (AddCall U C)) : Prop where
  noCrash : ∀ c ∈ cs, c.crash = false
  names : ∀ c ∈ cs, ∀ d ∈ cs, c.uuid = d.uuid → c.name = d.name → c.ftype = d.ftype
  update : cs.Pairwise (fun c d => c.uuid = d.uuid → c.ftype = d.ftype → d.update = true)

theorem addFile_files (hash : C → H) (a : Arch U H C) (c : AddCall U C) (hc : c.crash = false)
    (hf : c.ftype ≠ "visits") :
    (addFile hash a c).1.files =
      (RegCall.mk c.uuid c.ftype (hash c.content) (c.uuid, c.name) c.update).apply a.files := by
  unfold addFile RegCall.apply
  simp only [hc, Bool.false_eq_true, if_false, hf]
  cases registerFile a.files c.uuid c.ftype (hash c.content) (c.uuid, c.name) c.update <;> rfl

theorem addFile_store (hash : C → H) (a : Arch U H C) (c : AddCall U C) :
    (addFile hash a c).1.store = Function.update a.store (c.uuid, c.name) (some c.content) := by
  unfold addFile
  simp only
  split
  · rfl
  · split
    · rfl
    · split <;> rfl

/-- **C26**, what holds: after a careful history every registered file is stored
with the registered hash. Missing: refused calls, crashes and name clashes, each of
which breaks it (`refused_add_breaks`, `crash_breaks`, `name_clash_breaks`). -/
theorem archive_integrity_partial (hash : C → H) (cs : List (AddCall U C)) (h : Careful cs) :
    Integrity hash (runAdds hash (Arch.empty : Arch U H C) cs) := by
  -- Invariant over a processed prefix `pre`.
  have key : ∀ (rest pre : List (AddCall U C)) (a : Arch U H C), Careful (pre ++ rest) →
      FilesOk a.files → Integrity hash a →
      (∀ r ∈ a.files, r.ftype ≠ "visits" ∧
        ∃ c ∈ pre, c.uuid = r.uuid ∧ c.ftype = r.ftype ∧ r.url = (c.uuid, c.name)) →
      Integrity hash (runAdds hash a rest) := by
    intro rest
    induction rest with
    | nil => intro pre a _ _ hi _; exact hi
    | cons c rest ih =>
      intro pre a hc hk hi ho
      have hcm : c ∈ pre ++ c :: rest := by simp
      have hcr := hc.noCrash c hcm
      have e : runAdds hash a (c :: rest) = runAdds hash (addFile hash a c).1 rest := rfl
      rw [e]
      have hold : ∀ r ∈ a.files, ¬ (r.uuid = c.uuid ∧ r.ftype = c.ftype) →
          ∃ x, (addFile hash a c).1.store r.url = some x ∧ hash x = r.sha := by
        intro r hr hne
        obtain ⟨x, hx1, hx2⟩ := hi r hr
        refine ⟨x, ?_, hx2⟩
        rw [addFile_store, Function.update_of_ne]
        · exact hx1
        · intro heq
          obtain ⟨_, d, hd, h1, h2, h3⟩ := ho r hr
          rw [h3] at heq
          simp only [Prod.mk.injEq] at heq
          have := hc.names d (List.mem_append_left _ hd) c hcm heq.1 heq.2
          exact hne ⟨h1.symm.trans heq.1, h2.symm.trans this⟩
      by_cases hv : c.ftype = "visits"
      · have e2 : (addFile hash a c).1.files = a.files := by simp [addFile, hcr, hv]
        apply ih (pre ++ [c]) (addFile hash a c).1 (by simpa using hc)
        · rw [e2]; exact hk
        · intro r hr
          rw [e2] at hr
          exact hold r hr (fun h' => (ho r hr).1 (h'.2.trans hv))
        · intro r hr
          rw [e2] at hr
          obtain ⟨h0, d, hd, h1⟩ := ho r hr
          exact ⟨h0, d, List.mem_append_left _ hd, h1⟩
      · have e2 := addFile_files hash a c hcr hv
        obtain ⟨k1, k2⟩ := register_step a.files hk
          (RegCall.mk c.uuid c.ftype (hash c.content) (c.uuid, c.name) c.update)
        have hsplit : ∀ r ∈ (addFile hash a c).1.files,
            r = ⟨c.uuid, c.ftype, hash c.content, (c.uuid, c.name)⟩ ∨
            (r ∈ a.files ∧ ¬ (r.uuid = c.uuid ∧ r.ftype = c.ftype)) := by
          intro r hr
          rw [e2] at hr
          have hreg := (registered_some k1 (u := r.uuid) (f := r.ftype) (s := r.sha) (l := r.url)).mpr hr
          rw [k2] at hreg
          simp only [regSpec, hv, if_false] at hreg
          rw [if_neg] at hreg
          · split at hreg
            · rename_i hx
              left
              simp only [Option.some.injEq, Prod.mk.injEq] at hreg
              obtain ⟨a1, a2, a3, a4⟩ := r
              simp only at hx hreg
              obtain ⟨rfl, rfl⟩ := hx
              obtain ⟨rfl, rfl⟩ := hreg
              rfl
            · rename_i hx
              exact Or.inr ⟨(registered_some hk).mp hreg, hx⟩
          · rintro ⟨hs, hu⟩
            obtain ⟨p, hp⟩ := Option.isSome_iff_exists.mp hs
            obtain ⟨_, d, hd, h1, h2, _⟩ := ho _ ((registered_some hk (s := p.1) (l := p.2)).mp hp)
            have := (List.pairwise_append.mp hc.update).2.2 d hd c (by simp) h1 h2
            rw [this] at hu
            cases hu
        apply ih (pre ++ [c]) (addFile hash a c).1 (by simpa using hc)
        · rw [e2]; exact k1
        · intro r hr
          rcases hsplit r hr with rfl | ⟨h1, h2⟩
          · exact ⟨c.content, by rw [addFile_store, Function.update_self], rfl⟩
          · exact hold r h1 h2
        · intro r hr
          rcases hsplit r hr with rfl | ⟨h1, h2⟩
          · exact ⟨hv, c, by simp, rfl, rfl, rfl⟩
          · obtain ⟨h0, d, hd, h3⟩ := ho r h1
            exact ⟨h0, d, List.mem_append_left _ hd, h3⟩
  apply key cs [] Arch.empty (by simpa using h)
  · simp [FilesOk, Arch.empty]
  · intro r hr; simp [Arch.empty] at hr
  · intro r hr; simp [Arch.empty] at hr

/-- A careful history: two types, the second one updated under a new name. -/
example : Careful ([⟨1, "a.txt", 10, "rewards", false, false⟩, ⟨1, "v.h5", 11, "visits", false, false⟩,
    ⟨1, "b.txt", 12, "rewards", true, false⟩] : List (AddCall Nat Nat)) :=
  ⟨by decide, by decide, by decide⟩

/-- **C26**, refutation in general, refused call: if a file is registered under its
own name and somebody tries to add another content under the same name and type
without `update`, the call fails — and the stored bytes no longer match. -/
theorem refused_add_breaks (hash : C → H) (a : Arch U H C) (hk : FilesOk a.files) (c : AddCall U C)
    (r : FileRow U H (U × String)) (hr : r ∈ a.files) (hu : r.uuid = c.uuid) (hf : r.ftype = c.ftype)
    (hv : c.ftype ≠ "visits") (hl : r.url = (c.uuid, c.name)) (hup : c.update = false) (hh : hash c.content ≠ r.sha) :
    (addFile hash a c).2 = false ∧ ¬ Integrity hash (addFile hash a c).1 := by
  have hg : ∃ l, getFileUrl a.files c.uuid c.ftype = .ok l := by
    rw [getFileUrl_ok_iff hk]
    have : registered a.files c.uuid c.ftype = some (r.sha, r.url) := by
      rw [registered_some hk]
      obtain ⟨x1, x2, x3, x4⟩ := r
      simp only at hu hf
      subst hu hf
      exact hr
    rw [this]; rfl
  obtain ⟨l, hg⟩ := hg
  constructor
  · unfold addFile
    simp only
    split
    · rfl
    · simp [hv, registerFile, hg, hup]
  · intro hi
    have hfiles : (addFile hash a c).1.files = a.files := by
      unfold addFile
      simp only
      split
      · rfl
      · simp [hv, registerFile, hg, hup]
    obtain ⟨x, hx1, hx2⟩ := hi r (by rw [hfiles]; exact hr)
    rw [addFile_store, hl, Function.update_self] at hx1
    cases hx1
    exact hh hx2

/-- **C26**, refutation in general, crash: the same with `update` when the process
dies between the write and the registration. -/
theorem crash_breaks (hash : C → H) (a : Arch U H C) (c : AddCall U C) (hc : c.crash = true)
    (r : FileRow U H (U × String)) (hr : r ∈ a.files) (hl : r.url = (c.uuid, c.name)) (hh : hash c.content ≠ r.sha) :
    ¬ Integrity hash (addFile hash a c).1 := by
  intro hi
  obtain ⟨x, hx1, hx2⟩ := hi r (by simpa [addFile, hc] using hr)
  rw [addFile_store, hl, Function.update_self] at hx1
  cases hx1
  exact hh hx2

/-- **C26**, refutation: two types with the same file name, no failing call. -/
theorem name_clash_breaks :
    ¬ ∀ cs : List (AddCall Nat Nat), (∀ c ∈ cs, c.crash = false) →
      Integrity id (runAdds id (Arch.empty : Arch Nat Nat Nat) cs) := by
  intro h
  obtain ⟨x, hx1, hx2⟩ := h [⟨1, "out.txt", 10, "rewards", false, false⟩, ⟨1, "out.txt", 11, "scheduler", false, false⟩]
    (by decide) ⟨1, "rewards", 10, (1, "out.txt")⟩ (by decide)
  have : (runAdds id (Arch.empty : Arch Nat Nat Nat) [⟨1, "out.txt", 10, "rewards", false, false⟩,
    ⟨1, "out.txt", 11, "scheduler", false, false⟩]).store (1, "out.txt") = some 11 := by decide
  rw [this] at hx1
  cases hx1
  simp at hx2

/-- A reachable instance of the hypotheses of `refused_add_breaks`. -/
example : ¬ Integrity id (runAdds id (Arch.empty : Arch Nat Nat Nat)
    [⟨1, "out.txt", 10, "rewards", false, false⟩, ⟨1, "out.txt", 11, "rewards", false, false⟩]) :=
  (refused_add_breaks id (runAdds id Arch.empty [⟨1, "out.txt", 10, "rewards", false, false⟩]) (by unfold FilesOk; decide)
    ⟨1, "out.txt", 11, "rewards", false, false⟩ ⟨1, "rewards", 10, (1, "out.txt")⟩ (by decide) rfl rfl (by decide)
    rfl rfl (by decide)).2

/-- **C26**, sequences do not interfere: a call for one sequence never touches
files, registrations or visits url of another, failing or not. -/
theorem add_file_other_sequence (hash : C → H) (a : Arch U H C) (c : AddCall U C) (u : U) (hu : u ≠ c.uuid) :
    (∀ n, (addFile hash a c).1.store (u, n) = a.store (u, n)) ∧
    (addFile hash a c).1.visitsUrl u = a.visitsUrl u ∧
    (addFile hash a c).1.files.filter (fun r => decide (r.uuid = u)) =
      a.files.filter (fun r => decide (r.uuid = u)) := by
  refine ⟨fun n => ?_, ?_, ?_⟩
  · rw [addFile_store, Function.update_of_ne]
    intro e
    exact hu (Prod.mk.inj e).1
  · unfold addFile
    simp only
    split
    · rfl
    · split
      · simp [Function.update_of_ne hu]
      · split <;> rfl
  · have hreg : ∀ (rows rows' : List (FileRow U H (U × String))) f s l up,
        registerFile rows c.uuid f s l up = .ok rows' →
        rows'.filter (fun r => decide (r.uuid = u)) = rows.filter (fun r => decide (r.uuid = u)) := by
      intro rows rows' f s l up h
      unfold registerFile at h
      split at h
      · cases h
      · split at h
        · split at h
          · cases h
            rw [List.filter_map]
            have : ((fun r : FileRow U H (U × String) => decide (r.uuid = u)) ∘
                fun r => if r.uuid = c.uuid ∧ r.ftype = f then { r with sha := s, url := l } else r) =
                (fun r => decide (r.uuid = u)) := by
              funext r
              simp only [Function.comp]
              split <;> rfl
            rw [this]
            conv_rhs => rw [← List.map_id (List.filter _ rows)]
            apply List.map_congr_left
            intro r hr
            have hru : r.uuid = u := by simpa using (List.mem_filter.mp hr).2
            have : ¬ (r.uuid = c.uuid ∧ r.ftype = f) := fun e => hu (hru.symm.trans e.1)
            rw [if_neg this]; rfl
          · cases h
        · cases h
          have : c.uuid ≠ u := fun e => hu e.symm
          simp [List.filter_append, this]
    unfold addFile
    simp only
    split
    · rfl
    · split
      · rfl
      · split
        · rename_i r hr
          exact hreg _ _ _ _ _ _ hr
        · rfl

end Integrity

/-! ## C27 -/

section Conda
variable {J : Type*} [DecidableEq H]

/-- Full statement of C27: exactly one of the two arguments is a ValueError. -/
def CondaChecked (current : H × J) : Prop :=
  ∀ (table : List (H × J)) (h : Option H) (j : Option J), h.isSome ≠ j.isSome →
    recordCondaEnv current table h j = .error .valueError

/-- **C27.** The documented error never happens, whatever the arguments. -/
theorem conda_no_value_error (current : H × J) (table : List (H × J)) (h : Option H) (j : Option J) :
    recordCondaEnv current table h j ≠ .error .valueError := by
  unfold recordCondaEnv condaGuard
  cases h <;> cases j <;> simp <;> split <;> simp

/-- **C27**, refutation for every environment. -/
theorem conda_checked_false (current : H × J) : ¬ CondaChecked current := by
  intro h
  exact conda_no_value_error current [] (some current.1) none (h [] (some current.1) none (by simp))

/-- **C27.** What happens instead: a lone hash trips the assertion; a lone listing
is ignored and the current environment recorded. -/
theorem conda_lone_arguments (current : H × J) (table : List (H × J)) (x : H) (y : J) :
    recordCondaEnv current table (some x) none = .error .assertionError ∧
    recordCondaEnv current table none (some y) = recordCondaEnv current table none none := by
  constructor <;> simp [recordCondaEnv, condaGuard]

/-- **C27**, what holds: with both or neither argument the environment is recorded
under its hash, an existing entry is never changed, hashes stay unique. -/
theorem conda_recorded_partial (current : H × J) (table : List (H × J)) (ht : (table.map Prod.fst).Nodup)
    (h : Option H) (j : Option J) (hj : h.isSome = j.isSome) :
    ∃ t x, recordCondaEnv current table h j = .ok (t, x) ∧ x = h.getD current.1 ∧
      (t.map Prod.fst).Nodup ∧ table <+: t ∧ (∃ y, (x, y) ∈ t) ∧
      (x ∉ table.map Prod.fst → (x, j.getD current.2) ∈ t) := by
  have main : ∀ (x : H) (y : J), ∃ t,
      (if table.any (fun r => decide (r.1 = x)) then (table, x) else (table ++ [(x, y)], x)) = (t, x) ∧
      (t.map Prod.fst).Nodup ∧ table <+: t ∧ (∃ y, (x, y) ∈ t) ∧ (x ∉ table.map Prod.fst → (x, y) ∈ t) := by
    intro x y
    by_cases hx : x ∈ table.map Prod.fst
    · have : table.any (fun r => decide (r.1 = x)) = true := by
        obtain ⟨r, hr, e⟩ := List.mem_map.mp hx
        exact List.any_eq_true.mpr ⟨r, hr, by simpa using e⟩
      refine ⟨table, by rw [if_pos this], ht, List.prefix_rfl, ?_, fun hn => absurd hx hn⟩
      obtain ⟨r, hr, e⟩ := List.mem_map.mp hx
      exact ⟨r.2, by rw [← e]; exact hr⟩
    · have : ¬ table.any (fun r => decide (r.1 = x)) = true := by
        intro h'
        obtain ⟨r, hr, e⟩ := List.any_eq_true.mp h'
        exact hx (List.mem_map.mpr ⟨r, hr, by simpa using e⟩)
      refine ⟨table ++ [(x, y)], by rw [if_neg this], ?_, List.prefix_append _ _, ⟨y, by simp⟩, fun _ => by simp⟩
      rw [List.map_append, List.nodup_append]
      refine ⟨ht, by simp, ?_⟩
      rintro a ha b hb rfl
      simp only [List.map_cons, List.map_nil, List.mem_singleton] at hb
      exact hx (hb ▸ ha)
  cases h with
  | none =>
    cases j with
    | some y => simp at hj
    | none =>
      obtain ⟨t, h1, h2⟩ := main current.1 current.2
      refine ⟨t, current.1, ?_, rfl, h2⟩
      simp only [recordCondaEnv, condaGuard, Option.isNone_none, Bool.not_true, Bool.false_and, Bool.and_false,
        Bool.false_eq_true, if_false]
      rw [← h1]; split <;> rfl
  | some x =>
    cases j with
    | none => simp at hj
    | some y =>
      obtain ⟨t, h1, h2⟩ := main x y
      refine ⟨t, x, ?_, rfl, h2⟩
      simp only [recordCondaEnv, condaGuard, Option.isNone_some, Bool.false_and, Bool.false_eq_true, if_false]
      rw [← h1]; split <;> rfl

example : recordCondaEnv (0, "cur") [(1, "x")] (some 2) (some "y") = .ok ([(1, "x"), (2, "y")], 2) := by rfl

end Conda

/-! ## C57 -/

section Seqs

/-- Sequences have distinct ids. -/
def SeqOk (rows : List (SeqRow U L)) : Prop := (rows.map SeqRow.uuid).Nodup

theorem setUrl_eq {rows : List (SeqRow U L)} (h : SeqOk rows) (u : U) (url : L) :
    setUrl rows u url = if u ∈ rows.map SeqRow.uuid then
      some (rows.map (fun r => if r.uuid = u then { r with url := some url } else r)) else none := by
  by_cases hu : u ∈ rows.map SeqRow.uuid
  · rw [if_pos hu]
    obtain ⟨r0, hr0, rfl⟩ := List.mem_map.mp hu
    have hfind : ∃ t, findTable rows r0.uuid = some t := by
      apply Option.isSome_iff_exists.mp
      unfold findTable
      rw [List.find?_isSome]
      refine ⟨.visitseq, by simp, ?_⟩
      simp only [decide_eq_true_eq, List.countP_pos_iff]
      exact ⟨r0, hr0, by simp [inTable]⟩
    obtain ⟨t, ht⟩ := hfind
    have hin : inTable t r0 = true := by
      have := List.find?_some ht
      simp only [decide_eq_true_eq, List.countP_pos_iff] at this
      obtain ⟨r, hr, h1⟩ := this
      simp only [Bool.and_eq_true, decide_eq_true_eq] at h1
      rw [← List.inj_on_of_nodup_map h hr hr0 h1.2]
      exact h1.1
    simp only [setUrl, ht]
    congr 1
    apply List.map_congr_left
    intro r hr
    by_cases e : r.uuid = r0.uuid
    · rw [List.inj_on_of_nodup_map h hr hr0 e]
      simp [hin]
    · simp [e]
  · rw [if_neg hu]
    have : findTable rows u = none := by
      unfold findTable
      rw [List.find?_eq_none]
      intro t _
      simp only [decide_eq_true_eq, List.countP_pos_iff, not_exists, not_and]
      intro r hr h1
      simp only [Bool.and_eq_true, decide_eq_true_eq] at h1
      exact hu (List.mem_map.mpr ⟨r, hr, h1.2⟩)
    simp [setUrl, this]

theorem getUrl_eq {rows : List (SeqRow U L)} (h : SeqOk rows) {r : SeqRow U L} (hr : r ∈ rows) :
    getUrl rows r.uuid = some r.url := by
  have : rows.filter (fun s => inTable .visitseq s && decide (s.uuid = r.uuid)) = [r] := by
    clear getUrl_eq
    induction rows with
    | nil => simp at hr
    | cons s l ih =>
      have hnd := List.nodup_cons.mp (show (s.uuid :: l.map SeqRow.uuid).Nodup from h)
      rcases List.mem_cons.mp hr with rfl | hr'
      · have : l.filter (fun s => inTable .visitseq s && decide (s.uuid = r.uuid)) = [] := by
          rw [List.filter_eq_nil_iff]
          intro x hx hp
          simp only [Bool.and_eq_true, decide_eq_true_eq] at hp
          exact hnd.1 (List.mem_map.mpr ⟨x, hx, hp.2⟩)
        rw [List.filter_cons_of_pos (by simp [inTable]), this]
      · have hne : s.uuid ≠ r.uuid := fun e => hnd.1 (List.mem_map.mpr ⟨r, hr', e.symm⟩)
        rw [List.filter_cons_of_neg (by simp [hne])]
        exact ih hnd.2 hr'
  simp [getUrl, this]

/-- **C57.** In a table of sequences with distinct ids, whatever table each was
recorded in: setting the url of a recorded sequence succeeds, the url can then be
read back, every other sequence keeps its url, and nothing else of any row
changes. For an unknown id both calls fail. -/
theorem url_round_trip (rows : List (SeqRow U L)) (h : SeqOk rows) (u : U) (url : L) :
    (u ∈ rows.map SeqRow.uuid →
      ∃ rows', setUrl rows u url = some rows' ∧ getUrl rows' u = some (some url) ∧
        (∀ u', u' ≠ u → u' ∈ rows.map SeqRow.uuid → getUrl rows' u' = getUrl rows u') ∧
        rows'.map (fun r => (r.tbl, r.uuid)) = rows.map (fun r => (r.tbl, r.uuid))) ∧
    (u ∉ rows.map SeqRow.uuid → setUrl rows u url = none ∧ getUrl rows u = none) := by
  constructor
  · intro hu
    set rows' := rows.map (fun r => if r.uuid = u then { r with url := some url } else r) with hr'
    have hmap : rows'.map (fun r => (r.tbl, r.uuid)) = rows.map (fun r => (r.tbl, r.uuid)) := by
      rw [hr', List.map_map]
      apply List.map_congr_left
      intro r _
      simp only [Function.comp]
      split <;> rfl
    have hok : SeqOk rows' := by
      have : rows'.map SeqRow.uuid = rows.map SeqRow.uuid := by
        have := congrArg (List.map Prod.snd) hmap
        simpa [List.map_map, Function.comp_def] using this
      unfold SeqOk
      rw [this]; exact h
    refine ⟨rows', by rw [setUrl_eq h, if_pos hu], ?_, ?_, hmap⟩
    · obtain ⟨r, hr, rfl⟩ := List.mem_map.mp hu
      have : ({ r with url := some url } : SeqRow U L) ∈ rows' := List.mem_map.mpr ⟨r, hr, by simp⟩
      exact getUrl_eq hok this
    · intro u' hne hu'
      obtain ⟨r, hr, rfl⟩ := List.mem_map.mp hu'
      have : r ∈ rows' := List.mem_map.mpr ⟨r, hr, by simp [hne]⟩
      rw [getUrl_eq hok this, getUrl_eq h hr]
  · intro hu
    refine ⟨by rw [setUrl_eq h, if_neg hu], ?_⟩
    have : rows.filter (fun s => inTable .visitseq s && decide (s.uuid = u)) = [] := by
      rw [List.filter_eq_nil_iff]
      intro x hx hp
      simp only [Bool.and_eq_true, decide_eq_true_eq] at hp
      exact hu (List.mem_map.mpr ⟨x, hx, hp.2⟩)
    simp [getUrl, this]

omit [DecidableEq U] in
/-- **C57.** A history of recordings under new ids keeps the ids distinct. -/
theorem record_keeps_ok (rows : List (SeqRow U L)) (h : SeqOk rows) (t : Tbl) (u : U) (url : Option L)
    (hu : u ∉ rows.map SeqRow.uuid) : SeqOk (recordSeq rows t u url) := by
  unfold SeqOk recordSeq
  rw [List.map_append, List.nodup_append]
  refine ⟨h, by simp, ?_⟩
  rintro a ha b hb rfl
  simp only [List.map_cons, List.map_nil, List.mem_singleton] at hb
  exact hu (hb ▸ ha)

example : SeqOk (recordSeq (recordSeq (recordSeq [] .simulations 1 (some "a")) .mixed 2 none) .visitseq 3 none) := by
  unfold SeqOk; decide

end Seqs

/-! ## C56 -/

section Record
variable {V : Type*}

/-- **C56.** When the second transaction of `record_simulation_metadata` fails, the
call fails but leaves a simulation behind that has the label and none of the
additional metadata — for every table, label and metadata. -/
theorem failed_record_leaves_row (rows : List (SimRec U V)) (u : U) (label : String) (v : V) :
    recordSim rows u label (some v) false = (rows ++ [⟨u, label, none⟩], false) := rfl

/-- **C56**, refutation of "a failing call leaves nothing behind". -/
theorem record_not_atomic :
    ¬ ∀ (rows : List (SimRec Nat Nat)) (u : Nat) (label : String) (extra : Option Nat) (ok : Bool),
      (recordSim rows u label extra ok).2 = false → (recordSim rows u label extra ok).1 = rows := by
  intro h
  have := congrArg List.length (h [] 1 "x" (some 2) false rfl)
  simp [recordSim] at this

/-- **C56**, what holds: a call that returns has recorded exactly one more
simulation, complete, under the new id. -/
theorem record_complete_partial (rows : List (SimRec U V)) (u : U) (hu : u ∉ rows.map SimRec.uuid) (label : String)
    (extra : Option V) (ok : Bool) (hret : (recordSim rows u label extra ok).2 = true) :
    (recordSim rows u label extra ok).1 = rows ++ [⟨u, label, extra⟩] := by
  unfold recordSim at *
  cases extra with
  | none => rfl
  | some v =>
    simp only at *
    split at hret
    · rename_i h
      simp only [h, if_true, List.map_append, List.map_cons, List.map_nil]
      congr 1
      conv_rhs => rw [← List.map_id rows]
      apply List.map_congr_left
      intro r hr
      have : r.uuid ≠ u := fun e => hu (List.mem_map.mpr ⟨r, hr, e⟩)
      simp [this]
    · cases hret

example : (recordSim ([⟨1, "a", some 5⟩] : List (SimRec Nat Nat)) 2 "b" (some 6) true).2 = true := rfl

end Record

end Verif.Archive
