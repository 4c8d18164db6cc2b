import Verif.Model.Tools
import Verif.Props.ResultsDb
import Mathlib.Tactic.Linarith
import Mathlib.Data.List.Infix

/-!
# Properties of the tools that keep track of runs
-/

namespace Verif.Tools

open SsPipe (Str s remove removeGo baseName runName)

/-! ## Paths -/

/-- What two directories share is the same, and it is all that they share. -/
theorem common_spec (a b : Loc) : a.take (common a b) = b.take (common a b) ∧ common a b ≤ a.length ∧ common a b ≤ b.length ∧
    ∀ x, a[common a b]? = some x → b[common a b]? ≠ some x := by
  induction a generalizing b with
  | nil => simp [common]
  | cons x xs ih =>
    cases b with
    | nil => simp [common]
    | cons y ys =>
      rw [common]
      split
      · rename_i h
        subst h
        obtain ⟨h1, h2, h3, h4⟩ := ih ys
        refine ⟨by simp [h1], by simp [h2], by simp [h3], ?_⟩
        simpa using h4
      · rename_i h
        refine ⟨rfl, by simp, by simp, ?_⟩
        intro z hz
        simp only [List.getElem?_cons_zero, Option.some.injEq] at *
        intro e
        apply h
        rw [hz]
        exact (Option.some.inj e).symm

/-- A relative path used from where it is meant to be used leads to the directory. -/
theorem resolve_rel (m st : Loc) : resolve st (rel m st) = m := by
  obtain ⟨h1, h2, h3, _⟩ := common_spec m st
  unfold resolve rel
  dsimp only
  have : st.length - (st.length - common m st) = common m st := by omega
  rw [this, ← h1, List.take_append_drop]

/-- Used from another directory it leads there if and only if going up as often gives the same. -/
theorem resolve_iff (cwd m st : Loc) :
    resolve cwd (rel m st) = m ↔ cwd.take (cwd.length - (st.length - common m st)) = st.take (common m st) := by
  obtain ⟨h1, h2, h3, _⟩ := common_spec m st
  unfold resolve rel
  dsimp only
  rw [← h1]
  generalize hk : common m st = k at *
  constructor
  · intro h
    have h' : cwd.take (cwd.length - (st.length - k)) ++ m.drop k = m.take k ++ m.drop k := by
      rw [List.take_append_drop]; exact h
    exact List.append_cancel_right h'
  · intro h
    rw [h, List.take_append_drop]

/-- For a database given from here, at most one directory down, the run is recorded with the
path from the database to its directory, if there is one. -/
theorem addToDb_partial (isdir : Loc → Bool) (cwd l m : Loc) (hl : l.length ≤ 1) :
    (isdir m = true → ∃ r, addToDb isdir cwd (.here l) m = .ok r ∧ resolve (cwd ++ l) r = m) ∧
      (isdir m = false → addToDb isdir cwd (.here l) m = .error .value) := by
  have hd : (TDir.here l).dirname.loc cwd = cwd := by
    match l, hl with
    | [], _ => simp [TDir.dirname, TDir.loc]
    | [x], _ => simp [TDir.dirname, TDir.loc]
  have hk : looked cwd (.here l) m = m := by
    unfold looked
    rw [hd, resolve_rel]
  unfold addToDb
  rw [hk]
  constructor
  · intro h
    rw [if_pos h]
    exact ⟨_, rfl, resolve_rel _ _⟩
  · intro h
    rw [if_neg (by simp [h])]

/-- With the database in the current directory given from the root, as the default of show_maf is,
the directory that is looked at is never the one that is given. -/
theorem looked_default (cwd m : Loc) (h : cwd ≠ []) : looked cwd (.abs cwd) m ≠ m := by
  intro e
  unfold looked at e
  rw [resolve_iff] at e
  obtain ⟨_, _, h3, _⟩ := common_spec m cwd.dropLast
  have hl : (TDir.abs cwd).dirname.loc cwd = cwd.dropLast := rfl
  rw [hl] at e
  have := congrArg List.length e
  have hpos : 0 < cwd.length := List.length_pos_iff.mpr h
  simp only [List.length_take, List.length_dropLast] at this h3
  omega

/-- So the directory is not added: there is an exception, or another directory is recorded. -/
theorem show_default (isdir : Loc → Bool) (cwd m : Loc) (h : cwd ≠ []) :
    addToDb isdir cwd (.abs cwd) m = .error .value ∨ ∃ r, addToDb isdir cwd (.abs cwd) m = .ok r ∧ resolve cwd r ≠ m := by
  unfold addToDb
  split
  · right
    refine ⟨_, rfl, ?_⟩
    show resolve cwd (rel _ cwd) ≠ m
    rw [resolve_rel]
    exact looked_default cwd m h
  · exact Or.inl rfl

/-- Not every directory can be added. -/
theorem addToDb_false : ¬ ∀ (isdir : Loc → Bool) (cwd m : Loc) (d : TDir), isdir m = true → ∃ r, addToDb isdir cwd d m = .ok r := by
  intro h
  obtain ⟨r, hr⟩ := h (fun l => l == [s "a", s "run_sci"]) [s "a"] [s "a", s "run_sci"] (.abs [s "a"]) (by decide)
  revert hr
  have : addToDb (fun l => l == [s "a", s "run_sci"]) [s "a"] (.abs [s "a"]) [s "a", s "run_sci"] = .error .value := by decide +kernel
  rw [this]
  intro hr
  cases hr

/-- In the directory of the database the pages show the directory that has been recorded. -/
theorem opened_partial (cwd m : Loc) : opened cwd (rel m cwd) = m := resolve_rel m cwd

/-- Elsewhere they do not: if the run is below the database, only in its directory. -/
theorem opened_iff (cwd d m : Loc) (h : d <+: m) : opened cwd (rel m d) = m ↔ cwd = d := by
  unfold opened
  rw [resolve_iff]
  have hc : common m d = d.length := by
    obtain ⟨t, rfl⟩ := h
    induction d with
    | nil => cases t <;> rfl
    | cons x xs ih =>
      rw [List.cons_append, common, if_pos rfl, ih]; rfl
  rw [hc]
  simp

theorem opened_false : ¬ ∀ cwd d m : Loc, opened cwd (rel m d) = m := by
  intro h
  have := (opened_iff [s "x"] [s "a"] [s "a", s "run"] ⟨[s "run"], rfl⟩).mp (h _ _ _)
  exact absurd this (by decide)

example : addToDb (fun _ => true) [s "home", s "me"] (.here []) [s "home", s "me", s "run_sci"] = .ok ⟨0, [s "run_sci"]⟩ := by decide +kernel

example : addToDb (fun l => l.length ≤ 3) [s "home", s "me"] (.abs [s "home", s "me"]) [s "home", s "me", s "run_sci"] = .error .value := by
  decide +kernel

/-- What is given counts, then the first row. -/
theorem versionOf_spec {V : Type} (g : Option V) (rows : List V) : versionOf g rows = g.or rows.head? := by
  unfold versionOf
  have : ∀ (rows : List V) (v : V), rows.foldl (fun a v => a.orElse (fun _ => some v)) (some v) = some v := by
    intro rows
    induction rows with
    | nil => intro v; rfl
    | cons x xs ih => intro v; rw [List.foldl_cons]; exact ih v
  cases g with
  | some v => rw [this]; rfl
  | none =>
    cases rows with
    | nil => rfl
    | cons x xs => rw [List.foldl_cons]; exact this xs x

/-! ## Pages -/

/-- The page that is opened first is that of the oldest run. -/
theorem startRun_spec {I : Type} (runs : List (Db.RunRow I)) (i : Nat) (h : startRun runs = some i) :
    (∃ r ∈ runs, r.id = i) ∧ ∀ r ∈ runs, i ≤ r.id := by
  unfold startRun at h
  rw [List.min?_eq_some_iff] at h
  obtain ⟨h1, h2⟩ := h
  constructor
  · simpa using h1
  · intro r hr
    exact h2 _ (List.mem_map.mpr ⟨r, hr, rfl⟩)

/-- A directory that is added is opened at once: never if it is new and the database not empty. -/
theorem startRun_new {I : Type} (runs : List (Db.RunRow I)) (dir : String) (info : I) (hne : runs ≠ []) (hnew : ∀ r ∈ runs, r.dir ≠ dir) :
    ∃ after i, Db.addRun runs dir info none = .ok (after, i) ∧ startRun after ≠ some i := by
  have hf : runs.filter (fun r => decide (r.dir = dir)) = [] := by
    rw [List.filter_eq_nil_iff]
    intro r hr
    simpa using hnew r hr
  refine ⟨_, _, by unfold Db.addRun; rw [hf], ?_⟩
  intro h
  obtain ⟨_, h2⟩ := startRun_spec _ _ h
  obtain ⟨r, hr⟩ := List.exists_mem_of_ne_nil _ hne
  have h3 := h2 r (by simp [hr])
  have h4 : r.id < Db.nextId (runs.map Db.RunRow.id) := Db.lt_nextId (List.mem_map.mpr ⟨r, hr, rfl⟩)
  omega

/-- The first one is. -/
theorem startRun_first_partial {I : Type} (dir : String) (info : I) :
    ∃ after i, Db.addRun [] dir info none = .ok (after, i) ∧ startRun after = some i := ⟨_, _, rfl, rfl⟩

/-- The page with the data of a metric never has any. -/
theorem dataPage_never (args : List (String × Int)) (npz : Option Str) : ∃ e, dataPage args npz = .error e := by
  unfold dataPage
  have : trackingNames.contains "getRun" = false := by decide +kernel
  rw [this]
  split
  · exact ⟨_, rfl⟩
  · split
    · exact ⟨_, rfl⟩
    · exact ⟨_, rfl⟩

/-! ## Names of runs -/

private theorem split_none (pat x : Str) (h : ¬ pat <:+: x) : splitGo pat 0 x = [x] := by
  induction x with
  | nil => rfl
  | cons c cs ih =>
    rw [splitGo, if_neg, ih]
    · intro h'
      exact h (h'.trans (List.suffix_cons c cs).isInfix)
    · intro hp
      exact h (List.isPrefixOf_iff_prefix.mp hp).isInfix

private theorem split_skip (pat y x : Str) : splitGo pat y.length (y ++ x) = splitGo pat 0 x := by
  induction y with
  | nil => rfl
  | cons c cs ih => rw [List.length_cons, List.cons_append, splitGo, ih]

private theorem split_at (c : Char) (q x y : Str) (hq : c ∉ q) (hx : ¬ (c :: q) <:+: x) :
    splitGo (c :: q) 0 (x ++ c :: q ++ y) = x :: splitGo (c :: q) 0 y := by
  induction x with
  | nil =>
    simp only [List.nil_append, List.cons_append]
    rw [splitGo, if_pos]
    · rw [List.length_cons, Nat.add_sub_cancel, split_skip]
    · rw [List.isPrefixOf_iff_prefix]
      exact ⟨y, rfl⟩
  | cons d ds ih =>
    have ih' := ih (fun h => hx (h.trans (List.suffix_cons d ds).isInfix))
    simp only [List.cons_append]
    rw [splitGo, if_neg]
    · have : ds ++ c :: q ++ y = ds ++ c :: (q ++ y) := by simp
      rw [this] at ih'
      simp only [List.append_assoc, List.cons_append] at ih' ⊢
      rw [ih']
    · intro hp
      rw [List.isPrefixOf_iff_prefix] at hp
      obtain ⟨t, ht⟩ := hp
      simp only [List.cons_append, List.cons.injEq] at ht
      obtain ⟨rfl, ht⟩ := ht
      -- `q ++ t = ds ++ c :: q ++ y`: the character is not within `q`, so `q` is a prefix of `ds`
      have ht' : q ++ t = ds ++ c :: (q ++ y) := by simpa using ht
      rcases List.append_eq_append_iff.mp ht' with ⟨w, hw1, hw2⟩ | ⟨w, hw1, hw2⟩
      · exact hx ⟨[], w, by simp [hw1]⟩
      · cases w with
        | nil =>
          simp only [List.append_nil] at hw1
          exact hx ⟨[], [], by simp [hw1]⟩
        | cons e es =>
          simp only [List.cons_append, List.cons.injEq] at hw2
          apply hq
          rw [hw1, ← hw2.1]
          simp

private theorem split_last (c : Char) (q y : Str) (hq : c ∉ q) : ∀ (n : Nat) (x : Str), x.length ≤ n → ¬ (c :: q) <:+: y →
    (splitGo (c :: q) 0 (x ++ c :: q ++ y)).getLast? = some y := by
  intro n
  induction n with
  | zero =>
    intro x hx hy
    have : x = [] := List.eq_nil_of_length_eq_zero (by omega)
    subst this
    rw [split_at c q [] y hq (by simp), split_none _ y hy]
    rfl
  | succ n ih =>
    intro x hx hy
    by_cases h : (c :: q) <:+: x
    · -- take the first occurrence
      have hfirst : ∃ a b, x = a ++ c :: q ++ b ∧ ¬ (c :: q) <:+: a := by
        clear ih hx hy
        induction x with
        | nil => simp at h
        | cons d ds ihx =>
          by_cases hp : (c :: q) <+: (d :: ds)
          · obtain ⟨t, ht⟩ := hp
            exact ⟨[], t, by simpa using ht.symm, by simp⟩
          · have h' : (c :: q) <:+: ds := by
              rcases List.infix_cons_iff.mp h with h | h
              · exact absurd h hp
              · exact h
            obtain ⟨a, b, rfl, hab⟩ := ihx h'
            refine ⟨d :: a, b, by simp, ?_⟩
            intro hi
            rcases List.infix_cons_iff.mp hi with hi | hi
            · apply hp
              obtain ⟨t, ht⟩ := hi
              refine ⟨t ++ (c :: q ++ b), ?_⟩
              rw [← List.append_assoc, ht]
              simp
            · exact hab hi
      obtain ⟨a, b, rfl, hab⟩ := hfirst
      have e : a ++ c :: q ++ b ++ c :: q ++ y = a ++ c :: q ++ (b ++ c :: q ++ y) := by simp
      rw [e, split_at c q a _ hq hab]
      have hb := ih b (by simp at hx; omega) hy
      rw [List.getLast?_cons, hb]
      rfl
    · rw [split_at c q x y hq h, split_none _ y hy]
      rfl

private theorem remove_end (x : Str) (hd : ¬ s ".db" <:+: x) : remove (s ".db") (x ++ s ".db") = x := by
  unfold remove
  induction x with
  | nil => decide
  | cons c cs ih =>
    rw [List.cons_append, removeGo, if_neg, ih]
    · intro h
      exact hd (h.trans (List.suffix_cons c cs).isInfix)
    · intro hp
      rw [List.isPrefixOf_iff_prefix] at hp
      obtain ⟨t, ht⟩ := hp
      have e : s ".db" = ['.', 'd', 'b'] := rfl
      rw [e] at ht hd
      match cs, ht with
      | [], ht => simp at ht
      | [x], ht => simp at ht
      | x :: y :: cs, ht =>
        simp only [List.cons_append, List.cons.injEq, List.nil_append] at ht
        obtain ⟨rfl, rfl, rfl, _⟩ := ht
        exact hd ⟨[], cs, rfl⟩

/-- For names as they are given to the runs, version and comment are found. -/
theorem runComment_spec (a v rest : Str) (ha : ¬ s "_v" <:+: a) (hv : ¬ s "_v" <:+: v)
    (hy : ¬ s "_10yrs" <:+: a ++ s "_v" ++ v) (hd : ¬ s ".db" <:+: a ++ s "_v" ++ v ++ s "_10yrs" ++ rest) :
    runComment (a ++ s "_v" ++ v ++ s "_10yrs" ++ rest ++ s ".db") = v ++ s " " ++ a.map (fun c => if c = '_' then ' ' else c) := by
  have hrm : remove (s ".db") (a ++ s "_v" ++ v ++ s "_10yrs" ++ rest ++ s ".db") = a ++ s "_v" ++ v ++ s "_10yrs" ++ rest :=
    remove_end _ hd
  unfold runComment
  rw [hrm]
  congr 1
  · congr 1
    unfold runVersion pySplit
    have h1 : splitGo (s "_10yrs") 0 (a ++ s "_v" ++ v ++ s "_10yrs" ++ rest) = (a ++ s "_v" ++ v) :: splitGo (s "_10yrs") 0 rest :=
      split_at '_' ['1', '0', 'y', 'r', 's'] (a ++ s "_v" ++ v) rest (by decide) hy
    rw [h1, List.headD_cons]
    have h2 : (splitGo (s "_v") 0 (a ++ s "_v" ++ v)).getLast? = some v := split_last '_' ['v'] v (by decide) _ a le_rfl hv
    rw [h2]
    rfl
  · congr 1
    unfold pySplit
    have : splitGo (s "_v") 0 (a ++ s "_v" ++ (v ++ s "_10yrs" ++ rest ++ s ".db")) = a :: splitGo (s "_v") 0 (v ++ s "_10yrs" ++ rest ++ s ".db") :=
      split_at '_' ['v'] a _ (by decide) ha
    have e : a ++ s "_v" ++ v ++ s "_10yrs" ++ rest ++ s ".db" = a ++ s "_v" ++ (v ++ s "_10yrs" ++ rest ++ s ".db") := by simp
    rw [e, this, List.headD_cons]

example : runComment (s "draft_connected_v2.99_10yrs.db") = s "2.99 draft connected" := by decide +kernel

private theorem split_ne (pat : Str) (k : Nat) (x : Str) : splitGo pat k x ≠ [] := by
  induction x generalizing k with
  | nil => cases k <;> simp [splitGo]
  | cons c cs ih =>
    cases k with
    | succ k => rw [splitGo]; exact ih k
    | zero =>
      rw [splitGo]
      split
      · simp
      · split <;> simp

private theorem split_slash (b : Str) : ∀ x : Str, splitGo ['/'] 0 (x ++ '/' :: b) = splitGo ['/'] 0 x ++ splitGo ['/'] 0 b := by
  intro x
  induction x with
  | nil => simp [splitGo, List.isPrefixOf]
  | cons c cs ih =>
    rw [List.cons_append, splitGo, splitGo, ih]
    by_cases h : c = '/'
    · subst h
      simp [List.isPrefixOf, ih]
    · have hn : ∀ l : Str, ¬ ['/'].isPrefixOf (c :: l) = true := by
        intro l; simp [List.isPrefixOf, Ne.symm h]
      rw [if_neg (hn _), if_neg (hn _)]
      cases hw : splitGo ['/'] 0 cs with
      | nil => exact absurd hw (split_ne _ _ _)
      | cons w ws => rfl

/-- The group is the name of the directory of the file; a file of which no directory is given is
an exception. -/
theorem runGroup_spec (p g f : Str) (hg : '/' ∉ g) (hf : '/' ∉ f) :
    runGroup (p ++ '/' :: g ++ '/' :: f) = .ok g ∧ runGroup (g ++ '/' :: f) = .ok g ∧ runGroup f = .error .index := by
  have one : ∀ x : Str, '/' ∉ x → splitGo ['/'] 0 x = [x] := by
    intro x hx
    apply split_none
    intro h
    exact hx (h.subset (by simp))
  have e : s "/" = ['/'] := rfl
  refine ⟨?_, ?_, ?_⟩ <;> unfold runGroup pySplit <;> rw [e]
  · rw [split_slash f, split_slash g, one g hg, one f hf]
    simp
  · rw [split_slash f, one g hg, one f hf]
    rfl
  · rw [one f hf]
    rfl

/-! ## Versions in the tracking database -/

/-- The version for a directory is that of its last row, if all results have one. -/
theorem versions_partial {V : Type} (st : Option V) (ds : List (Option (List V))) (h : ∀ rows, some rows ∈ ds → rows ≠ []) :
    versions st ds = .ok (ds.map (fun d => d.bind List.getLast?)) := by
  induction ds generalizing st with
  | nil => rfl
  | cons d ds ih =>
    cases d with
    | none =>
      rw [versions, ih _ (fun r hr => h r (by simp [hr]))]
      rfl
    | some rows =>
      have hne := h rows (by simp)
      rw [versions, List.getLast?_eq_some_getLast hne]
      simp only [Option.some_or]
      rw [ih _ (fun r hr => h r (by simp [hr]))]
      simp [List.getLast?_eq_some_getLast hne]

/-- Otherwise the version of results without rows is that of the directory before. -/
theorem versions_stale {V : Type} (v : V) (ds : List (Option (List V))) : versions (some v) (some [] :: ds) =
    (versions (some v) ds).map (fun vs => some v :: vs) := by
  rw [versions]
  simp only [List.getLast?_nil, Option.none_or]
  cases versions (some v) ds <;> rfl

theorem versions_false : ¬ ∀ (ds : List (Option (List Nat))) vs, versions none ds = .ok vs → ∀ (i : ℕ) (v : Nat), vs[i]? = some (some v) →
    ∃ rows, ds[i]? = some (some rows) ∧ v ∈ rows := by
  intro h
  obtain ⟨rows, h1, h2⟩ := h [some [7], some []] [some 7, some 7] rfl 1 7 rfl
  simp at h1
  subst h1
  simp at h2

/-- There is an exception if and only if the first results have no rows. -/
theorem versions_ok_iff {V : Type} (st : Option V) (ds : List (Option (List V))) :
    versions st ds = .error .unbound ↔ st = none ∧ ∃ a b, ds = a ++ some [] :: b ∧ ∀ d ∈ a, d = none := by
  induction ds generalizing st with
  | nil => simp [versions]
  | cons d ds ih =>
    cases d with
    | none =>
      rw [versions]
      have : (match versions st ds with | .error e => (Except.error e : Except PyErr (List (Option V))) | .ok vs => .ok (none :: vs)) = .error .unbound ↔
          versions st ds = .error .unbound := by
        cases versions st ds <;> simp
      refine Iff.trans (Iff.trans ?_ this) (Iff.trans (ih st) ?_)
      · cases versions st ds <;> simp
      constructor
      · rintro ⟨h, a, b, rfl, ha⟩
        exact ⟨h, none :: a, b, rfl, by simpa using ha⟩
      · rintro ⟨h, a, b, hab, ha⟩
        cases a with
        | nil => simp at hab
        | cons x xs =>
          simp only [List.cons_append, List.cons.injEq] at hab
          exact ⟨h, xs, b, hab.2, fun d hd => ha d (by simp [hd])⟩
    | some rows =>
      rw [versions]
      cases hr : rows.getLast? with
      | some v =>
        simp only [Option.some_or]
        have hno : versions (some v) ds ≠ .error .unbound := by
          rw [Ne, ih]
          simp
        constructor
        · intro h
          exfalso
          cases hv : versions (some v) ds with
          | error e => rw [hv] at h hno; simp at h; exact hno (by rw [h])
          | ok vs => rw [hv] at h; simp at h
        · rintro ⟨_, a, b, hab, ha⟩
          exfalso
          cases a with
          | nil => simp at hab; rw [hab.1] at hr; simp at hr
          | cons x xs =>
            simp only [List.cons_append, List.cons.injEq] at hab
            have := ha x (by simp)
            rw [this] at hab
            simp at hab
      | none =>
        have : rows = [] := by simpa using hr
        subst this
        simp only [Option.none_or]
        cases st with
        | none =>
          constructor
          · intro _
            exact ⟨rfl, [], ds, rfl, by simp⟩
          · intro _; rfl
        | some v =>
          have hno : versions (some v) ds ≠ .error .unbound := by
            rw [Ne, ih]
            simp
          simp only [reduceCtorEq, false_and, iff_false]
          intro h
          cases hv : versions (some v) ds with
          | error e => rw [hv] at h hno; simp at h; exact hno (by rw [h])
          | ok vs => rw [hv] at h; simp at h

example : versions none [none, some [1, 2], none, some [5]] = .ok [none, some 2, none, some 5] := by decide +kernel

/-! ## Batches for directories -/

/-- Which files of a directory are used. -/
theorem dbFiles_iff (files : List Str) (f : Str) :
    f ∈ dbFiles none files ↔ f ∈ files ∧ s ".db" <:+ f ∧ f.head? ≠ some '.' ∧ ¬ s "trackingDb" <:+: f := by
  simp only [dbFiles, globDb, List.mem_filter, Bool.and_eq_true, List.isSuffixOf_iff_suffix, bne_iff_ne, decide_eq_true_eq]
  tauto

/-- For the metadata all but two names, if no name is there twice. -/
theorem metaFiles_iff (files : List Str) (hn : files.Nodup) (f : Str) :
    f ∈ metaFiles none files ↔ f ∈ files ∧ s ".db" <:+ f ∧ f.head? ≠ some '.' ∧ f ≠ s "trackingDb_sqlite.db" ∧ f ≠ s "resultsDb_sqlite.db" := by
  have h1 : (globDb files).Nodup := hn.filter _
  simp only [metaFiles]
  rw [(h1.erase _).mem_erase_iff, h1.mem_erase_iff]
  simp only [globDb, List.mem_filter, Bool.and_eq_true, List.isSuffixOf_iff_suffix, bne_iff_ne]
  tauto

/-- A file of this directory whose name has the ending just once: spec. -/
def Simple (f : Str) : Prop := ∃ x, f = x ++ s ".db" ∧ ¬ s ".db" <:+: x ∧ '/' ∉ x

private theorem base_simple (f : Str) (h : '/' ∉ f) : baseName f = f := by
  unfold baseName
  have e : f.reverse.takeWhile (fun x => decide (x ≠ '/')) = f.reverse := by
    have := List.takeWhile_append_of_pos (p := fun x => decide (x ≠ '/')) (l₁ := f.reverse) (l₂ := []) ?_
    · simpa using this
    · intro c hc
      have : c ∈ f := by simpa using hc
      simp only [ne_eq, decide_not, Bool.not_eq_true', decide_eq_false_iff_not]
      rintro rfl
      exact h this
  rw [e, List.reverse_reverse]

private theorem runName_simple (x : Str) (h1 : ¬ s ".db" <:+: x) (h2 : '/' ∉ x) : runName (x ++ s ".db") = x := by
  unfold runName
  rw [base_simple, remove_end x h1]
  rw [List.mem_append, not_or]
  exact ⟨h2, by decide⟩

/-- The file that is recorded is the file of the run. -/
theorem job_file_partial (suffix f : Str) (h : Simple f) : (job suffix f).2 = f := by
  obtain ⟨x, rfl, h1, h2⟩ := h
  simp only [job]
  rw [runName_simple x h1 h2]

/-- Not if the file is given with its directory. -/
theorem job_file_false : ¬ ∀ suffix f : Str, s ".db" <:+ f → (job suffix f).2 = f := by
  intro h
  exact absurd (h [] (s "sims/a.db") ⟨s "sims/a", by decide⟩) (by decide +kernel)

/-- Different files have different directories. -/
theorem job_dir_partial (suffix f g : Str) (hf : Simple f) (hg : Simple g) (h : (job suffix f).1 = (job suffix g).1) : f = g := by
  obtain ⟨x, rfl, h1, h2⟩ := hf
  obtain ⟨y, rfl, h3, h4⟩ := hg
  simp only [job] at h
  rw [runName_simple x h1 h2, runName_simple y h3 h4] at h
  rw [List.append_cancel_right h]

private theorem afterAll_gen {R : Type} (suffix : Str) (res : Str → R) (files : List Str) (fs : List (Str × R)) (k : Str) :
    ((files.foldl (fun fs f => fs.filter (fun p => p.1 ≠ (job suffix f).1) ++ [((job suffix f).1, res f)]) fs).filter (fun p => p.1 = k)) =
      match (files.filter (fun f => (job suffix f).1 = k)).getLast? with
      | some f => [(k, res f)]
      | none => fs.filter (fun p => p.1 = k) := by
  induction files generalizing fs with
  | nil => rfl
  | cons f files ih =>
    rw [List.foldl_cons, ih]
    by_cases h : (job suffix f).1 = k
    · rw [List.filter_cons, if_pos (by simpa using h), List.getLast?_cons]
      cases hl : (files.filter (fun f => (job suffix f).1 = k)).getLast? with
      | some g => rfl
      | none =>
        simp only [Option.getD_none, List.filter_append]
        rw [List.filter_filter]
        have : (fs.filter (fun a => decide (a.1 = k) && decide (a.1 ≠ (job suffix f).1))) = [] := by
          rw [List.filter_eq_nil_iff]
          intro a _
          simp only [Bool.and_eq_true, decide_eq_true_eq, not_and, not_not]
          intro ha; rw [ha, h]
        rw [this]
        simp [h]
    · rw [List.filter_cons, if_neg (by simpa using h)]
      cases hl : (files.filter (fun f => (job suffix f).1 = k)).getLast? with
      | some g => rfl
      | none =>
        simp only [List.filter_append]
        rw [List.filter_filter]
        simp only [h, decide_false, List.filter_cons, List.filter_nil, Bool.false_eq_true, if_false, List.append_nil]
        congr 1
        funext a
        by_cases ha : a.1 = k
        · simp [ha, Ne.symm h]
        · simp [ha]

/-- After all batches every directory has the results of the last file with its name and nothing else. -/
theorem afterAll_spec {R : Type} (suffix : Str) (res : Str → R) (files : List Str) (k : Str) :
    (afterAll suffix res files).filter (fun p => p.1 = k) = ((files.filter (fun f => (job suffix f).1 = k)).getLast?).toList.map (fun f => (k, res f)) := by
  unfold afterAll
  rw [afterAll_gen]
  cases (files.filter (fun f => (job suffix f).1 = k)).getLast? <;> rfl

/-- So the results of all files are there if the names are simple. -/
theorem afterAll_partial {R : Type} (suffix : Str) (res : Str → R) (files : List Str) (h : ∀ f ∈ files, Simple f) (f : Str) (hf : f ∈ files) :
    ((job suffix f).1, res f) ∈ afterAll suffix res files := by
  have h1 := afterAll_spec suffix res files (job suffix f).1
  have h2 : ∃ g, (files.filter (fun g => (job suffix g).1 = (job suffix f).1)).getLast? = some g := by
    have hne : files.filter (fun g => (job suffix g).1 = (job suffix f).1) ≠ [] := List.ne_nil_of_mem (List.mem_filter.mpr ⟨hf, by simp⟩)
    exact ⟨_, List.getLast?_eq_some_getLast hne⟩
  obtain ⟨g, hg⟩ := h2
  have hm := List.mem_filter.mp (List.mem_of_getLast? hg)
  have : g = f := job_dir_partial suffix g f (h g hm.1) (h f hf) (by simpa using hm.2)
  subst this
  rw [hg] at h1
  have : ((job suffix g).1, res g) ∈ (afterAll suffix res files).filter (fun p => p.1 = (job suffix g).1) := by rw [h1]; simp
  exact (List.mem_filter.mp this).1

/-- Otherwise one file removes the results of another. -/
theorem afterAll_false : ¬ ∀ (suffix : Str) (files : List Str), files.Nodup → ∀ f ∈ dbFiles none files,
    ((job suffix f).1, f) ∈ afterAll suffix id (dbFiles none files) := by
  intro h
  have := h (s "_sci") [s "a.db", s "a.db.db"] (by decide) (s "a.db") (by decide +kernel)
  exact absurd this (by decide +kernel)

example : afterAll (s "_sci") id (dbFiles none [s "a.db", s "trackingDb_sqlite.db", s "b.db", s "x.txt"]) =
    [(s "a_sci", s "a.db"), (s "b_sci", s "b.db")] := by decide +kernel

/-! ## Data -/

/-- All that is needed for the tests is known, with files named by the data, and is part of all data. -/
theorem testing_spec : ∃ l, testing = .ok l ∧ l.map Prod.fst = ["maf", "maps", "movingObjects", "sim_baseline", "skybrightness", "throughputs", "tests"] ∧
    (∀ p ∈ l, p ∈ dataDict) ∧ (dataDict.map Prod.fst).Nodup ∧
    ∀ p ∈ dataDict, (p.1.toList ++ ['_']).isPrefixOf p.2.toList = true ∧ (s ".tgz").isSuffixOf p.2.toList = true := by
  refine ⟨_, rfl, ?_⟩
  decide +kernel

/-- The baseline is a file of the directory with ten years, if there is one. -/
theorem baseline_spec (dir : Str) (files : List Str) :
    (∀ b, baseline dir files = .ok b → ∃ f ∈ files, b = dir ++ s "/" ++ f ∧ s "10yrs.db" <:+ f) ∧
      (baseline dir files = .error .index ↔ ∀ f ∈ files, s "10yrs.db" <:+ f → f.head? = some '.') := by
  unfold baseline
  constructor
  · intro b hb
    split at hb
    · cases hb
    · rename_i f fs hf
      injection hb with hb
      have hm : f ∈ files.filter (fun f => (s "10yrs.db").isSuffixOf f && f.head? != some '.') := by rw [hf]; simp
      rw [List.mem_filter, Bool.and_eq_true, List.isSuffixOf_iff_suffix] at hm
      exact ⟨f, hm.1, hb.symm, hm.2.1⟩
  · constructor
    · intro h
      split at h
      · rename_i hf
        rw [List.filter_eq_nil_iff] at hf
        intro f hfm hs
        have := hf f hfm
        simp only [Bool.and_eq_true, List.isSuffixOf_iff_suffix, bne_iff_ne, not_and, not_not] at this
        exact this hs
      · cases h
    · intro h
      have : files.filter (fun f => (s "10yrs.db").isSuffixOf f && f.head? != some '.') = [] := by
        rw [List.filter_eq_nil_iff]
        intro f hfm
        simp only [Bool.and_eq_true, List.isSuffixOf_iff_suffix, bne_iff_ne, not_and, not_not]
        exact h f hfm
      rw [this]

example : baseline (s "d") [s "x.txt", s "baseline_v5.0_10yrs.db"] = .ok (s "d/baseline_v5.0_10yrs.db") := by decide +kernel

end Verif.Tools
