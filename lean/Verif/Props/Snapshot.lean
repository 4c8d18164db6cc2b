import Mathlib.Tactic.Linarith
import Mathlib.Tactic.NormNum
import Mathlib.Tactic.Ring
import Mathlib.Data.List.Nodup
import Verif.Model.Snapshot
import Verif.Props.BaseMetric

/-!
# Properties of snapshots, prenight simulations and conversions of files (C432–C441)
-/

namespace Verif.Snapshot

open Verif.BaseM (put lookup_put)

/-! ## C432, C433: overheads -/

section overhead

variable {K : Type*} [Field K] [LinearOrder K] [IsStrictOrderedRing K]

/-- C432: with slew, visit and exposure time the overhead that is applied is at least the minimum, whatever was drawn and whatever the parameters. -/
theorem overhead_min (p : Overhead K) (st : Option K) (o : Obs K) (draw scatter s v e off : K) (warn : Bool)
    (hs : o.slewtime = some s) (hv : o.visittime = some v) (he : o.exptime = some e)
    (h : overheadCall p st (some o) draw scatter = .ok (off, warn)) : p.minOverhead ≤ s + v - e + off ∧ warn = false := by
  unfold overheadCall at h
  split at h
  · cases h
  · rename_i x hx
    simp only [modelOverhead, hs, hv, he, Except.ok.injEq, Prod.mk.injEq] at h
    obtain ⟨h1, h2⟩ := h
    refine ⟨?_, h2.symm⟩
    subst h1
    split
    · linarith
    · rename_i hlt
      exact not_lt.mp hlt

/-- C432: the offset is what was drawn, or what makes the overhead the minimum, whichever is more. -/
theorem overhead_value (p : Overhead K) (hp : ¬ (0 < p.slewScale ∨ 0 < p.slewLoc)) (st : Option K) (o : Obs K) (draw scatter s v e : K)
    (hs : o.slewtime = some s) (hv : o.visittime = some v) (he : o.exptime = some e) :
    overheadCall p st (some o) draw scatter = .ok (max scatter (p.minOverhead - (s + v - e)), false) := by
  simp only [overheadCall, slewPart, if_neg hp, modelOverhead, hs, hv, he, zero_add]
  congr 2
  split
  · rw [max_eq_right]; linarith
  · rw [max_eq_left]; linarith

omit [IsStrictOrderedRing K] in
/-- C432: there is the warning exactly if one of the three is not known, and then the offset is what was drawn. -/
theorem overhead_warn (p : Overhead K) (st : Option K) (o : Option (Obs K)) (draw scatter off : K) (warn : Bool)
    (h : overheadCall p st o draw scatter = .ok (off, warn)) :
    warn = true ↔ ∀ ob, o = some ob → ob.slewtime = none ∨ ob.visittime = none ∨ ob.exptime = none := by
  unfold overheadCall at h
  split at h
  · cases h
  · unfold modelOverhead at h
    cases o with
    | none =>
      simp only [Except.ok.injEq, Prod.mk.injEq] at h
      simp [h.2.symm]
    | some ob =>
      obtain ⟨m, a, b, c⟩ := ob
      cases a <;> cases b <;> cases c <;> simp_all

/-- C432: without them there is no minimum: an overhead below any bound is returned. -/
theorem overhead_unchecked (p : Overhead K) (hp : ¬ (0 < p.slewScale ∨ 0 < p.slewLoc)) (s bound : K) (draw : K) :
    ∃ scatter off, overheadCall p none (some ⟨true, some s, none, none⟩) draw scatter = .ok (off, true) ∧ off < bound := by
  refine ⟨bound - 1, bound - 1, ?_, by linarith⟩
  simp [overheadCall, slewPart, if_neg hp, modelOverhead]

example : overheadCall (K := ℚ) ⟨0, 0, 7⟩ none (some ⟨true, some 2, some 35, some 30⟩) 0 (-100) = .ok (0, false) := by decide +kernel
example : overheadCall (K := ℚ) ⟨1/10, 0, 7⟩ none (some ⟨true, some 20, some 36, some 30⟩) (1/5) 1 = .ok (5, false) := by decide +kernel

/-- C433: with a scale or a positive location, the part of the slew is the time of the slew times the number drawn, and no less than minus the time of the slew. -/
theorem slew_value (p : Overhead K) (hp : 0 < p.slewScale ∨ 0 < p.slewLoc) (o : Obs K) (draw s : K) (hm : o.mapping = true) (hs : o.slewtime = some s) :
    slewPart p none (some o) draw = .ok (max (s * draw) (-s)) := by
  simp only [slewPart, if_pos hp, slewTimeOf, hm, hs, Bool.not_true, Bool.false_eq_true, if_false]
  congr 1
  split
  · rw [max_eq_right (by linarith)]; ring
  · rw [max_eq_left (by linarith)]

/-- C433: a slew never takes negative time. -/
theorem slew_nonneg (p : Overhead K) (o : Obs K) (draw s x : K) (hs : o.slewtime = some s) (h0 : 0 ≤ s) (h : slewPart p none (some o) draw = .ok x) : 0 ≤ s + x := by
  unfold slewPart at h
  split at h
  · unfold slewTimeOf at h
    cases hm : o.mapping
    · simp [hm] at h
    · simp only [hm, hs, Bool.not_true, Bool.false_eq_true, if_false, Except.ok.injEq] at h
      rw [← h]
      split
      · linarith
      · rename_i hlt; linarith
  · cases h; linarith

omit [IsStrictOrderedRing K] in
/-- C433: a negative location without a scale does nothing, whatever the slew. -/
theorem slewLoc_negative (p : Overhead K) (h1 : p.slewScale = 0) (h2 : p.slewLoc < 0) (st : Option K) (o : Option (Obs K)) (draw : K) : slewPart p st o draw = .ok 0 := by
  have : ¬ (0 < p.slewScale ∨ 0 < p.slewLoc) := by rw [h1]; simp [h2.le]
  simp [slewPart, this]

/-- C433: so a location other than zero does not always move the offsets; with scale zero every number drawn is the location. -/
theorem slewLoc_false : ¬ ∀ (p : Overhead K) (o : Obs K) (s : K), p.slewScale = 0 → p.slewLoc ≠ 0 → -1 < p.slewLoc → o.mapping = true → o.slewtime = some s → 0 < s →
    slewPart p none (some o) p.slewLoc = .ok (s * p.slewLoc) := by
  intro h
  have hh : (-(1/2) : K) < 0 := by norm_num
  have := h ⟨0, -(1/2), 0⟩ ⟨true, some 1, none, none⟩ 1 rfl hh.ne (by norm_num) rfl rfl one_pos
  rw [slewLoc_negative _ rfl hh] at this
  simp at this

omit [IsStrictOrderedRing K] in
/-- C433: an observation that is no mapping cannot be used for the slew. -/
theorem slew_array (p : Overhead K) (hp : 0 < p.slewScale ∨ 0 < p.slewLoc) (o : Obs K) (hm : o.mapping = false) (draw scatter : K) :
    overheadCall p none (some o) draw scatter = .error .assertion := by
  simp [overheadCall, slewPart, if_pos hp, slewTimeOf, hm]

example : slewPart (K := ℚ) ⟨1, 0, 0⟩ none (some ⟨true, some 10, none, none⟩) (-3) = .ok (-10) := by decide +kernel
example : slewPart (K := ℚ) ⟨0, -1/2, 0⟩ none (some ⟨true, some 10, none, none⟩) (-1/2) = .ok 0 := by decide +kernel

end overhead

/-! ## C434: prenight simulations from the command line -/

/-- C434: with a directory for the results they are in it, and the program ends normally. -/
theorem cli_results (d : Disk) (fresh : String) (files : List String) (results : String) (h : results ≠ "") :
    (prenightCli d fresh files results).1 = .ok 0 ∧ (prenightCli d fresh files results).2.dirs.lookup results = some files ∧
      ∀ other, other ≠ results → (prenightCli d fresh files results).2.dirs.lookup other = d.dirs.lookup other := by
  have hl : 0 < results.length := by
    rw [Nat.pos_iff_ne_zero]; intro h0; exact h (by simpa using h0)
  refine ⟨by simp [prenightCli, hl, makeDir], by simp [prenightCli, hl, makeDir, lookup_put], fun other ho => ?_⟩
  simp [prenightCli, hl, makeDir, lookup_put, ho]

private theorem put_fresh {V : Type} (l : List (String × V)) (k : String) (v : V) (h : ∀ e ∈ l, e.1 ≠ k) : (put l k v).filter (fun e => decide (e.1 ≠ k)) = l := by
  induction l with
  | nil => simp [put]
  | cons a l ih =>
    obtain ⟨k', v'⟩ := a
    have hk : k' ≠ k := h (k', v') (by simp)
    simp only [put, if_neg hk.symm]
    rw [List.filter_cons_of_pos (by simpa using hk), ih (fun e he => h e (List.mem_cons_of_mem _ he))]

/-- C434: without one, which is the default, the simulation is run, the program ends with an exception, and nothing of the results is kept. -/
theorem cli_default (d : Disk) (fresh : String) (files : List String) (hf : ∀ e ∈ d.dirs, e.1 ≠ fresh) :
    (prenightCli d fresh files "").1 = .error .assertion ∧ (prenightCli d fresh files "").2.dirs = d.dirs := by
  refine ⟨by simp [prenightCli, makeDir], ?_⟩
  have e : (prenightCli d fresh files "").2.dirs = (put d.dirs fresh files).filter (fun e => decide (e.1 ≠ fresh)) := by simp [prenightCli, makeDir, Disk.drop]
  rw [e, put_fresh _ _ _ hf]

/-- C434: so it is not so that every run keeps its results. -/
theorem cli_false : ¬ ∀ (d : Disk) (fresh : String) (files : List String) (results : String), (∀ e ∈ d.dirs, e.1 ≠ fresh) →
    (prenightCli d fresh files results).1 = .ok 0 ∧ ∃ e ∈ (prenightCli d fresh files results).2.dirs, e.2 = files := by
  intro h
  have := (h ⟨[], []⟩ "tmp1" ["opsim.db"] "" (by simp)).1
  rw [(cli_default ⟨[], []⟩ "tmp1" ["opsim.db"] (by simp)).1] at this
  cases this

/-- C434: there are anomalous overheads exactly if one of the two scales is given, and each is passed on if it is not zero. -/
theorem anom_iff {K : Type*} [Zero K] [DecidableEq K] (scale scatter : K) :
    (anomArgs scale scatter = none ↔ scale = 0 ∧ scatter = 0) ∧
      ∀ a b, anomArgs scale scatter = some (a, b) → (a.getD 0 = scale ∧ b.getD 0 = scatter) ∧ (a = none ↔ scale = 0) ∧ (b = none ↔ scatter = 0) := by
  unfold anomArgs
  by_cases h1 : scale = 0 <;> by_cases h2 : scatter = 0 <;> simp [h1, h2]

example : (prenightCli ⟨[("a", [])], []⟩ "tmp1" ["opsim.db"] "out").2.dirs = [("a", []), ("out", ["opsim.db"])] := by decide +kernel
example : (prenightCli ⟨[("a", [])], []⟩ "tmp1" ["opsim.db"] "").2.dirs = [("a", [])] := by decide +kernel
example : anomArgs (0 : ℚ) 2 = some (none, some 2) := by decide +kernel

/-! ## C435: simulations that are archived on the way -/

/-- C435: to record rewards that the scheduler does not keep is a ValueError before anything is run. -/
theorem drive_value {S : Type} (u : Bool) (run : S → S) (d : Disk) (fresh : String) (files : List String) (record : Option Bool) (s : Sched S) :
    (driveSim u run d fresh files record s).1 = .error .value ↔ record = some true ∧ s.keep = false := by
  unfold driveSim makeDir
  by_cases h : record = some true ∧ s.keep = false
  · simp [h.1, h.2]
  · rw [if_neg h]
    simp only [h, iff_false]
    split
    · simp
    · split <;> simp

/-- C435: a scheduler that is archived is the one before the simulation, whatever the simulation does to it. -/
theorem drive_saved {S : Type} (u : Bool) (run : S → S) (d : Disk) (fresh : String) (files : List String) (record : Option Bool) (s x : Sched S)
    (h : (driveSim u run d fresh files record s).2.1 = some x) : x = s := by
  unfold driveSim makeDir at h
  split at h
  · simp at h
  · dsimp only at h
    split at h
    · simp at h
    · split at h <;> simp at h <;> exact h.symm

/-- C435: the caller is never given a directory that is there: with the misspelt keyword there is a TypeError, and if it were accepted the directory
would be gone on return. -/
theorem drive_path {S : Type} (u : Bool) (run : S → S) (d : Disk) (fresh : String) (files : List String) (record : Option Bool) (s : Sched S) (r : Driven S)
    (h : (driveSim u run d fresh files record s).1 = .ok r) : u = true ∧ (driveSim u run d fresh files record s).2.2.dirs.lookup r.path = none := by
  unfold driveSim makeDir at h ⊢
  by_cases h1 : record = some true ∧ s.keep = false
  · simp [h1.1, h1.2] at h
  · rw [if_neg h1] at h ⊢
    dsimp only at h ⊢
    by_cases h2 : (s.keep && !(record.getD s.keep)) = true
    · rw [if_pos h2] at h; cases h
    · rw [if_neg h2] at h ⊢
      cases u with
      | false => simp at h
      | true =>
        simp only [Bool.not_true, Bool.false_eq_true, if_false, Except.ok.injEq] at h ⊢
        subst h
        refine ⟨trivial, ?_⟩
        rw [List.lookup_eq_none_iff]
        intro e he
        simp only [Disk.drop, List.mem_filter, decide_eq_true_eq] at he
        simp only [bne_iff_ne, ne_eq]
        exact fun hh => he.2 hh.symm

/-- C435: so `drive_sim` never returns, and the disk is as it was before. -/
theorem drive_never {S : Type} (run : S → S) (d : Disk) (fresh : String) (files : List String) (record : Option Bool) (s : Sched S) (hf : ∀ e ∈ d.dirs, e.1 ≠ fresh) :
    (∃ e, (driveSim false run d fresh files record s).1 = .error e) ∧ (driveSim false run d fresh files record s).2.2.dirs = d.dirs := by
  unfold driveSim makeDir
  split
  · exact ⟨⟨_, rfl⟩, rfl⟩
  · dsimp only
    split
    · exact ⟨⟨_, rfl⟩, rfl⟩
    · exact ⟨⟨_, rfl⟩, by simpa [Disk.drop] using put_fresh _ _ _ hf⟩

/-- C435: not to record rewards that are kept is an IndexError after the run, so the rewards that are documented as present if either is set are not. -/
theorem drive_index {S : Type} (u : Bool) (run : S → S) (d : Disk) (fresh : String) (files : List String) (s : Sched S) (hk : s.keep = true) :
    (driveSim u run d fresh files (some false) s).1 = .error .index := by
  simp [driveSim, hk]

example : (driveSim false (fun n : Nat => n + 1) ⟨[], []⟩ "tmp1" ["opsim.db"] none ⟨true, 4⟩).1.isOk = false ∧
    (driveSim false (fun n : Nat => n + 1) ⟨[], []⟩ "tmp1" ["opsim.db"] none ⟨true, 4⟩).2.1.map Sched.state = some 4 := by decide +kernel

/-! ## C436: configurations -/

/-- C436: a module with a scheduler gives it with its nside, whether or not there is a function. -/
theorem config_scheduler_partial {S : Type} (s : S) (n : Nat) (f : Option (Nat × S)) : fromConfig ⟨some (s, some n), f⟩ = .ok (n, s) := rfl

/-- C436: a module with the function only is an AttributeError always. -/
theorem config_function {S : Type} (f : Option (Nat × S)) : fromConfig ⟨none, f⟩ = .error .attribute := rfl

/-- C436: so the function is never used: what comes out does not depend on it. -/
theorem config_unused {S : Type} (s : Option (S × Option Nat)) (f g : Option (Nat × S)) : fromConfig ⟨s, f⟩ = fromConfig ⟨s, g⟩ := by
  unfold fromConfig; rfl

/-- C436: a module with one of the two does not always give a scheduler. -/
theorem config_false : ¬ ∀ (c : Config Nat), (∃ s n, c.scheduler = some (s, some n)) ∨ c.function.isSome = true → ∃ r, fromConfig c = .ok r := by
  intro h
  obtain ⟨r, hr⟩ := h ⟨none, some (32, 7)⟩ (Or.inr rfl)
  cases hr

example : fromConfig (S := Nat) ⟨some (7, some 32), none⟩ = .ok (32, 7) := by decide +kernel
example : fromConfig (S := Nat) ⟨none, some (32, 7)⟩ = .error .attribute := by decide +kernel

/-! ## C437: choice of the scheduler -/

/-- The source of a scheduler: what the documentation says is used. -/
inductive Source | repo (r ref sc : String) | file (sc : String) | example_ | noScript
  deriving DecidableEq

/-- A repository that is not empty wins, then a script, then the example. -/
def sourceSpec : Option String → Option String → String → Source
  | some r, some sc, ref => if r = "" then .file sc else .repo r ref sc
  | some r, none, _ => if r = "" then .example_ else .noScript
  | none, some sc, _ => .file sc
  | none, none, _ => .example_

/-- What is in a source. -/
def sourceGives {S : Type} (w : World S) : Source → Except PyErr S
  | .repo r ref sc => load (w.repoFile r ref sc)
  | .file sc => load (w.localFile sc)
  | .example_ => match w.dflt with | .scheduler s => .ok s | .triple _ s => .ok s
  | .noScript => .error .value

private theorem len_pos (s : String) : 0 < s.length ↔ s ≠ "" := by
  rw [Nat.pos_iff_ne_zero]; simp

/-- C437: the scheduler is the one of its source, with the visits of the database if one is named and has any. -/
theorem scheduler_spec {S O : Type} (w : World S) (add : S → List O → S) (visits : String → List O) (repo script : Option String) (ref : String) (v : Option String) (s : S) :
    getScheduler w add visits repo script ref v = .ok s ↔
      ∃ s0, sourceGives w (sourceSpec repo script ref) = .ok s0 ∧
        ((∃ f, v = some f ∧ f ≠ "" ∧ visits f ≠ [] ∧ s = add s0 (visits f)) ∨ ((∀ f, v = some f → f = "" ∨ visits f = []) ∧ s = s0)) := by
  have key : ∀ r : Except PyErr S, r = sourceGives w (sourceSpec repo script ref) →
      ((match r with
        | .error e => Except.error e
        | .ok s => if 0 < (v.getD "").length then .ok (if 0 < (visits (v.getD "")).length then add s (visits (v.getD "")) else s) else .ok s) = Except.ok s ↔
      ∃ s0, sourceGives w (sourceSpec repo script ref) = .ok s0 ∧
        ((∃ f, v = some f ∧ f ≠ "" ∧ visits f ≠ [] ∧ s = add s0 (visits f)) ∨ ((∀ f, v = some f → f = "" ∨ visits f = []) ∧ s = s0))) := by
    intro r hr
    rw [← hr]
    cases r with
    | error e => simp
    | ok s0 =>
      cases v with
      | none => simp [eq_comm]
      | some f =>
        simp only [Option.getD_some, len_pos]
        by_cases hf : f = ""
        · simp [hf, eq_comm]
        · rw [if_pos hf]
          by_cases hv : visits f = []
          · simp [hv, eq_comm]
          · have : 0 < (visits f).length := List.length_pos_of_ne_nil hv
            simp [hf, hv, eq_comm, this]
  unfold getScheduler
  refine key _ ?_
  rcases repo with _ | r <;> rcases script with _ | sc
  · rfl
  · rfl
  · by_cases hr : r = ""
    · subst hr; rfl
    · simp [hr, sourceSpec, sourceGives, len_pos]
  · by_cases hr : r = ""
    · subst hr; rfl
    · simp [hr, sourceSpec, sourceGives, len_pos]

/-- C437: a repository without a script is a ValueError, whatever the visits. -/
theorem scheduler_noScript {S O : Type} (w : World S) (add : S → List O → S) (visits : String → List O) (r : String) (hr : r ≠ "") (ref : String) (v : Option String) :
    getScheduler w add visits (some r) none ref v = .error .value := by
  simp [getScheduler, len_pos, hr]

example : getScheduler (S := List Nat) (O := Nat) ⟨fun _ => none, fun _ _ _ => some ⟨some ([1], some 32), none⟩, .scheduler [9]⟩ (· ++ ·) (fun _ => [5]) (some "r") (some "s") "main" (some "v")
    = .ok [1, 5] := by decide +kernel
example : getScheduler (S := List Nat) (O := Nat) ⟨fun _ => none, fun _ _ _ => none, .triple () [9]⟩ (· ++ ·) (fun _ => [5]) (some "") none "main" (some "")
    = .ok [9] := by decide +kernel

/-! ## C438: files of snapshots -/

private theorem suffix_last {a b : Char} {l1 l2 m : List Char} (h1 : l1 ++ [a] <:+ m) (h2 : l2 ++ [b] <:+ m) : a = b := by
  obtain ⟨t1, h1⟩ := h1
  obtain ⟨t2, h2⟩ := h2
  have := h1.trans h2.symm
  rw [← List.append_assoc, ← List.append_assoc] at this
  have := congrArg List.getLast? this
  simpa using this

/-- C438: the compression is that of the extension. -/
theorem codec_spec (name : List Char) :
    (codecOf name = .bz2 ↔ ".bz2".toList <:+ name) ∧ (codecOf name = .xz ↔ ".xz".toList <:+ name) ∧ (codecOf name = .gz ↔ ".gz".toList <:+ name) ∧
      (codecOf name = .plain ↔ ¬ ".bz2".toList <:+ name ∧ ¬ ".xz".toList <:+ name ∧ ¬ ".gz".toList <:+ name) := by
  have hbx : ".bz2".toList <:+ name → ¬ ".xz".toList <:+ name := fun h1 h2 =>
    absurd (suffix_last (l1 := ['.', 'b', 'z']) (l2 := ['.', 'x']) h1 h2) (by decide)
  have hbg : ".bz2".toList <:+ name → ¬ ".gz".toList <:+ name := fun h1 h2 =>
    absurd (suffix_last (l1 := ['.', 'b', 'z']) (l2 := ['.', 'g']) h1 h2) (by decide)
  have hxg : ".xz".toList <:+ name → ¬ ".gz".toList <:+ name := by
    rintro ⟨t1, h1⟩ ⟨t2, h2⟩
    have := h1.trans h2.symm
    have h3 := List.append_inj_right' this (by decide)
    exact absurd h3 (by decide)
  unfold codecOf
  by_cases h1 : ".bz2".toList <:+ name
  · simp only [if_pos h1]; have := hbx h1; have := hbg h1; simp_all
  · simp only [if_neg h1]
    by_cases h2 : ".xz".toList <:+ name
    · simp only [if_pos h2]; have := hxg h2; simp_all
    · simp only [if_neg h2]
      by_cases h3 : ".gz".toList <:+ name
      · simp only [if_pos h3]; simp_all
      · simp only [if_neg h3]; simp_all

/-- C438: a snapshot that is not compressed is read back. -/
theorem snapshot_round_partial {S : Type} (files : List (List Char × Codec × S)) (name : List Char) (s : S)
    (h1 : ¬ ".bz2".toList <:+ name) (h2 : ¬ ".xz".toList <:+ name) (h3 : ¬ ".gz".toList <:+ name) : readScheduler (saveScheduler files name s) name = .ok s := by
  have hc : codecOf name = .plain := (codec_spec name).2.2.2.mpr ⟨h1, h2, h3⟩
  simp [readScheduler, saveScheduler, lookup_put, hc]

/-- C438: one that is compressed is not. -/
theorem snapshot_compressed {S : Type} (files : List (List Char × Codec × S)) (name : List Char) (s : S)
    (h : ".bz2".toList <:+ name ∨ ".xz".toList <:+ name ∨ ".gz".toList <:+ name) : readScheduler (saveScheduler files name s) name = .error .unpickle := by
  have hc : codecOf name ≠ .plain := by
    intro hc
    have := (codec_spec name).2.2.2.mp hc
    tauto
  simp only [readScheduler, saveScheduler, lookup_put, if_true]

/-- C438: so the programs that read snapshots do not read all that are saved. -/
theorem snapshot_round_false : ¬ ∀ (files : List (List Char × Codec × Nat)) (name : List Char) (s : Nat), readScheduler (saveScheduler files name s) name = .ok s := by
  intro h
  have := h [] "s.pickle.xz".toList 3
  rw [snapshot_compressed _ _ _ (Or.inr (Or.inl ⟨"s.pickle".toList, by decide⟩))] at this
  cases this

/-- C438: other files are left alone. -/
theorem snapshot_others {S : Type} (files : List (List Char × Codec × S)) (name other : List Char) (s : S) (h : other ≠ name) :
    (saveScheduler files name s).lookup other = files.lookup other := by
  simp [saveScheduler, lookup_put, h]

example : codecOf "scheduler.pickle.xz".toList = .xz ∧ codecOf "scheduler.p".toList = .plain ∧ codecOf "a.xz.bz2".toList = .bz2 := by decide +kernel

/-! ## C439, C440: conversions -/

private theorem put_new {V : Type} (l : List (String × V)) (k : String) (v : V) (h : k ∉ l.map Prod.fst) : put l k v = l ++ [(k, v)] := by
  induction l with
  | nil => rfl
  | cons a l ih =>
    obtain ⟨k', v'⟩ := a
    simp only [List.map_cons, List.mem_cons, not_or] at h
    simp [put, h.1, ih h.2]

private theorem slash_inj {a b : String} (h : "/" ++ a = "/" ++ b) : a = b := by
  have := congrArg String.toList h
  simp only [String.toList_append] at this
  exact String.toList_inj.mp (List.append_cancel_left this)

private theorem toHdfGo_eq {T : Type} (db acc : Tables T) (h : (acc.map Prod.fst ++ db.map (fun e => "/" ++ e.1)).Nodup) :
    toHdfGo (some acc) false db = some (acc ++ db.map fun e => ("/" ++ e.1, e.2)) := by
  induction db generalizing acc with
  | nil => simp [toHdfGo]
  | cons a db ih =>
    obtain ⟨n, t⟩ := a
    simp only [toHdfGo, Bool.false_eq_true, if_false, Option.getD_some]
    have hn : "/" ++ n ∉ acc.map Prod.fst := by
      intro hm
      rw [List.nodup_append] at h
      exact h.2.2 _ hm _ (by simp) rfl
    rw [put_new _ _ _ hn, ih]
    · simp
    · simpa using h

/-- C439: the store has the tables of the database, each under its name, and nothing of the file that was there. -/
theorem toHdf_spec {T : Type} (old : Option (Tables T)) (db : Tables T) (hne : db ≠ []) (hd : (db.map Prod.fst).Nodup) :
    toHdf old db = some (db.map fun e => ("/" ++ e.1, e.2)) := by
  cases db with
  | nil => exact absurd rfl hne
  | cons a db =>
    obtain ⟨n, t⟩ := a
    simp only [toHdf, toHdfGo, if_true, put]
    rw [toHdfGo_eq]
    · simp
    · have h2 : (((n, t) :: db).map (fun e => "/" ++ e.1)).Nodup := by
        have := hd.map (f := fun n => "/" ++ n) (fun a b h => slash_inj h)
        simpa [List.map_map, Function.comp_def] using this
      simpa using h2

/-- C439: a database without tables leaves what was there: the path that is returned may have no file, or one of another database. -/
theorem toHdf_empty {T : Type} (old : Option (Tables T)) : toHdf old [] = old := rfl

/-- C439: so the file at the path that is returned is not always that of the database. -/
theorem toHdf_false : ¬ ∀ (old : Option (Tables Nat)) (db : Tables Nat), (db.map Prod.fst).Nodup → toHdf old db = some (db.map fun e => ("/" ++ e.1, e.2)) := by
  intro h
  have := h (some [("/observations", 3)]) [] (by simp)
  simp [toHdf_empty] at this

/-- A name that does not begin with a slash. -/
def plainName (n : String) : Prop := n.toList.head? ≠ some '/'

private theorem strip_slash (n : String) (h : plainName n) : stripKey ("/" ++ n) = n := by
  have h2 : n.toList.dropWhile (· = '/') = n.toList := by
    unfold plainName at h
    cases hn : n.toList with
    | nil => rfl
    | cons a l =>
      rw [hn] at h
      have : a ≠ '/' := by simpa using h
      simp [this]
  have h3 : ("/" ++ n).toList.dropWhile (· = '/') = n.toList := by
    rw [String.toList_append]
    show (List.dropWhile (· = '/') ('/' :: n.toList)) = _
    rw [List.dropWhile_cons_of_pos (by simp), h2]
  unfold stripKey
  rw [h3]
  exact String.ofList_toList

private theorem fromHdfGo_eq {T : Type} (st : Tables T) (db : Tables T) (h : (db.map Prod.fst ++ st.map (fun e => stripKey e.1)).Nodup) :
    fromHdfGo db st = (.ok (), db ++ st.map fun e => (stripKey e.1, e.2)) := by
  induction st generalizing db with
  | nil => simp [fromHdfGo]
  | cons a st ih =>
    obtain ⟨k, t⟩ := a
    have hn : stripKey k ∉ db.map Prod.fst := by
      intro hm
      rw [List.nodup_append] at h
      exact h.2.2 _ hm _ (by simp) rfl
    have hl : db.lookup (stripKey k) = none := by
      rw [List.lookup_eq_none_iff]
      intro e he
      refine bne_iff_ne.mpr ?_
      exact fun hh => hn (List.mem_map.mpr ⟨e, he, hh.symm⟩)
    simp only [fromHdfGo, hl, Option.isSome_none, Bool.false_eq_true, if_false]
    rw [ih]
    · simp
    · simpa using h

/-- C440: a database that is converted and converted back to a new file has the same tables, in whatever order the store gives its keys. -/
theorem round_trip {T : Type} (old : Option (Tables T)) (db st : Tables T) (hne : db ≠ []) (hd : (db.map Prod.fst).Nodup) (hp : ∀ e ∈ db, plainName e.1)
    (store : Tables T) (hs : toHdf old db = some store) (hst : st.Perm store) :
    (fromHdf none st).1 = .ok () ∧ (fromHdf none st).2.Perm db := by
  rw [toHdf_spec old db hne hd, Option.some.injEq] at hs
  subst hs
  have hmap : (st.map fun e => (stripKey e.1, e.2)).Perm db := by
    refine (hst.map _).trans ?_
    rw [List.map_map]
    refine List.Perm.of_eq ?_
    conv_rhs => rw [← List.map_id db]
    apply List.map_congr_left
    intro e he
    simp [strip_slash e.1 (hp e he)]
  have hnd : (st.map fun e => stripKey e.1).Nodup := by
    have h1 := (hmap.map Prod.fst).nodup_iff.mpr hd
    simpa [List.map_map, Function.comp_def] using h1
  have e := fromHdfGo_eq st [] (by simpa using hnd)
  simp only [fromHdf, Option.getD_none, e, List.nil_append]
  exact ⟨trivial, hmap⟩

private theorem go_grows {T : Type} (st : Tables T) (db : Tables T) : db <+: (fromHdfGo db st).2 := by
  induction st generalizing db with
  | nil => exact List.prefix_rfl
  | cons a st ih =>
    obtain ⟨k, t⟩ := a
    simp only [fromHdfGo]
    split
    · exact List.prefix_rfl
    · exact (List.prefix_append _ _).trans (ih _)

private theorem go_ok {T : Type} (st : Tables T) (db : Tables T) (h : (fromHdfGo db st).1 = .ok ()) : ∀ e ∈ st, db.lookup (stripKey e.1) = none := by
  induction st generalizing db with
  | nil => simp
  | cons a st ih =>
    obtain ⟨k, t⟩ := a
    simp only [fromHdfGo] at h
    split at h
    · cases h
    · rename_i hl
      have hk : db.lookup (stripKey k) = none := Option.not_isSome_iff_eq_none.mp hl
      intro e he
      rcases List.mem_cons.mp he with rfl | he
      · exact hk
      · have := ih _ h e he
        rw [List.lookup_append] at this
        exact (Option.or_eq_none_iff.mp this).1

/-- C440: a table that is in the database already is a ValueError, and no table of the database is lost or changed. -/
theorem existing_error {T : Type} (old st : Tables T) (e : String × T) (he : e ∈ st) (h : (old.lookup (stripKey e.1)).isSome = true) :
    (fromHdf (some old) st).1 ≠ .ok () ∧ old <+: (fromHdf (some old) st).2 := by
  refine ⟨fun hok => ?_, go_grows _ _⟩
  have := go_ok st old hok e he
  rw [this] at h
  cases h

/-- C440: so with the default paths the conversion back, which is to the path of the database itself, always fails if there is a table. -/
theorem default_paths_false {T : Type} (old : Option (Tables T)) (db : Tables T) (hne : db ≠ []) (hd : (db.map Prod.fst).Nodup) (hp : ∀ e ∈ db, plainName e.1)
    (store : Tables T) (hs : toHdf old db = some store) : (fromHdf (some db) store).1 ≠ .ok () := by
  rw [toHdf_spec old db hne hd, Option.some.injEq] at hs
  subst hs
  cases db with
  | nil => exact absurd rfl hne
  | cons a l =>
    refine (existing_error (a :: l) _ ("/" ++ a.1, a.2) (by simp) ?_).1
    rw [strip_slash a.1 (hp a (by simp))]
    simp [List.lookup]

/-- C440: a failing conversion may leave some of its tables. -/
theorem failing_leaves : ∃ (old st : Tables Nat), (fromHdf (some old) st).1 = .error .value ∧ (fromHdf (some old) st).2 ≠ old :=
  ⟨[("b", 1)], [("/a", 2), ("/b", 3)], by decide +kernel, by decide +kernel⟩

example : toHdf (some [("/x", 9)]) [("observations", 1), ("info", 2)] = some [("/observations", 1), ("/info", 2)] := by decide +kernel
example : (fromHdf none [("/info", 2), ("/observations", 1)]).2 = [("info", 2), ("observations", 1)] := by decide +kernel

/-! ## C441: conda packages -/

/-- The version of a package: that in the last file that has one of this name. -/
def versionSpec (fs : List MetaFile) (n : String) : Option String :=
  ((fs.filter fun f => f.json).filterMap fun f => match f.data with | some (some m, some v) => if m = n then some v else none | _ => none).getLast?

private def stepOf (acc : List (String × String)) (f : MetaFile) : List (String × String) :=
  if !f.json then acc
  else match f.data with
    | some (some n, some v) => put acc n v
    | _ => acc

private theorem scan_eq (fs : List MetaFile) : scan fs = fs.foldl stepOf [] := by
  cases fs <;> rfl

private theorem scan_append (fs : List MetaFile) (f : MetaFile) : scan (fs ++ [f]) = stepOf (scan fs) f := by
  simp [scan_eq]

private theorem scan_lookup (fs : List MetaFile) (n : String) : (scan fs).lookup n = versionSpec fs n := by
  induction fs using List.reverseRecOn with
  | nil => rfl
  | append_singleton fs f ih =>
    rw [scan_append]
    unfold versionSpec at ih ⊢
    rw [List.filter_append, List.filterMap_append]
    obtain ⟨j, d⟩ := f
    cases j with
    | false => simp [stepOf, ih]
    | true =>
      rcases d with _ | ⟨_ | m, _ | v⟩
      · simp [stepOf, ih]
      · simp [stepOf, ih]
      · simp [stepOf, ih]
      · simp [stepOf, ih]
      · simp only [stepOf, Bool.not_true, Bool.false_eq_true, if_false, lookup_put]
        by_cases h : n = m
        · subst h; simp
        · have h' : ¬ m = n := fun e => h e.symm
          simp [h, h', ih]

private theorem keys_put {V : Type} (l : List (String × V)) (k : String) (v : V) (h : (l.map Prod.fst).Nodup) :
    ((put l k v).map Prod.fst).Nodup ∧ ∀ x, x ∈ (put l k v).map Prod.fst → x = k ∨ x ∈ l.map Prod.fst := by
  induction l with
  | nil => simp [put]
  | cons a l ih =>
    obtain ⟨k', v'⟩ := a
    simp only [List.map_cons, List.nodup_cons] at h
    obtain ⟨i1, i2⟩ := ih h.2
    simp only [put]
    split
    · rename_i hk
      subst hk
      simp only [List.map_cons, List.nodup_cons, List.mem_cons]
      exact ⟨h, fun x hx => hx.elim Or.inl (fun hx => Or.inr (Or.inr hx))⟩
    · rename_i hk
      simp only [List.map_cons, List.nodup_cons, List.mem_cons]
      refine ⟨⟨fun hm => (i2 _ hm).elim (fun e => hk e.symm) h.1, i1⟩, fun x hx => ?_⟩
      rcases hx with rfl | hx
      · exact Or.inr (Or.inl rfl)
      · exact (i2 x hx).imp id Or.inr

private theorem scan_nodup (fs : List MetaFile) : ((scan fs).map Prod.fst).Nodup := by
  induction fs using List.reverseRecOn with
  | nil => simp [scan]
  | append_singleton fs f ih =>
    rw [scan_append]
    unfold stepOf
    split
    · exact ih
    · split
      · exact (keys_put _ _ _ ih).1
      · exact ih

private theorem perm_lookup {V : Type} {l m : List (String × V)} (h : l.Perm m) (hn : (m.map Prod.fst).Nodup) (k : String) : l.lookup k = m.lookup k := by
  have mem : ∀ (l : List (String × V)), (l.map Prod.fst).Nodup → ∀ v, l.lookup k = some v ↔ (k, v) ∈ l := by
    intro l
    induction l with
    | nil => simp
    | cons a l ih =>
      obtain ⟨k', v'⟩ := a
      intro hn v
      simp only [List.map_cons, List.nodup_cons] at hn
      by_cases hk : k = k'
      · subst hk
        simp only [List.lookup, beq_self_eq_true, Option.some.injEq, List.mem_cons, Prod.mk.injEq, true_and]
        constructor
        · exact fun e => Or.inl e.symm
        · rintro (e | e)
          · exact e.symm
          · exact absurd (List.mem_map.mpr ⟨_, e, rfl⟩) hn.1
      · have : (k == k') = false := by simpa using hk
        simp [List.lookup, this, ih hn.2, hk]
  have hl : (l.map Prod.fst).Nodup := (h.map Prod.fst).nodup_iff.mpr hn
  apply Option.ext
  intro v
  rw [mem l hl, mem m hn, h.mem_iff]

private theorem sort_perm (l : List (String × String)) : (sortItems l).Perm l := List.perm_insertionSort _ l

/-- C441: a package is listed with the version in its file, and the environment under its own name; nothing else is listed. -/
theorem conda_lookup (fs : List MetaFile) (env : Option String) (n : String) :
    (condaPackages (some fs) env).lookup n = if n = "conda_env" ∧ env ≠ none then env else versionSpec fs n := by
  have h0 : (sortItems (scan fs)).lookup n = versionSpec fs n := by rw [perm_lookup (sort_perm _) (scan_nodup fs), scan_lookup]
  cases env with
  | none => simp [condaPackages, h0]
  | some e =>
    simp only [condaPackages, lookup_put, h0]
    by_cases h : n = "conda_env" <;> simp [h]

/-- C441: without an environment that can be read there is nothing. -/
theorem conda_none (env : Option String) : condaPackages none env = [] := rfl

/-- C441: the packages are in the order of their names. -/
theorem conda_sorted (fs : List MetaFile) : (condaPackages (some fs) none).Pairwise fun a b => a.1 ≤ b.1 := by
  have : IsTrans (String × String) (fun a b => a.1 ≤ b.1) := ⟨fun a b c h1 h2 => String.le_trans h1 h2⟩
  have : Std.Total (fun a b : String × String => a.1 ≤ b.1) := ⟨fun a b => String.le_total a.1 b.1⟩
  exact List.pairwise_insertionSort _ _

/-- C441: in a process every call gives what the first one gave, whatever is installed in between. -/
theorem conda_cached (calls : List (Option (List MetaFile) × Option String)) (r : List (String × String)) (hr : r ∈ cachedCalls none calls) :
    ∃ c, calls.head? = some c ∧ r = condaPackages c.1 c.2 := by
  have key : ∀ (calls : List (Option (List MetaFile) × Option String)) (x : List (String × String)), ∀ r ∈ cachedCalls (some x) calls, r = x := by
    intro calls
    induction calls with
    | nil => simp [cachedCalls]
    | cons c l ih =>
      intro x r hr
      simp only [cachedCalls, Option.getD_some, List.mem_cons] at hr
      exact hr.elim id (ih x r)
  cases calls with
  | nil => simp [cachedCalls] at hr
  | cons c l =>
    refine ⟨c, rfl, ?_⟩
    simp only [cachedCalls, Option.getD_none, List.mem_cons] at hr
    exact hr.elim id (key l _ r)

example : condaPackages (some [⟨true, some (some "b", some "1")⟩, ⟨true, some (some "a", some "2")⟩, ⟨false, none⟩, ⟨true, some (some "b", some "3")⟩]) (some "env")
    = [("a", "2"), ("b", "3"), ("conda_env", "env")] := by decide +kernel

end Verif.Snapshot
