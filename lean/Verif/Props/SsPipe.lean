import Verif.Model.SsPipe
import Verif.Lemmas.TimeSlicers
import Mathlib.Tactic.Linarith
import Mathlib.Tactic.Ring
import Mathlib.Tactic.FieldSimp
import Mathlib.Tactic.NormNum

/-!
# Properties of the chain of tools for moving objects
-/

namespace Verif.SsPipe

/-! ## Files -/

/-- The parts of a path between the slashes: spec. -/
def parts : Str → List Str
  | [] => [[]]
  | c :: cs =>
    if c = '/' then [] :: parts cs
    else match parts cs with
      | [] => [[c]]
      | w :: ws => (c :: w) :: ws

/-- The directories from which a path starts and goes through, without those that do
nothing; two paths with the same are the same file (without links and parents): spec. -/
def place (p : Str) : Bool × List Str :=
  (p.head? == some '/', (parts p).filter (fun w => w ≠ [] ∧ w ≠ ['.']))

private theorem parts_ne (p : Str) : parts p ≠ [] := by
  cases p with
  | nil => simp [parts]
  | cons c cs =>
    rw [parts]
    split
    · simp
    · split <;> simp

private theorem parts_append (a b : Str) : parts (a ++ '/' :: b) = parts a ++ parts b := by
  induction a with
  | nil => simp [parts]
  | cons c cs ih =>
    rw [List.cons_append, parts, parts]
    split
    · rw [ih]; rfl
    · rw [ih]
      cases h : parts cs with
      | nil => exact absurd h (parts_ne cs)
      | cons w ws => rfl

private theorem parts_slash (a : Str) : parts (a ++ ['/']) = parts a ++ [[]] := by
  rw [parts_append a []]; rfl

private theorem parts_plain (n : Str) (h : '/' ∉ n) : parts n = [n] := by
  induction n with
  | nil => rfl
  | cons c cs ih =>
    rw [List.mem_cons, not_or] at h
    rw [parts, if_neg (Ne.symm h.1), ih h.2]

/-- A name that is a file of a directory. -/
def Plain (n : Str) : Prop := '/' ∉ n ∧ n ≠ [] ∧ n ≠ ['.']

private theorem place_join (a b : Str) (hb : b.head? ≠ some '/') :
    place (pathJoin a b) = ((place a).1, (place a).2 ++ (place b).2) ∨ a = [] := by
  unfold pathJoin
  rw [if_neg hb]
  by_cases ha : a = []
  · exact Or.inr ha
  · left
    by_cases hl : a.getLast? = some '/'
    · rw [if_pos (Or.inr hl)]
      obtain ⟨a', rfl⟩ : ∃ a', a = a' ++ ['/'] := by
        refine ⟨a.dropLast, ?_⟩
        have := List.dropLast_append_getLast? '/' hl
        exact this.symm
      unfold place
      rw [List.append_assoc, List.singleton_append, parts_append, parts_slash]
      simp only [List.filter_append, Prod.mk.injEq]
      constructor
      · cases a' <;> simp
      · simp
    · rw [if_neg (by simp [ha, hl])]
      unfold place
      rw [parts_append]
      simp only [List.filter_append, Prod.mk.injEq, and_true]
      cases a with
      | nil => exact absurd rfl ha
      | cons c cs => simp

private theorem place_plain (n : Str) (h : Plain n) : place n = (false, [n]) := by
  obtain ⟨h1, h2, h3⟩ := h
  unfold place
  rw [parts_plain n h1]
  simp only [List.filter_cons, List.filter_nil, Prod.mk.injEq]
  constructor
  · cases n with
    | nil => rfl
    | cons c cs => simp at h1 ⊢; exact fun e => h1.1 e.symm
  · simp [h2, h3]

private theorem head_plain (n : Str) (h : Plain n) : n.head? ≠ some '/' := by
  intro e
  cases n with
  | nil => cases e
  | cons c cs => simp at e; exact h.1 (by simp [e])

/-- The file of observations in a directory: where it is meant to be. -/
def Meant (outDir name : Str) : Bool × List Str := ((place outDir).1, (place outDir).2 ++ [name])

private theorem join_mid (d n : Str) (hd : d ≠ []) (hr : d.head? ≠ some '/') : (pathJoin d n).head? ≠ some '/' ∨ n.head? = some '/' := by
  unfold pathJoin
  by_cases h : n.head? = some '/'
  · exact Or.inr h
  · left
    rw [if_neg h]
    split
    · cases d with
      | nil => exact absurd rfl hd
      | cons c cs => simpa using hr
    · cases d with
      | nil => exact absurd rfl hd
      | cons c cs => simpa using hr

/-- The directory is used twice: with a directory that is given from here the file is in
the same directory within it. -/
theorem saved_place (d n : Str) (hd : d ≠ []) (hn : Plain n) :
    place (pathJoin d (pathJoin d n)) =
      if d.head? = some '/' then Meant d n else ((place d).1, (place d).2 ++ (place d).2 ++ [n]) := by
  have h1 : place (pathJoin d n) = Meant d n := by
    rcases place_join d n (head_plain n hn) with h | h
    · rw [h, place_plain n hn]; rfl
    · exact absurd h hd
  split
  · rename_i ha
    have : (pathJoin d n).head? = some '/' := by
      unfold pathJoin
      rw [if_neg (head_plain n hn)]
      cases d with
      | nil => exact absurd rfl hd
      | cons c cs =>
        split <;> simpa using ha
    rw [pathJoin, if_pos this, h1]
  · rename_i hr
    rcases join_mid d n hd hr with h | h
    · rcases place_join d (pathJoin d n) h with h2 | h2
      · rw [h2, h1]
        simp [Meant]
      · exact absurd h2 hd
    · exact absurd h (head_plain n hn)

/-- So the file is where it is meant to be if and only if the directory is given from the
root or is the current one. -/
theorem saved_iff (d n : Str) (hd : d ≠ []) (hn : Plain n) :
    place (pathJoin d (pathJoin d n)) = Meant d n ↔ d.head? = some '/' ∨ (place d).2 = [] := by
  rw [saved_place d n hd hn]
  split
  · rename_i h; simp [h]
  · rename_i h
    constructor
    · intro e
      right
      have := congrArg (fun x => x.2.length) e
      simp only [Meant, List.length_append] at this
      exact List.eq_nil_of_length_eq_zero (by omega)
    · rintro (e | e)
      · exact absurd e h
      · simp [Meant, e]

private theorem npz_name (run base : Str) (x : Str) : npz (x ++ obsName run base) = x ++ obsName run base := by
  unfold npz
  rw [if_pos]
  rw [List.isSuffixOf_iff_suffix]
  refine ⟨x ++ (run ++ s "__" ++ base ++ s "_obs"), ?_⟩
  simp [obsName, s]

private theorem join_suffix (d n : Str) : ∃ x, pathJoin d n = x ++ n := by
  unfold pathJoin
  split
  · exact ⟨[], rfl⟩
  · split
    · exact ⟨d, rfl⟩
    · exact ⟨d ++ ['/'], by simp⟩

private theorem obsFile_eq (db orbit d : Str) :
    obsFile db orbit d none = pathJoin d (pathJoin d (obsName (runName db) (stem (baseName orbit)))) := by
  unfold obsFile
  obtain ⟨x, hx⟩ := join_suffix d (obsName (runName db) (stem (baseName orbit)))
  obtain ⟨y, hy⟩ := join_suffix d (pathJoin d (obsName (runName db) (stem (baseName orbit))))
  simp only
  rw [hy, hx, ← List.append_assoc, npz_name, List.append_assoc]

private theorem removeGo_sub (pat : Str) (k : Nat) (x : Str) : (removeGo pat k x).Sublist x := by
  induction x generalizing k with
  | nil => cases k <;> simp [removeGo]
  | cons c cs ih =>
    cases k with
    | succ k => exact (ih k).cons c
    | zero =>
      rw [removeGo]
      split
      · exact (ih _).cons c
      · exact (ih 0).cons_cons c

private theorem removeGo_id (pat : Str) (x : Str) (h : ¬ pat <:+: x) : removeGo pat 0 x = x := by
  induction x with
  | nil => rfl
  | cons c cs ih =>
    rw [removeGo, if_neg, ih]
    · intro h'
      exact h (h'.trans (List.suffix_cons c cs).isInfix)
    · intro hp
      exact h (List.isPrefixOf_iff_prefix.mp hp).isInfix

private theorem base_noslash (p : Str) : '/' ∉ baseName p := by
  unfold baseName
  rw [List.mem_reverse]
  intro h
  have := List.all_takeWhile (l := p.reverse) (p := fun x => decide (x ≠ '/'))
  rw [List.all_eq_true] at this
  simpa using this _ h

private theorem run_noslash (p : Str) : '/' ∉ runName p := by
  intro h
  exact base_noslash p ((removeGo_sub _ _ _).subset h)

private theorem base_join (d n : Str) (h : '/' ∉ n) : baseName (d ++ '/' :: n) = n := by
  unfold baseName
  rw [List.reverse_append, List.reverse_cons, List.append_assoc, List.takeWhile_append_of_pos]
  · simp
  · intro c hc
    have : c ∈ n := by simpa using hc
    simp only [ne_eq, decide_not, Bool.not_eq_true', decide_eq_false_iff_not]
    rintro rfl
    exact h this

private theorem base_plain (n : Str) (h : '/' ∉ n) : baseName n = n := by
  unfold baseName
  have e : n.reverse.takeWhile (fun x => decide (x ≠ '/')) = n.reverse := by
    have := List.takeWhile_append_of_pos (p := fun x => decide (x ≠ '/')) (l₁ := n.reverse) (l₂ := []) ?_
    · simpa using this
    · intro c hc
      have : c ∈ n := by simpa using hc
      simp only [ne_eq, decide_not, Bool.not_eq_true', decide_eq_false_iff_not]
      rintro rfl
      exact h this
  rw [e, List.reverse_reverse]

private theorem base_pathJoin (d n : Str) (h : Plain n) : baseName (pathJoin d n) = n := by
  unfold pathJoin
  rw [if_neg (head_plain n h)]
  split
  · rename_i hc
    rcases hc with rfl | hl
    · exact base_plain n h.1
    · have := List.dropLast_append_getLast? '/' hl
      rw [← this, List.append_assoc]
      exact base_join _ n h.1
  · exact base_join d n h.1

private theorem stem_dot (n e : Str) (he : '.' ∉ e) : stem (n ++ '.' :: e) = n := by
  unfold stem
  rw [List.reverse_append, List.reverse_cons, List.append_assoc, List.dropWhile_append_of_pos]
  · simp
  · intro c hc
    have : c ∈ e := by simpa using hc
    simp only [ne_eq, decide_not, Bool.not_eq_true', decide_eq_false_iff_not]
    rintro rfl
    exact he this

private theorem plain_obs (run base : Str) (h1 : '/' ∉ run) (h2 : '/' ∉ base) : Plain (obsName run base) := by
  refine ⟨?_, ?_, ?_⟩
  · simp only [obsName, List.mem_append, not_or]
    refine ⟨⟨⟨h1, by decide⟩, h2⟩, by decide⟩
  · simp [obsName, s]
  · intro h
    have := congrArg List.length h
    simp [obsName, s] at this
    omega

private theorem stem_noslash (p : Str) : '/' ∉ stem (baseName p) := by
  intro hm
  unfold stem at hm
  rw [List.mem_reverse] at hm
  have h2 := (List.dropWhile_sublist _).subset (List.mem_of_mem_drop hm)
  exact base_noslash _ (by simpa using h2)

/-- The file of the observations is in the directory that is given if this starts at the root
or is the current one. -/
theorem makeObs_partial (db orbit d : Str) (hd : d ≠ []) (h : d.head? = some '/' ∨ (place d).2 = []) :
    ∃ w, makeObs ⟨"make_lsst_obs", [("--simulation_db", db), ("--orbit_file", orbit), ("--out_dir", d)]⟩ = .ok w ∧
      place w = Meant d (obsName (runName db) (stem (baseName orbit))) := by
  have ha : parses ⟨"make_lsst_obs", [("--simulation_db", db), ("--orbit_file", orbit), ("--out_dir", d)]⟩ = true := by
    simp only [parses, List.all_cons, List.all_nil]
    decide +kernel
  refine ⟨_, by rw [makeObs, if_pos ha]; rfl, ?_⟩
  show place (obsFile db orbit d none) = _
  rw [obsFile_eq]
  exact (saved_iff d _ hd (plain_obs _ _ (run_noslash db) (stem_noslash orbit))).mpr h

/-- Its name is made of those of the run and the file of orbits without their endings. -/
theorem makeObs_name (db dir name ext d : Str) (hn : '/' ∉ name) (he : '/' ∉ ext ∧ '.' ∉ ext) (hne : name ≠ []) (hd : d ≠ [])
    (h : d.head? = some '/' ∨ (place d).2 = []) :
    ∃ w, makeObs ⟨"make_lsst_obs", [("--simulation_db", db), ("--orbit_file", pathJoin dir (name ++ '.' :: ext)), ("--out_dir", d)]⟩ = .ok w ∧
      place w = Meant d (runName db ++ s "__" ++ name ++ s "_obs.npz") := by
  obtain ⟨w, h1, h2⟩ := makeObs_partial db (pathJoin dir (name ++ '.' :: ext)) d hd h
  refine ⟨w, h1, ?_⟩
  rw [h2, base_pathJoin, stem_dot _ _ he.2]
  · rfl
  · refine ⟨?_, ?_, ?_⟩
    · simp only [List.mem_append, List.mem_cons, not_or]
      exact ⟨hn, by decide, he.1⟩
    · simp
    · intro e
      have := congrArg List.length e
      have hl : 0 < name.length := List.length_pos_iff.2 hne
      simp at this
      cases name with
      | nil => exact hne rfl
      | cons c name =>
        simp only [List.length_cons] at this
        omega

/-- For all other directories it is elsewhere. -/
theorem makeObs_false (db orbit d : Str) (hd : d ≠ []) (h : d.head? ≠ some '/') (hp : (place d).2 ≠ []) :
    ∃ w, makeObs ⟨"make_lsst_obs", [("--simulation_db", db), ("--orbit_file", orbit), ("--out_dir", d)]⟩ = .ok w ∧
      place w ≠ Meant d (obsName (runName db) (stem (baseName orbit))) := by
  have ha : parses ⟨"make_lsst_obs", [("--simulation_db", db), ("--orbit_file", orbit), ("--out_dir", d)]⟩ = true := by
    simp only [parses, List.all_cons, List.all_nil]
    decide +kernel
  refine ⟨_, by rw [makeObs, if_pos ha]; rfl, ?_⟩
  show place (obsFile db orbit d none) ≠ _
  rw [obsFile_eq]
  intro e
  rcases (saved_iff d _ hd (plain_obs _ _ (run_noslash db) (stem_noslash orbit))).mp e with h' | h'
  · exact h h'
  · exact hp h'

example : makeObs ⟨"make_lsst_obs", [("--simulation_db", s "x/run.db"), ("--orbit_file", s "o/neo.txt"), ("--out_dir", s "out")]⟩ =
    .ok (s "out/out/run__neo_obs.npz") := by decide +kernel

/-! ## The script -/

/-- With a file of its own name the lines of the script work together: the options are
known, the observations are read from the file that is written, and the fractions from the
directory of the metrics. -/
theorem line_chain (dataDir : Str) (start : Str → Str) (pop : String) (f : Str) (a b c : Cmd)
    (h : line dataDir start pop (runName f, f) = .ok (a, b, c)) :
    parses a = true ∧ parses b = true ∧ parses c = true ∧
      ∃ w o d, makeObs a = .ok w ∧ runCalc b = .ok (some (o, d)) ∧ place w = place o ∧ c.get "--work_dir" = some d ∧ d = runName f ++ s "_ss" ∧
        b.get "--objtype" = c.get "--metadata" ∧ (c.get "--metadata").isSome := by
  unfold line at h
  split at h
  · cases h
  · rename_i t ht
    unfold orbitFile at h
    by_cases hp : orbitPops.contains pop = true
    · simp only [hp, if_true] at h
      injection h with h
      injection h with h1 h2
      injection h2 with h2 h3
      subst h1 h2 h3
      have ha : ∀ x y z : Str, parses ⟨"make_lsst_obs", [("--simulation_db", x), ("--orbit_file", y), ("--positions_file", z)]⟩ = true := by
        intro x y z
        simp only [parses, List.all_cons, List.all_nil]
        decide +kernel
      have hb : ∀ x y z u v w : Str, parses ⟨"run_moving_calc", [("--obs_file", x), ("--simulation_db", y), ("--orbit_file", z), ("--out_dir", u),
          ("--objtype", v), ("--start_time", w)]⟩ = true := by
        intro x y z u v w
        simp only [parses, List.all_cons, List.all_nil]
        decide +kernel
      have hc : ∀ x y z : Str, parses ⟨"run_moving_fractions", [("--work_dir", x), ("--metadata", y), ("--start_time", z)]⟩ = true := by
        intro x y z
        simp only [parses, List.all_cons, List.all_nil]
        decide +kernel
      refine ⟨ha _ _ _, hb _ _ _ _ _ _, hc _ _ _, ?_⟩
      have hpop : ∀ p ∈ orbitPops, '/' ∉ p.toList ∧ p.toList ≠ [] := by decide +kernel
      have hm := hpop pop (by simpa using hp)
      have hbase : stem (baseName (pathJoin (pathJoin dataDir (s "orbits")) (pop.toList ++ s ".txt"))) = pop.toList := by
        rw [base_pathJoin]
        · exact stem_dot _ _ (by decide)
        · refine ⟨?_, ?_, ?_⟩
          · simp only [List.mem_append, not_or]; exact ⟨hm.1, by decide⟩
          · simp [s]
          · intro e
            have := congrArg List.length e
            simp [s] at this
      refine ⟨_, _, _, by rw [makeObs, if_pos (ha _ _ _)]; rfl, by rw [runCalc, if_pos (hb _ _ _ _ _ _)]; rfl, ?_, rfl, rfl, rfl, rfl⟩
      show place (obsFile f _ (s ".") none) = place (obsName (runName f) pop.toList)
      rw [obsFile_eq, hbase, place_plain _ (plain_obs _ _ (run_noslash f) hm.1)]
      rw [(saved_iff (s ".") _ (by decide) (plain_obs _ _ (run_noslash f) hm.1)).mpr (Or.inr (by decide))]
      rfl
    · have : orbitPops.contains pop = false := by simpa using hp
      simp only [this] at h
      cases h

/-- Every line is for the run of its file if no name has the word for the files of tracking. -/
theorem pairs_partial (files : List Str) (h : ∀ f ∈ files, ¬ s "tracking" <:+: runName f) :
    pairs files = files.map (fun f => (runName f, f)) := by
  unfold pairs
  rw [List.filter_eq_self.mpr]
  · induction files with
    | nil => rfl
    | cons f fs ih =>
      simp only [List.map_cons, List.zip_cons_cons]
      rw [ih (fun g hg => h g (by simp [hg]))]
  · intro r hr
    obtain ⟨f, hf, rfl⟩ := List.mem_map.mp hr
    simpa using h f hf

/-- Otherwise the names are moved against the files. -/
theorem pairs_false : ¬ ∀ (files : List Str), ∀ p ∈ pairs files, p.1 = runName p.2 := by
  intro h
  have := h [s "a.db", s "old_tracking.db", s "z.db"] (s "z", s "old_tracking.db") (by decide +kernel)
  exact absurd this (by decide +kernel)

/-- The run of a pair is the name of a file without the word; the pairs are as many as such
files. -/
theorem pairs_spec (files : List Str) : (pairs files).map Prod.fst = (files.map runName).filter (fun r => ¬ s "tracking" <:+: r) ∧
    (pairs files).map Prod.snd <+: files := by
  unfold pairs
  dsimp only
  have hl : ((files.map runName).filter (fun r => ¬ s "tracking" <:+: r)).length ≤ files.length := by
    refine le_trans (List.length_filter_le _ _) (by simp)
  constructor
  · convert List.map_fst_zip (l₁ := (files.map runName).filter (fun r => ¬ s "tracking" <:+: r)) (l₂ := files) hl
  · have : ∀ (a b : List Str), (a.zip b).map Prod.snd <+: b := by
      intro a
      induction a with
      | nil => intro b; simp
      | cons x xs ih =>
        intro b
        cases b with
        | nil => simp
        | cons y ys =>
          simp only [List.zip_cons_cons, List.map_cons]
          exact (List.cons_prefix_cons).mpr ⟨rfl, ih ys⟩
    exact this _ _

/-- A script for one population is written if and only if its orbits are known or there are
no runs. -/
theorem script_known (dataDir : Str) (start : Str → Str) (pop : String) (files : List Str) :
    (∃ ls, script dataDir start (some pop) files = .ok ls) ↔ pop ∈ orbitPops ∨ pairs files = [] := by
  have hob : ∀ p ∈ orbitPops, (objtypes.lookup p).isSome = true := by decide +kernel
  unfold script
  simp only [pops, List.flatMap_cons, List.flatMap_nil, List.append_nil]
  generalize pairs files = ps
  by_cases hp : pop ∈ orbitPops
  · simp only [hp, true_or, iff_true]
    obtain ⟨t, ht⟩ := Option.isSome_iff_exists.mp (hob pop hp)
    have hl : ∀ rf, ∃ x, line dataDir start pop rf = .ok x := by
      intro rf
      have : orbitPops.contains pop = true := by simpa using hp
      simp only [line, ht, orbitFile, this, if_true]
      exact ⟨_, rfl⟩
    induction ps with
    | nil => exact ⟨[], rfl⟩
    | cons rf ps ih =>
      obtain ⟨x, hx⟩ := hl rf
      obtain ⟨ls, hls⟩ := ih
      refine ⟨x :: ls, ?_⟩
      rw [List.map_cons, List.mapM_cons]
      simp only [hx, hls, bind, Except.bind, pure, Except.pure]
  · simp only [hp, false_or]
    constructor
    · rintro ⟨ls, h⟩
      cases ps with
      | nil => rfl
      | cons rf ps =>
        have : orbitPops.contains pop = false := by simpa using hp
        rw [List.map_cons, List.mapM_cons] at h
        have hl : ∃ e, line dataDir start pop rf = .error e := by
          unfold line
          cases objtypes.lookup pop with
          | none => exact ⟨_, rfl⟩
          | some t => simp only [orbitFile, this]; exact ⟨_, rfl⟩
        obtain ⟨e, he⟩ := hl
        simp only [he, bind, Except.bind] at h
        cases h
    · rintro rfl
      exact ⟨[], rfl⟩

/-- The types that the script gives are known to the defaults. -/
theorem objtypes_known : ∀ p ∈ objtypes, population p.2 ≠ "generic" := by decide +kernel

/-- They differ, so that the results of two populations can be told apart, and all populations with orbits are run. -/
theorem objtypes_differ : (objtypes.map Prod.snd).Nodup ∧ (∀ p ∈ orbitPops, p ∈ pops none) ∧ (pops none).Nodup := by decide +kernel

example : pairs [s "a.db", s "x/b_v1.db"] = [(s "a", s "a.db"), (s "b_v1", s "x/b_v1.db")] := by decide +kernel

/-! ## Parts of a population -/

/-- The commands for parts are never accepted: the second has an option that is not known. -/
theorem split_usage (dataDir : Str) (start : Str → Str) (pop : String) (rf : Str × Str) (f : Str) (a b : Cmd)
    (h : splitLine dataDir start pop rf f = .ok (a, b)) : runCalc b = .error .usage := by
  unfold splitLine at h
  split at h
  · cases h
  · split at h
    · cases h
    · injection h with h
      injection h with _ h2
      subst h2
      have : ∀ x y z u v w q : Str, parses ⟨"run_moving_calc", [("--obs_file", x), ("--simulation_db", y), ("--orbit_file", z), ("--out_dir", u),
          ("--run_name", v), ("--objtype", w), ("--start_time", q)]⟩ = false := by
        intro x y z u v w q
        simp only [parses, List.all_cons, List.all_nil]
        decide +kernel
      rw [runCalc, this]
      rfl

/-- And the observations are not in the file that it names. -/
theorem split_file (dataDir : Str) (start : Str → Str) (pop : String) (f splitfile : Str) (a b : Cmd)
    (h : splitLine dataDir start pop (runName f, f) splitfile = .ok (a, b)) (hr : runName f ≠ []) :
    ∃ w o, makeObs a = .ok w ∧ b.get "--obs_file" = some o ∧ place w ≠ place o := by
  unfold splitLine at h
  split at h
  · cases h
  · split at h
    · cases h
    · injection h with h
      injection h with h1 h2
      subst h1 h2
      have ha : ∀ x y z u : Str, parses ⟨"make_lsst_obs", [("--simulation_db", x), ("--orbit_file", y), ("--positions_file", z), ("--out_dir", u)]⟩ = true := by
        intro x y z u
        simp only [parses, List.all_cons, List.all_nil]
        decide +kernel
      refine ⟨_, _, by rw [makeObs, if_pos (ha _ _ _ _)]; rfl, rfl, ?_⟩
      show place (obsFile f splitfile (runName f ++ s "_ss") none) ≠ _
      have hd : runName f ++ s "_ss" ≠ [] := by simp [hr]
      have hnos : '/' ∉ runName f ++ s "_ss" := by
        rw [List.mem_append, not_or]; exact ⟨run_noslash f, by decide⟩
      have hdp : Plain (runName f ++ s "_ss") := by
        refine ⟨hnos, hd, ?_⟩
        intro e
        have := congrArg List.length e
        simp [s] at this
      have hst : '/' ∉ stem (baseName splitfile) := by
        intro hm
        unfold stem at hm
        rw [List.mem_reverse] at hm
        have h2 := (List.dropWhile_sublist _).subset (List.mem_of_mem_drop hm)
        exact base_noslash _ (by simpa using h2)
      have hn := plain_obs (runName f) (stem (baseName splitfile)) (run_noslash f) hst
      rw [obsFile_eq, saved_place _ _ hd hn, if_neg (head_plain _ hdp), place_plain _ hdp]
      intro e
      have e2 := congrArg (fun x : Bool × List Str => x.2.length) e
      have hsp : '/' ∉ remove (s ".txt") (remove (s ".s3m") (remove (s ".des") (baseName splitfile))) := by
        intro hm
        exact base_noslash _ ((removeGo_sub _ _ _).subset ((removeGo_sub _ _ _).subset ((removeGo_sub _ _ _).subset hm)))
      have ho := plain_obs (runName f) (remove (s ".txt") (remove (s ".s3m") (remove (s ".des") (baseName splitfile)))) (run_noslash f) hsp
      have hpl : place (runName f ++ s "_ss" ++ s "/" ++ obsName (runName f) (remove (s ".txt") (remove (s ".s3m") (remove (s ".des") (baseName splitfile))))) =
          (false, [runName f ++ s "_ss", obsName (runName f) (remove (s ".txt") (remove (s ".s3m") (remove (s ".des") (baseName splitfile))))]) := by
        have hj : ∀ n : Str, Plain n → pathJoin (runName f ++ s "_ss") n = runName f ++ s "_ss" ++ s "/" ++ n := by
          intro n hn
          unfold pathJoin
          rw [if_neg (head_plain n hn), if_neg]
          · simp [s]
          · simp only [hd, false_or]
            intro hl
            exact hnos (List.mem_of_getLast? hl)
        rw [← hj _ ho]
        rcases place_join (runName f ++ s "_ss") _ (head_plain _ ho) with h | h
        · rw [h, place_plain _ hdp, place_plain _ ho]; rfl
        · exact absurd h hd
      rw [hpl] at e2
      simp at e2

/-- The directory in which the parts are looked for is the one that the script gives, for
parts that are named by population and number. -/
theorem splitDir_agrees (outDir dir : Str) (pop : String) (hp : pop ∈ orbitPops) (i : Nat) (hd : outDir ≠ []) (hl : '/' ∉ outDir) :
    splitDir outDir pop.toList i =
      outDir ++ s "/" ++ remove (s ".txt") (remove (s ".s3m") (remove (s ".des") (baseName (dir ++ s "/" ++ pop.toList ++ s "_" ++ (toString i).toList ++ s ".txt")))) := by
  have hdig : ∀ c ∈ (toString i).toList, c ≠ '/' ∧ c ≠ '.' := by
    intro c hc
    have : (toString i).toList = Nat.toDigits 10 i := by
      simp
    rw [this] at hc
    have hd := Nat.isDigit_of_mem_toDigits (by norm_num) (by norm_num) hc
    constructor <;> (rintro rfl; exact absurd hd (by decide))
  have hpop : ∀ p ∈ orbitPops, ∀ c ∈ p.toList, c ≠ '/' ∧ c ≠ '.' := by decide +kernel
  have hpc := hpop pop hp
  have key : ∀ c ∈ pop.toList ++ s "_" ++ (toString i).toList, c ≠ '/' ∧ c ≠ '.' := by
    intro c hc
    simp only [List.mem_append] at hc
    rcases hc with (hc | hc) | hc
    · exact hpc c hc
    · have : ∀ c ∈ s "_", c ≠ '/' ∧ c ≠ '.' := by decide
      exact this c hc
    · exact hdig c hc
  set w := pop.toList ++ s "_" ++ (toString i).toList with hw
  have hb : baseName (dir ++ s "/" ++ pop.toList ++ s "_" ++ (toString i).toList ++ s ".txt") = w ++ s ".txt" := by
    have : dir ++ s "/" ++ pop.toList ++ s "_" ++ (toString i).toList ++ s ".txt" = dir ++ '/' :: (w ++ s ".txt") := by
      simp [hw, s]
    rw [this]
    apply base_join
    simp only [List.mem_append, not_or]
    exact ⟨fun h => (key _ h).1 rfl, by decide⟩
  have rid : ∀ (pat x : Str), '.' ∈ pat → '.' ∉ x → remove pat x = x := by
    intro pat x h1 h2
    exact removeGo_id pat x (fun hi => h2 (hi.subset h1))
  have hdot : '.' ∉ w := fun h => (key _ h).2 rfl
  have hpdot : '.' ∉ pop.toList := fun h => (hpc _ h).2 rfl
  have rtxt : ∀ (pat : Str), pat.head? = some '.' → 2 ≤ pat.length → pat[1]? ≠ some 't' → ∀ x : Str, '.' ∉ x → removeGo pat 0 (x ++ s ".txt") = x ++ s ".txt" := by
    intro pat h1 h2 h3 x hx
    apply removeGo_id
    rintro ⟨u, v, he⟩
    match pat, h1, h2, h3, he with
    | a :: b :: pat, h1, _, h3, he =>
      simp only [List.head?_cons, Option.some.injEq] at h1
      subst h1
      have hb' : b ≠ 't' := by simpa using h3
      have he' : u ++ '.' :: (b :: pat ++ v) = x ++ '.' :: ['t', 'x', 't'] := by simpa [s] using he
      have hu : u = x := by
        have h4 := congrArg (List.takeWhile (fun c => c ≠ '.')) he'
        rcases List.append_eq_append_iff.mp he' with ⟨c, hc1, hc2⟩ | ⟨c, hc1, hc2⟩
        · cases c with
          | nil => simpa using hc1.symm
          | cons d ds =>
            simp only [List.cons_append, List.cons.injEq] at hc2
            exfalso; apply hx; rw [hc1, hc2.1]; simp
        · cases c with
          | nil => simpa using hc1
          | cons d ds =>
            simp only [List.cons_append, List.cons.injEq] at hc2
            exfalso
            have h5 : '.' ∈ ['t', 'x', 't'] := by rw [hc2.2]; simp
            revert h5; decide
      subst hu
      have h6 := List.append_cancel_left he'
      simp at h6
      exact hb' h6.1
  have rt : ∀ x : Str, '.' ∉ x → removeGo (s ".txt") 0 (x ++ s ".txt") = x := by
    intro x hx
    induction x with
    | nil => decide
    | cons c cs ih =>
      simp only [List.mem_cons, not_or] at hx
      rw [List.cons_append, removeGo, if_neg, ih hx.2]
      intro h
      rw [List.isPrefixOf_iff_prefix] at h
      obtain ⟨v, hv⟩ := h
      have : s ".txt" = '.' :: ['t', 'x', 't'] := rfl
      rw [this] at hv
      simp only [List.cons_append, List.cons.injEq] at hv
      exact hx.1 hv.1
  rw [hb]
  have e1 : remove (s ".des") (w ++ s ".txt") = w ++ s ".txt" := rtxt _ (by decide) (by decide) (by decide) w hdot
  have e2 : remove (s ".s3m") (w ++ s ".txt") = w ++ s ".txt" := rtxt _ (by decide) (by decide) (by decide) w hdot
  have e3 : remove (s ".txt") (w ++ s ".txt") = w := rt w hdot
  rw [e1, e2, e3]
  unfold splitDir
  rw [rid (s ".txt") _ (by decide) hpdot, rid (s ".des") _ (by decide) hpdot, rid (s ".s3m") _ (by decide) hpdot, ← hw]
  unfold pathJoin
  rw [if_neg, if_neg]
  · simp [s]
  · simp only [hd, false_or]
    intro h
    exact hl (List.mem_of_getLast? h)
  · intro h
    cases hw' : w with
    | nil => rw [hw'] at h; cases h
    | cons c cs =>
      rw [hw'] at h
      simp only [List.head?_cons, Option.some.injEq] at h
      exact (key c (by rw [hw']; simp)).1 h

example : splitDir (s "a_ss") (s "l7_5k") 3 = s "a_ss/l7_5k_3" := by decide +kernel

/-! ## run_moving_calc -/

/-- Without the file of the simulation, which is documented as optional, the program ends
with an exception; with it the observations and the orbits are enough. -/
theorem calc_iff (c : Cmd) : (∃ r, runCalc c = .ok (some r)) ↔
    parses c = true ∧ (c.get "--simulation_db").isSome ∧ (c.get "--orbit_file").isSome ∧ (c.get "--obs_file").isSome := by
  unfold runCalc
  cases parses c <;> cases c.get "--simulation_db" <;> cases c.get "--orbit_file" <;> cases c.get "--obs_file" <;> simp

theorem calc_optional_false : ¬ ∀ (o b : Str), ∃ r, runCalc ⟨"run_moving_calc", [("--orbit_file", o), ("--obs_file", b)]⟩ = .ok (some r) := by
  intro h
  have := (calc_iff _).mp (h [] [])
  exact absurd this.2.1 (by decide +kernel)

/-- In detail: a wrong option ends the program, as does no file of the simulation, and with it the program ends without results if the
observations or the orbits are not given. -/
theorem calc_cases (c : Cmd) : (parses c = false → runCalc c = .error .usage) ∧
    (parses c = true → c.get "--simulation_db" = none → runCalc c = .error .type) ∧
    (parses c = true → (c.get "--simulation_db").isSome → (c.get "--orbit_file" = none ∨ c.get "--obs_file" = none) → runCalc c = .ok none) ∧
    (parses c = true → (c.get "--simulation_db").isSome → ∀ o b, c.get "--orbit_file" = some o → c.get "--obs_file" = some b →
      runCalc c = .ok (some (b, (c.get "--out_dir").getD (s ".")))) := by
  unfold runCalc
  cases parses c <;> cases c.get "--simulation_db" <;> cases c.get "--orbit_file" <;> cases c.get "--obs_file" <;> simp

/-- The values of H are those by whole steps from the first that are less than one step
after the end. -/
theorem hRange_spec (d : Defaults) (a b st : Option ℚ) (hs : 0 < st.getD d.hStep) (x : ℚ) :
    x ∈ hRange d a b st ↔ ∃ k : ℕ, x = a.getD d.hMin + k * st.getD d.hStep ∧ x < b.getD d.hMax + st.getD d.hStep := by
  unfold hRange
  dsimp only
  generalize a.getD d.hMin = u at *
  generalize b.getD d.hMax = v at *
  generalize st.getD d.hStep = w at *
  rw [List.mem_iff_getElem]
  constructor
  · rintro ⟨i, hi, rfl⟩
    refine ⟨i, Slicers.arange_get u (v + w) w i hi, ?_⟩
    rw [Slicers.arange_get]
    rw [Slicers.arange_length, Int.lt_toNat, Int.lt_ceil] at hi
    rw [lt_div_iff₀ hs] at hi
    push_cast at hi
    linarith
  · rintro ⟨k, rfl, hk⟩
    refine ⟨k, ?_, Slicers.arange_get u (v + w) w k _⟩
    rw [Slicers.arange_length, Int.lt_toNat, Int.lt_ceil, lt_div_iff₀ hs]
    push_cast
    linarith

/-- If the step divides the range the values are exactly those from the first to the last. -/
theorem hRange_exact (d : Defaults) (a b st : Option ℚ) (hs : 0 < st.getD d.hStep) (n : ℕ) (h : b.getD d.hMax = a.getD d.hMin + n * st.getD d.hStep) :
    (hRange d a b st).length = n + 1 ∧ (hRange d a b st).getLast? = some (b.getD d.hMax) := by
  have hl : (hRange d a b st).length = n + 1 := by
    unfold hRange
    dsimp only
    rw [Slicers.arange_length, h]
    have : (a.getD d.hMin + n * st.getD d.hStep + st.getD d.hStep - a.getD d.hMin) / st.getD d.hStep = ((n + 1 : ℕ) : ℚ) := by
      push_cast
      field_simp
      ring
    rw [this]
    have : ⌈((n + 1 : ℕ) : ℚ)⌉ = ((n + 1 : ℕ) : ℤ) := Int.ceil_natCast _
    rw [this]
    exact Int.toNat_natCast _
  refine ⟨hl, ?_⟩
  rw [List.getLast?_eq_getElem?, hl, Nat.add_sub_cancel, List.getElem?_eq_getElem (by omega)]
  congr 1
  unfold hRange
  dsimp only
  rw [Slicers.arange_get, h]

/-- All defaults divide and have the mark within the range. -/
theorem defaults_valid : ∀ p ∈ defaults, p.2.hMin < p.2.hMark ∧ p.2.hMark < p.2.hMax ∧ 0 < p.2.hStep ∧ (∃ n ∈ List.range 200, p.2.hMax = p.2.hMin + n * p.2.hStep) ∧
    (p.2.char = "inner" ∨ p.2.char = "outer") := by decide +kernel

/-- The populations of large objects, but for the generic one, are those that are characterised as objects of the outer solar system. -/
theorem defaults_outer : ∀ p ∈ defaults, p.2.char = "outer" ↔ p.2.hMin < 14 ∧ p.1 ≠ "generic" := by decide +kernel

/-- So every type of objects, known or not, has defaults, and they have a batch. -/
theorem popDefaults_total (o : String) : ∃ d, popDefaults o = .ok d ∧ d.hMin < d.hMark ∧ d.hMark < d.hMax ∧ 0 < d.hStep ∧ ∃ b, charBatch d none = .ok b := by
  have hsome : (defaults.lookup (population o)).isSome = true := by
    unfold population
    dsimp only
    generalize (if (s "OCC").isPrefixOf _ then "LPC" else _) = q
    split
    · assumption
    · decide +kernel
  obtain ⟨d, hd⟩ := Option.isSome_iff_exists.mp hsome
  obtain ⟨k, hk⟩ : ∃ k, (k, d) ∈ defaults := by
    have : ∀ (l : List (String × Defaults)), l.lookup (population o) = some d → ∃ k, (k, d) ∈ l := by
      intro l
      induction l with
      | nil => intro h; cases h
      | cons x xs ih =>
        obtain ⟨xk, xd⟩ := x
        intro h
        rw [List.lookup_cons] at h
        split at h
        · injection h with h; subst h; exact ⟨xk, by simp⟩
        · obtain ⟨k, hk⟩ := ih h
          exact ⟨k, by simp [hk]⟩
    exact this _ hd
  have hv := defaults_valid _ hk
  refine ⟨d, by unfold popDefaults; rw [hd], hv.1, hv.2.1, hv.2.2.1, ?_⟩
  rcases hv.2.2.2.2 with h | h
  · exact ⟨"characterization_inner_batch", by unfold charBatch; simp only [Option.getD_none]; rw [h, if_pos (by decide +kernel)]⟩
  · exact ⟨"characterization_outer_batch", by unfold charBatch; simp only [Option.getD_none]; rw [h, if_neg (by decide +kernel), if_pos (by decide +kernel)]⟩

/-- A word that is neither inner nor outer ends the program. -/
theorem char_iff (d : Defaults) (c : String) : (∃ b, charBatch d (some c) = .ok b) ↔ c.toLower = "inner" ∨ c.toLower = "outer" := by
  unfold charBatch
  simp only [Option.getD_some]
  split
  · simp [*]
  · split <;> simp [*]

/-- The names of populations that are known by how they start. -/
theorem population_alias (o : String) :
    ((s "GRANVIK").isPrefixOf o.toUpper.toList = true → population o = "NEO") ∧
      ((s "L7").isPrefixOf o.toUpper.toList = true → population o = "TNO") ∧
      ((s "OCC").isPrefixOf o.toUpper.toList = true → population o = "LPC") := by
  have clash : ∀ (a b l : Str), a.isPrefixOf l = true → b.isPrefixOf l = true → a.head? ≠ none → b.head? ≠ none → a.head? = b.head? := by
    intro a b l h1 h2 h3 h4
    rw [List.isPrefixOf_iff_prefix] at h1 h2
    obtain ⟨x, rfl⟩ := h1
    obtain ⟨y, hy⟩ := h2
    cases a with
    | nil => exact absurd rfl h3
    | cons c cs =>
      cases b with
      | nil => exact absurd rfl h4
      | cons e es =>
        simp only [List.cons_append, List.cons.injEq] at hy
        simp [hy.1]
  have n1 : ∀ l : Str, (s "L7").isPrefixOf l = true → ¬ (s "GRANVIK").isPrefixOf l = true := by
    intro l h1 h2
    exact absurd (clash _ _ l h1 h2 (by decide) (by decide)) (by decide)
  have n2 : ∀ l : Str, (s "OCC").isPrefixOf l = true → ¬ (s "GRANVIK").isPrefixOf l = true := by
    intro l h1 h2
    exact absurd (clash _ _ l h1 h2 (by decide) (by decide)) (by decide)
  have n3 : ∀ l : Str, (s "OCC").isPrefixOf l = true → ¬ (s "L7").isPrefixOf l = true := by
    intro l h1 h2
    exact absurd (clash _ _ l h1 h2 (by decide) (by decide)) (by decide)
  refine ⟨?_, ?_, ?_⟩ <;> intro h <;> unfold population <;> dsimp only
  · rw [if_pos h]; decide +kernel
  · rw [if_neg (n1 _ h), if_pos h]; decide +kernel
  · rw [if_neg (n2 _ h), if_neg (n3 _ h), if_pos h]; decide +kernel

example : population "granvik_pha" = "NEO" ∧ population "Sedna" = "generic" := by decide +kernel

example : hRange ⟨16, 28, 1 / 5, 22, "asteroid", "inner"⟩ (some 27) none (some (1 / 2)) = [27, 55 / 2, 28] := by decide +kernel

/-! ## Joining -/

/-- Exactly the raw files of discovery are not joined. -/
theorem joins_iff (n : Str) : joins n = false ↔
    s "Discovery" <:+: n ∧ ¬ s "DiscoveryTime" <:+: n ∧ ¬ s "DiscoveryNChances" <:+: n ∧ ¬ s "Magic" <:+: n ∧ ¬ s "HighVelocity" <:+: n := by
  unfold joins
  split
  · split
    · simp [*]
    · split
      · simp [*]
      · split
        · simp [*]
        · split <;> simp [*]
  · simp [*]

/-- The parts are never put together: there is always an exception. -/
theorem combine_never (parts : List Part) : ∃ e, combine parts = .error e := by
  unfold combine
  split
  · exact ⟨_, rfl⟩
  · split <;> exact ⟨_, rfl⟩

/-- And bundles with other orbits, or other values of H, go through the check of the slicers. -/
theorem sameSlicer_iff (a b : Part) : sameSlicer a b = true ↔ a.h = b.h ∨ a.orbits = b.orbits := by
  unfold sameSlicer
  by_cases h1 : a.h = b.h <;> by_cases h2 : a.orbits = b.orbits <;> simp [h1, h2]

theorem sameSlicer_false : ¬ ∀ a b : Part, sameSlicer a b = true → a.h = b.h ∧ a.orbits = b.orbits := by
  intro h
  exact absurd (h ⟨[1], [1], []⟩ ⟨[1], [2], []⟩ (by decide)).2 (by decide)

private theorem join_gen (parts : List Part) (acc : List (ℚ × Bool)) (n : ℕ) (ha : acc.length = n) (hm : ∀ a ∈ acc, a.2 = false)
    (hp : ∀ p ∈ parts, p.values.length = n) :
    (parts.foldl (fun acc p => acc.zipWith (fun (a : ℚ × Bool) v => (a.1 + v.getD 0, a.2 && v.isNone)) p.values) acc).length = n ∧
    ∀ i : ℕ, (parts.foldl (fun acc p => acc.zipWith (fun (a : ℚ × Bool) v => (a.1 + v.getD 0, a.2 && v.isNone)) p.values) acc)[i]? =
      acc[i]?.map (fun a => (a.1 + (parts.map (fun p => (p.values[i]?.join).getD 0)).sum, false)) := by
  induction parts generalizing acc with
  | nil =>
    refine ⟨ha, fun i => ?_⟩
    simp only [List.foldl_nil, List.map_nil, List.sum_nil, add_zero]
    cases h : acc[i]? with
    | none => rfl
    | some a => simp [← hm a (List.mem_of_getElem? h)]
  | cons p ps ih =>
    have hpl := hp p (by simp)
    simp only [List.foldl_cons]
    obtain ⟨h1, h2⟩ := ih (acc.zipWith (fun (a : ℚ × Bool) v => (a.1 + v.getD 0, a.2 && v.isNone)) p.values) (by simp [ha, hpl])
      (by
        intro a hma
        obtain ⟨i, hi⟩ := List.mem_iff_getElem?.mp hma
        rw [List.getElem?_zipWith_eq_some] at hi
        obtain ⟨x, y, hx, _, rfl⟩ := hi
        simp [hm x (List.mem_of_getElem? hx)])
      (fun q hq => hp q (by simp [hq]))
    refine ⟨h1, fun i => ?_⟩
    rw [h2]
    by_cases hi : i < n
    · rw [List.getElem?_eq_getElem (by simp; omega), List.getElem?_eq_getElem (by omega)]
      have hv : p.values[i]? = some (p.values[i]'(by omega)) := List.getElem?_eq_getElem _
      simp [add_assoc, hv]
    · rw [List.getElem?_eq_none (by simp; omega), List.getElem?_eq_none (by omega)]
      rfl

/-- The values that it has found before that are the sums of those that are not masked, and
nothing is masked. -/
theorem joinValues_spec (n : ℕ) (parts : List Part) (hp : ∀ p ∈ parts, p.values.length = n) :
    (joinValues n parts).length = n ∧
      ∀ i < n, (joinValues n parts)[i]? = some ((parts.map (fun p => (p.values[i]?.join).getD 0)).sum, false) := by
  obtain ⟨h1, h2⟩ := join_gen parts (List.replicate n (0, false)) n (by simp) (by intro a ha; rw [List.eq_of_mem_replicate ha]) hp
  refine ⟨h1, fun i hi => ?_⟩
  have := h2 i
  rw [List.getElem?_replicate, if_pos hi] at this
  simpa [joinValues] using this

/-- The masks are not propagated, though documented. -/
theorem join_mask_false : ¬ ∀ (n : ℕ) (parts : List Part) (i : ℕ), i < n → (∀ p ∈ parts, p.values.length = n ∧ p.values[i]? = some none) →
    ∃ v, (joinValues n parts)[i]? = some (v, true) := by
  intro h
  obtain ⟨v, hv⟩ := h 1 [⟨[], [], [none]⟩] 0 (by decide) (by decide)
  rw [(joinValues_spec 1 [⟨[], [], [none]⟩] (by decide)).2 0 (by decide)] at hv
  simp at hv

example : joinValues 3 [⟨[], [], [some 1, none, some 2]⟩, ⟨[], [], [some 5, none, none]⟩] = [(6, false), (0, false), (2, false)] := by decide +kernel

/-- With the orbits given by a path from the root the base directory is not used. -/
theorem splitDir_root (b1 b2 o : Str) (i : Nat) (h : (remove (s ".s3m") (remove (s ".des") (remove (s ".txt") o))).head? = some '/') :
    splitDir b1 o i = splitDir b2 o i := by
  unfold splitDir pathJoin
  have : (remove (s ".s3m") (remove (s ".des") (remove (s ".txt") o)) ++ s "_" ++ (toString i).toList).head? = some '/' := by
    rw [List.append_assoc, List.head?_append, h]; rfl
  rw [if_pos this, if_pos this]

/-! ## run_moving_fractions -/

/-- Six times a year, and one more, from the start to the end of the last year. -/
theorem times_spec (n : ℕ) (start : ℚ) : times n start = (List.range (6 * n + 1)).map (fun k : ℕ => start + k * (365 / 6)) := by
  have hl : (Slicers.arange (0 : ℚ) ((n : ℚ) * 365 + 365 / 6 / 2) (365 / 6)).length = 6 * n + 1 := by
    rw [Slicers.arange_length]
    have : ((n : ℚ) * 365 + 365 / 6 / 2 - 0) / (365 / 6) = (6 * n : ℕ) + 1 / 2 := by
      push_cast; ring
    rw [this]
    have : ⌈((6 * n : ℕ) : ℚ) + 1 / 2⌉ = ((6 * n + 1 : ℕ) : ℤ) := by
      rw [Int.ceil_eq_iff]
      push_cast
      constructor <;> linarith
    rw [this]
    exact Int.toNat_natCast _
  unfold times
  dsimp only
  apply List.ext_getElem
  · simp [hl]
  · intro i h1 h2
    rw [List.getElem_map, Slicers.arange_get]
    simp
    ring

theorem times_ends (n : ℕ) (start : ℚ) : (times n start).head? = some start ∧ (times n start).getLast? = some (start + n * 365) := by
  rw [times_spec]
  constructor
  · rw [List.range_succ_eq_map]; simp
  · rw [List.range_succ]
    simp
    ring

/-- The files that are read: those that have the word before the end of their name. -/
theorem selected_iff (m n : Str) : selected (some m) n = true ↔ ∃ a b, n = a ++ m ++ b ++ s "MOOB.npz" := by
  have hlen : (s "MOOB.npz").length = 8 := by decide
  unfold selected
  simp only [Bool.and_eq_true, decide_eq_true_eq, List.isSuffixOf_iff_suffix]
  constructor
  · rintro ⟨⟨t, rfl⟩, a, b, h⟩
    rw [List.length_append, hlen, Nat.add_sub_cancel, List.take_left] at h
    exact ⟨a, b, by rw [h]⟩
  · rintro ⟨a, b, rfl⟩
    refine ⟨⟨_, rfl⟩, a, b, ?_⟩
    rw [List.length_append (bs := s "MOOB.npz"), hlen, Nat.add_sub_cancel, List.take_left]

/-- With a word given to choose, only files that are read without one are read. -/
theorem selected_sub (m n : Str) (h : selected (some m) n = true) : selected none n = true := by
  unfold selected at *
  simp only [Bool.and_eq_true] at h
  exact h.1

/-- Nothing to read is an exception, and all figures have the word None if none is given. -/
theorem figroot_spec (m : Option Str) (runs : List Str) :
    (runs = [] ↔ figroot m runs = .error .index) ∧ (∀ r rs, runs = r :: rs → m = none → figroot m runs = .ok (r ++ s "_None")) := by
  unfold figroot
  constructor
  · cases runs <;> simp
  · rintro r rs rfl rfl
    simp [s]

example : selected (some (s "NEO")) (s "run_DiscoveryTime_NEO_MOOB.npz") = true ∧ selected (some (s "MOOB")) (s "x_MOOB.npz") = false := by decide +kernel

/-! ## Marks -/

/-- The mark of the completeness of a bundle is what is documented. -/
theorem compMark_spec (g : Option ℚ) (b : B) :
    (∀ v, g = some v → compMark g b = some v) ∧ (∀ v, g = none → b.mark = some (some v) → compMark g b = some v) ∧
      (g = none → (b.mark = none ∨ b.mark = some none) → compMark g b = Area.median b.h) := by
  unfold compMark
  refine ⟨?_, ?_, ?_⟩
  · rintro v rfl; rfl
  · rintro v rfl h; simp [h]
  · rintro rfl (h | h) <;> simp [h]

/-- The mark of the fractions of a bundle that is the only one. -/
theorem fracMarks_single_partial (b : B) (v lo : ℚ) (h : b.mark = some (some v)) (hl : b.h.min? = some lo) :
    fracMarks none [b] = .ok [max (v - 2) lo] := by
  simp only [fracMarks, fracStep, h, hl]
  have : (if v - 2 < lo then lo else v - 2) = max (v - 2) lo := by
    rcases lt_or_ge (v - 2) lo with h | h
    · rw [if_pos h, max_eq_right h.le]
    · rw [if_neg (not_lt.mpr h), max_eq_left h]
  simp [this]

/-- The marks of the fractions never fall from one bundle to the next, and are those of the first
raised to the lowest values of H. -/
theorem fracMarks_kept (v : ℚ) (bs : List B) (vs : List ℚ) (h : fracMarks (some v) bs = .ok vs) :
    vs.length = bs.length ∧ ∀ (i : ℕ) (x : ℚ), vs[i]? = some x →
      (v ≤ x ∧ ∀ b ∈ bs.take (i + 1), ∀ lo, b.h.min? = some lo → lo ≤ x) ∧ (x = v ∨ ∃ b ∈ bs.take (i + 1), b.h.min? = some x) := by
  induction bs generalizing v vs with
  | nil =>
    simp only [fracMarks, Except.ok.injEq] at h
    subst h
    exact ⟨rfl, by intro i x hx; simp at hx⟩
  | cons b bs ih =>
    rw [fracMarks] at h
    split at h
    · cases h
    · rename_i w hw
      have hstep : ∃ lo, b.h.min? = some lo ∧ w = max v lo := by
        unfold fracStep at hw
        dsimp only at hw
        cases hmin : b.h.min? with
        | none =>
          rw [hmin] at hw
          simp at hw
        | some lo =>
          rw [hmin] at hw
          refine ⟨lo, rfl, ?_⟩
          simp only [Option.orElse_some, Except.ok.injEq] at hw
          rw [← hw]
          rcases lt_or_ge v lo with h | h
          · rw [if_pos h, max_eq_right h.le]
          · rw [if_neg (not_lt.mpr h), max_eq_left h]
      obtain ⟨lo, hlo, rfl⟩ := hstep
      split at h
      · cases h
      · rename_i ws hws
        injection h with h
        subst h
        obtain ⟨h1, h2⟩ := ih _ _ hws
        refine ⟨by simp [h1], ?_⟩
        intro i x hx
        cases i with
        | zero =>
          simp only [List.getElem?_cons_zero, Option.some.injEq] at hx
          subst hx
          refine ⟨⟨le_max_left _ _, ?_⟩, ?_⟩
          · intro b' hb' lo' hlo'
            simp at hb'
            subst hb'
            rw [hlo] at hlo'
            injection hlo' with e
            rw [← e]; exact le_max_right _ _
          · rcases max_choice v lo with h | h
            · exact Or.inl h
            · exact Or.inr ⟨b, by simp, by rw [h, hlo]⟩
        | succ i =>
          rw [List.getElem?_cons_succ] at hx
          obtain ⟨⟨g1, g2⟩, g3⟩ := h2 i x hx
          refine ⟨⟨le_trans (le_max_left _ _) g1, ?_⟩, ?_⟩
          · intro b' hb' lo' hlo'
            rw [List.take_succ_cons, List.mem_cons] at hb'
            rcases hb' with rfl | hb'
            · rw [hlo] at hlo'
              injection hlo' with e
              rw [← e]; exact le_trans (le_max_right _ _) g1
            · exact g2 b' hb' lo' hlo'
          · rcases g3 with rfl | ⟨b', hb', hx'⟩
            · rcases max_choice v lo with h | h
              · exact Or.inl h
              · exact Or.inr ⟨b, by simp, by rw [h, hlo]⟩
            · exact Or.inr ⟨b', by rw [List.take_succ_cons]; exact List.mem_cons_of_mem _ hb', hx'⟩

/-- It is not the mark of each bundle. -/
theorem fracMarks_false : ¬ ∀ (bs : List B) (vs : List ℚ), fracMarks none bs = .ok vs → ∀ (i : ℕ) (b : B) (v lo : ℚ), bs[i]? = some b →
    b.mark = some (some v) → b.h.min? = some lo → vs[i]? = some (max (v - 2) lo) := by
  intro h
  have := h [⟨some (some 22), [16, 28]⟩, ⟨some (some 8), [4, 12]⟩] [20, 20] (by decide +kernel) 1 _ 8 4 rfl rfl (by decide +kernel)
  exact absurd this (by decide +kernel)

/-- A mark that is there but None, as the batches give when the user does, ends the summary. -/
theorem fracMarks_none (b : B) (bs : List B) (h : b.mark = some none) : fracMarks none (b :: bs) = .error .type := by
  simp [fracMarks, fracStep, h]

/-- Which metrics have a completeness. -/
theorem compKind_iff (n : Str) : compKind n ≠ none ↔
    (s "Discovery" <:+: n ∧ (s "Time" <:+: n ∨ s "NChances" <:+: n ∨ s "N_Chances" <:+: n ∨ s "MagicDiscovery" <:+: n)) ∨ s "HighVelocity" <:+: n := by
  have hmd : s "MagicDiscovery" <:+: n → s "Discovery" <:+: n := fun h => List.IsInfix.trans ⟨s "Magic", [], by decide⟩ h
  unfold compKind
  by_cases h1 : s "Discovery" <:+: n <;> by_cases h2 : s "MagicDiscovery" <:+: n <;> by_cases h3 : s "HighVelocity" <:+: n <;>
    by_cases h4 : s "Time" <:+: n <;> by_cases h5 : s "NChances" <:+: n <;> by_cases h6 : s "N_Chances" <:+: n <;>
    simp [h1, h2, h3, h4, h5, h6] <;> exact absurd (hmd h2) h1

/-- Those with times have one at each time, the others one at each H. -/
theorem compKind_kind (n : Str) : (compKind n = some "time" ↔ (s "Discovery" <:+: n ∨ s "HighVelocity" <:+: n) ∧ s "Time" <:+: n) ∧
    (compKind n ≠ none → ¬ s "Time" <:+: n → compKind n = some "h") := by
  have hmd : s "MagicDiscovery" <:+: n → s "Discovery" <:+: n := fun h => List.IsInfix.trans ⟨s "Magic", [], by decide⟩ h
  unfold compKind
  by_cases h1 : s "Discovery" <:+: n <;> by_cases h2 : s "MagicDiscovery" <:+: n <;> by_cases h3 : s "HighVelocity" <:+: n <;>
    by_cases h4 : s "Time" <:+: n <;> by_cases h5 : s "NChances" <:+: n <;> by_cases h6 : s "N_Chances" <:+: n <;>
    simp [h1, h2, h3, h4, h5, h6] <;> exact absurd (hmd h2) h1

example : compKind (s "DiscoveryTime") = some "time" ∧ compKind (s "HighVelocity") = some "h" ∧ compKind (s "Discovery") = none := by decide +kernel

example : fracMarks none [⟨none, [16, 20, 28]⟩, ⟨some (some 8), [19]⟩] = .ok [18, 19] := by decide +kernel

end Verif.SsPipe
