import Verif.Model.SedCache
import Verif.Model.Hourglass
import Verif.Props.BaseMetric
import Mathlib.Analysis.SpecialFunctions.Log.Base
import Mathlib.Data.Rat.Floor
import Mathlib.Tactic.Linarith
import Mathlib.Tactic.FieldSimp
import Mathlib.Tactic.Ring
import Mathlib.Tactic.NormNum

/-!
# Properties of the cache of spectra, of comparisons of spectra, and of stellar templates
-/

namespace Verif.SedCache

open SsPipe (s)
open Tools (pySplit splitGo)
open BaseM (put lookup_put)

variable {D : Type}

/-! ## Specification of paths -/

/-- The path of a file of the library. -/
def path (root sub rel n : Str) : Str := root ++ '/' :: (sub ++ rel ++ '/' :: n)

/-- A compressed file of the library below one of the given sub directories. -/
def InLib (lib : Lib D) (root : Str) (subs : List Str) (f : Str) : Prop :=
  ∃ sub ∈ subs, ∃ e ∈ lib.below sub, ∃ n ∈ e.2, ['.', 'g', 'z'] <:+ n ∧ f = path root sub e.1 n

/-- The root of the library does not end with a slash, directories neither, and names of files have no slash. -/
structure Tidy (lib : Lib D) (root : Str) : Prop where
  root_ne : root ≠ []
  root_end : root.getLast? ≠ some '/'
  dirs : ∀ sub, ∀ e ∈ lib.below sub, e.1.getLast? ≠ some '/'
  files : ∀ sub, ∀ e ∈ lib.below sub, ∀ n ∈ e.2, '/' ∉ n

private theorem join_sub {root sub : Str} (h1 : root ≠ []) (h2 : root.getLast? ≠ some '/') (h3 : sub.head? ≠ some '/') :
    join root sub = root ++ '/' :: sub := by
  rw [join, if_neg h3, if_neg (by simp [h1, h2])]

private theorem all_head : ∀ sub ∈ allDirs, sub.head? ≠ some '/' ∧ sub.getLast? ≠ some '/' ∧ sub ≠ [] := by decide

private theorem checked_sub : ∀ sub ∈ checkedDirs, sub ∈ allDirs := by decide

private theorem join_file {lib : Lib D} {root : Str} (hT : Tidy lib root) {sub : Str} (hs : sub ∈ allDirs) {e : Str × List Str}
    (he : e ∈ lib.below sub) {n : Str} (hn : n ∈ e.2) : join (join root sub ++ e.1) n = path root sub e.1 n := by
  obtain ⟨h1, h2, h3⟩ := all_head sub hs
  rw [join_sub hT.root_ne hT.root_end h1, join, if_neg, if_neg]
  · simp [path]
  · rintro (h | h)
    · simp at h
    · have hd := hT.dirs sub e he
      rcases List.eq_nil_or_concat e.1 with he' | ⟨a, b, he'⟩
      · rw [he', List.append_nil, List.getLast?_append_of_ne_nil _ (by simp), List.getLast?_cons] at h
        rcases List.eq_nil_or_concat sub with h' | ⟨a, b, h'⟩
        · exact h3 h'
        · rw [h'] at h h2
          simp at h h2
          exact h2 h
      · rw [he'] at h hd
        simp at hd
        simp [← List.append_assoc] at h
        exact hd h
  · intro h
    have : '/' ∈ n := List.mem_of_mem_head? (by rw [h]; rfl)
    exact hT.files sub e he n hn this

private theorem mem_files {lib : Lib D} {root : Str} (hT : Tidy lib root) (f : Str) : f ∈ genFiles lib root ↔ InLib lib root allDirs f := by
  unfold genFiles InLib walk
  simp only [List.mem_flatMap, List.mem_map, List.mem_filter]
  constructor
  · rintro ⟨sub, hs, _, ⟨e, he, rfl⟩, n, ⟨hn, hg⟩, rfl⟩
    refine ⟨sub, hs, e, he, n, hn, ?_, join_file hT hs he hn⟩
    simpa [isGz, s] using hg
  · rintro ⟨sub, hs, e, he, n, hn, hg, rfl⟩
    exact ⟨sub, hs, _, ⟨e, he, rfl⟩, n, ⟨hn, by simpa [isGz, s] using hg⟩, join_file hT hs he hn⟩

private theorem lookup_fold (lib : Lib D) (t : Nat) (f : Str) : ∀ (l : List Str) (acc : List (Str × D)),
    (l.foldl (fun c f => (loadOne lib t c f).1) acc).lookup f = if f ∈ l then (lib.read f).or (acc.lookup f) else acc.lookup f
  | [], acc => by simp
  | x :: l, acc => by
    rw [List.foldl_cons, lookup_fold lib t f l]
    have hx : (loadOne lib t acc x).1 = match lib.read x with | none => acc | some d => put acc x d := by
      unfold loadOne
      cases lib.read x with
      | none => rfl
      | some d => dsimp only; split_ifs <;> rfl
    rw [hx]
    by_cases hfx : f = x
    · subst hfx
      cases hr : lib.read f with
      | none => simp
      | some d =>
        simp only [List.mem_cons, true_or, if_true]
        rw [lookup_put]
        simp
    · cases hr : lib.read x with
      | none => simp [hfx]
      | some d =>
        dsimp only
        rw [lookup_put, if_neg hfx]
        simp [hfx]

/-- C515: the cache that is generated has exactly the compressed files of the five sub directories that can be read, each under
its full path with its content, however few files there are. -/
theorem generate_lookup (lib : Lib D) (root : Str) (hT : Tidy lib root) (f : Str) (d : D) :
    (generate lib root).lookup f = some d ↔
      lib.read f = some d ∧ InLib lib root [s "agnSED", s "flatSED", s "ssmSED", s "starSED", s "galaxySED"] f := by
  rw [generate, lookup_fold]
  have hm := mem_files hT f
  by_cases h : f ∈ genFiles lib root
  · rw [if_pos h]
    have := hm.1 h
    simp only [List.lookup_nil, Option.or_none]
    exact ⟨fun h => ⟨h, this⟩, fun h => h.1⟩
  · rw [if_neg h]
    simp only [List.lookup_nil, reduceCtorEq, false_iff, not_and]
    exact fun _ h' => h (hm.2 h')

/-! ## Validation -/

private theorem mem_checked {lib : Lib D} {root : Str} (hT : Tidy lib root) (ha : root.head? = some '/') (f : Str) :
    f ∈ checkedFiles lib root ↔ InLib lib root checkedDirs f := by
  have hj : ∀ (a : Str) {sub : Str} (_ : sub ∈ allDirs) (r : Str), join a (join root sub ++ r) = join root sub ++ r := by
    intro a sub hs r
    rw [join, if_pos]
    rw [join_sub hT.root_ne hT.root_end (all_head sub hs).1]
    cases root with
    | nil => cases ha
    | cons c cs => simpa using ha
  unfold checkedFiles InLib walk
  simp only [List.mem_flatMap, List.mem_map, List.mem_filter]
  constructor
  · rintro ⟨sub, hs, _, ⟨e, he, rfl⟩, n, ⟨hn, hg⟩, rfl⟩
    have hs' := checked_sub sub hs
    refine ⟨sub, hs, e, he, n, hn, by simpa [isGz, s] using hg, ?_⟩
    dsimp only
    rw [hj _ hs', join_file hT hs' he hn]
  · rintro ⟨sub, hs, e, he, n, hn, hg, rfl⟩
    have hs' := checked_sub sub hs
    refine ⟨sub, hs, _, ⟨e, he, rfl⟩, n, ⟨hn, by simpa [isGz, s] using hg⟩, ?_⟩
    dsimp only
    rw [hj _ hs', join_file hT hs' he hn]

private theorem validate_iff' (lib : Lib D) (root : Str) (c : List (Str × D)) :
    validate lib root (.dict c) = .ok () ↔
      (∃ f, f ∈ checkedFiles lib root) ∧ ∀ f ∈ checkedFiles lib root, ∃ d, c.lookup f = some d := by
  rw [show validate lib root (.dict c) = if (checkedFiles lib root).any (fun f => (c.lookup f).isNone) then .error .cache
    else if (checkedFiles lib root).length = 0 then .error .cache else .ok () from rfl]
  by_cases h1 : (checkedFiles lib root).any (fun f => (c.lookup f).isNone) = true
  · rw [if_pos h1]
    simp only [reduceCtorEq, false_iff]
    rintro ⟨-, h⟩
    obtain ⟨f, hf, hn⟩ := List.any_eq_true.mp h1
    obtain ⟨d, hd⟩ := h f hf
    rw [hd] at hn
    exact absurd hn (by simp)
  · rw [if_neg h1]
    have hall : ∀ f ∈ checkedFiles lib root, ∃ d, c.lookup f = some d := by
      intro f hf
      cases hl : c.lookup f with
      | some d => exact ⟨d, rfl⟩
      | none => exact absurd (List.any_eq_true.mpr ⟨f, hf, by simp [hl]⟩) h1
    by_cases h2 : (checkedFiles lib root).length = 0
    · rw [if_pos h2]
      simp only [reduceCtorEq, false_iff]
      rintro ⟨⟨f, hf⟩, -⟩
      rw [List.length_eq_zero_iff] at h2
      rw [h2] at hf
      cases hf
    · rw [if_neg h2]
      simp only [true_iff]
      refine ⟨?_, hall⟩
      cases hc : checkedFiles lib root with
      | nil => rw [hc] at h2; exact absurd rfl h2
      | cons f l => exact ⟨f, by simp⟩

/-- C516, with an absolute path: a dictionary is accepted exactly when there is a compressed file of a star or a galaxy and all of
them are in it. -/
theorem validate_partial (lib : Lib D) (root : Str) (hT : Tidy lib root) (ha : root.head? = some '/') (c : List (Str × D)) :
    validate lib root (.dict c) = .ok () ↔
      (∃ f, InLib lib root [s "galaxySED", s "starSED"] f) ∧ ∀ f, InLib lib root [s "galaxySED", s "starSED"] f → ∃ d, c.lookup f = some d := by
  rw [validate_iff']
  exact and_congr (exists_congr fun f => mem_checked hT ha f) (forall_congr' fun f => imp_congr (mem_checked hT ha f) Iff.rfl)

/-- C516, with an absolute path: the cache that was just generated is accepted exactly when there is a compressed file of a star or a
galaxy and all of them can be read. -/
theorem fresh_valid_partial (lib : Lib D) (root : Str) (hT : Tidy lib root) (ha : root.head? = some '/') :
    validate lib root (.dict (generate lib root)) = .ok () ↔
      (∃ f, InLib lib root [s "galaxySED", s "starSED"] f) ∧ ∀ f, InLib lib root [s "galaxySED", s "starSED"] f → ∃ d, lib.read f = some d := by
  rw [validate_partial lib root hT ha]
  refine and_congr Iff.rfl (forall_congr' fun f => forall_congr' fun hf => exists_congr fun d => ?_)
  rw [generate_lookup lib root hT]
  constructor
  · exact fun h => h.1
  · intro h
    refine ⟨h, ?_⟩
    obtain ⟨sub, hs, r⟩ := hf
    exact ⟨sub, checked_sub sub hs, r⟩

/-- A library with five stars and one active galaxy. -/
def demo (agn : Int) : Lib (List (Int × Int)) where
  below sub := if sub = s "starSED" then [(s "/kurucz", [s "a.gz", s "b.gz", s "c.gz", s "d.gz", s "e.gz"])]
    else if sub = s "agnSED" then [([], [s "agn.gz", s "README"])] else []
  read f := if (s "agn.gz").isSuffixOf f then some [(500, agn)] else if isGz f then some [(300, 1), (600, 2), (900, 3)] else none
  kurucz := some [s "a.gz", s "b.gz", s "c.gz", s "d.gz", s "e.gz"]

example : (generate (demo 7) (s "/d")).lookup (s "/d/agnSED/agn.gz") = some [(500, 7)] ∧
    (generate (demo 7) (s "/d")).lookup (s "/d/starSED/kurucz/c.gz") = some [(300, 1), (600, 2), (900, 3)] ∧
    (generate (demo 7) (s "/d")).length = 6 ∧ totalFiles (demo 7) (s "/d") = 6 := by decide +kernel

example : validate (demo 7) (s "/d") (.dict (generate (demo 7) (s "/d"))) = .ok () := by decide +kernel

private theorem demo_tidy (a : Int) (root : Str) (h1 : root ≠ []) (h2 : root.getLast? ≠ some '/') : Tidy (demo a) root := by
  refine ⟨h1, h2, ?_, ?_⟩
  · intro sub e he
    simp only [demo] at he
    split_ifs at he
    · simp only [List.mem_singleton] at he; subst he; decide
    · simp only [List.mem_singleton] at he; subst he; decide
    · cases he
  · intro sub e he
    simp only [demo] at he
    split_ifs at he
    · simp only [List.mem_singleton] at he; subst he; decide
    · simp only [List.mem_singleton] at he; subst he; decide
    · cases he

/-- C516 fails for a data directory that is given by a relative path: the cache that was just generated is refused although every file
can be read. -/
theorem fresh_valid_false : ¬ ∀ (lib : Lib (List (Int × Int))) (root : Str), Tidy lib root →
    (validate lib root (.dict (generate lib root)) = .ok () ↔
      (∃ f, InLib lib root [s "galaxySED", s "starSED"] f) ∧ ∀ f, InLib lib root [s "galaxySED", s "starSED"] f → ∃ d, lib.read f = some d) := by
  intro h
  have h' := (h (demo 7) (s "d") (demo_tidy 7 _ (by decide) (by decide))).2 ⟨⟨s "d/starSED/kurucz/a.gz", s "starSED", by decide,
    (s "/kurucz", [s "a.gz", s "b.gz", s "c.gz", s "d.gz", s "e.gz"]), by decide, s "a.gz", by decide, by decide, by decide⟩, ?_⟩
  · revert h'
    decide +kernel
  · rintro f ⟨sub, -, e, -, n, -, hg, rfl⟩
    have hgz : isGz (path (s "d") sub e.1 n) = true := by
      have : ['.', 'g', 'z'] <:+ path (s "d") sub e.1 n := by
        refine hg.trans ?_
        unfold path
        exact ⟨s "d" ++ '/' :: (sub ++ e.1 ++ ['/']), by simp⟩
      simpa [isGz, s] using this
    simp only [demo, hgz, if_true]
    split_ifs
    · exact ⟨_, rfl⟩
    · exact ⟨_, rfl⟩

/-! ## What happens when the checks fail -/

section run

variable {K : Type} [LinearOrder K] [Zero K]

/-- C517 as the code is: when the cache is refused by the checks, the call ends with an `AttributeError` and the cache that was refused
stays in place. -/
theorem refused (multi : Str) (lib : Lib (List (K × K))) (root : Str) (lo hi : Option K) (disk : Disk (List (K × K)))
    (g : Global (List (K × K))) (hd : disk.dir = true ∨ disk.parent = true) (hm : mustGenerate disk root = true)
    (hv : checks lib root (.dict (generate lib root)) = .error .cache) :
    (cacheSeds multi lib root lo hi disk g).2 = some .attribute ∧
    (cacheSeds multi lib root lo hi disk g).1.2 = .dict (generate lib root) := by
  have hm' : mustGenerate { disk with dir := true } root = true := hm
  have hc : (!disk.dir && !disk.parent) = false := by rcases hd with h | h <;> simp [h]
  unfold cacheSeds
  rw [hc]
  simp only [Bool.false_eq_true, if_false, obtain', hm', if_true, hv, and_self]

/-- C517: it is not so that, when the checks fail, there is no cache and the program goes on. -/
theorem refused_false : ¬ ∀ (lib : Lib (List (Int × Int))) (root : Str) (disk : Disk (List (Int × Int))) (g : Global (List (Int × Int))),
    disk.dir = true → mustGenerate disk root = true → checks lib root (.dict (generate lib root)) = .error .cache →
    (cacheSeds (s "numpy.core.multiarray") lib root none none disk g).1.2 = .none ∧
    (cacheSeds (s "numpy.core.multiarray") lib root none none disk g).2 = none := by
  intro h
  have hm : mustGenerate (⟨true, true, none, none⟩ : Disk (List (Int × Int))) (s "d") = true := by decide
  have hc : checks (demo 7) (s "d") (.dict (generate (demo 7) (s "d"))) = .error .cache := by decide +kernel
  have h1 := (h (demo 7) (s "d") ⟨true, true, none, none⟩ .none rfl hm hc).2
  have h2 := (refused (s "numpy.core.multiarray") (demo 7) (s "d") none none ⟨true, true, none, none⟩ .none (Or.inl rfl) hm hc).1
  rw [h1] at h2
  cases h2

/-! ## Reuse of the cache -/

private theorem split_clean (x : Str) : ∀ w ∈ x.splitOnP isWs, ∀ c ∈ w, isWs c = false := by
  induction x with
  | nil => simp
  | cons c x ih =>
    rw [List.splitOnP_cons_eq_if_modifyHead]
    split_ifs with h
    · simpa using ih
    · cases hx : x.splitOnP isWs with
      | nil => exact absurd hx (List.splitOnP_ne_nil _ _)
      | cons w ws =>
        rw [hx] at ih
        intro v hv
        simp only [List.modifyHead_cons, List.mem_cons] at hv
        rcases hv with rfl | hv
        · intro a ha
          rcases List.mem_cons.mp ha with rfl | ha
          · simpa using h
          · exact ih w (by simp) a ha
        · exact ih v (by simp [hv])

private theorem name_clean : ∀ c ∈ cacheName, isWs c = false := by decide

private theorem count_nl (root : Str) (h : ∀ c ∈ root, c.isWhitespace = false) : nLines (root ++ ' ' :: cacheName) = 1 := by
  have h1 : (root ++ ' ' :: cacheName).count '\n' = 0 := by
    rw [List.count_eq_zero]
    intro hm
    rcases List.mem_append.mp hm with hm | hm
    · have := h _ hm
      revert this; decide
    · revert hm; decide
  have h2 : (root ++ ' ' :: cacheName).getLast? = some 'p' := by
    rw [List.getLast?_append_of_ne_nil _ (by simp)]
    decide
  rw [nLines, h1, if_neg]
  simp only [List.append_eq_nil_iff, reduceCtorEq, and_false, h2, Option.some.injEq, false_or]
  decide

/-- C518 as the code is: after a cache was written the next call uses it exactly when the path of the library has no white space. -/
theorem reuse_iff (multi : Str) (disk : Disk D) (root : Str) (c : List (Str × D)) :
    mustGenerate (written multi disk root c) root = false ↔ root ≠ [] ∧ ∀ ch ∈ root, ch.isWhitespace = false := by
  have hw : words (root ++ ' ' :: cacheName) = words root ++ [cacheName] := by
    unfold words
    rw [List.splitOnP_append_cons root cacheName (sep := ' ') (by decide), List.filter_append, List.splitOnP_eq_singleton name_clean]
    rfl
  unfold mustGenerate written
  simp only [Option.isNone_some, Bool.false_or]
  constructor
  · intro h
    split_ifs at h with hn
    rw [hw] at h
    split at h
    · rename_i a b hab
      split_ifs at h with har
      push Not at har
      subst har
      cases hr : words a with
      | nil => rw [hr] at hab; simp at hab
      | cons u us =>
        rw [hr] at hab
        simp only [List.cons_append, List.cons.injEq] at hab
        have hmem : u ∈ words a := by rw [hr]; simp
        rw [hab.1] at hmem
        unfold words at hmem
        rw [List.mem_filter] at hmem
        exact ⟨by simpa using hmem.2, split_clean _ _ hmem.1⟩
    · cases h
  · rintro ⟨h1, h2⟩
    have hr : words root = [root] := by
      unfold words
      rw [List.splitOnP_eq_singleton (p := isWs) h2]
      simp [h1]
    rw [if_neg (by simp [count_nl root h2]), hw, hr]
    simp

/-- C518: the file is used exactly if it is there and there is a list of versions with one line of two words, the path of the library and the name of the file. -/
theorem reuse_exact (disk : Disk D) (root : Str) :
    mustGenerate disk root = false ↔ disk.pickle ≠ none ∧ ∃ text, disk.version = some text ∧
      text.count '\n' + (if text = [] ∨ text.getLast? = some '\n' then 0 else 1) = 1 ∧
      (text.splitOnP (fun c => c.isWhitespace)).filter (fun w => decide (w ≠ [])) = [root, s "lsst_sed_cache_3.p"] := by
  unfold mustGenerate
  cases hp : disk.pickle with
  | none => simp
  | some p =>
    simp only [Option.isNone_some, Bool.false_or]
    cases hv : disk.version with
    | none => simp
    | some text =>
      simp only [Option.some.injEq, exists_eq_left', ne_eq, reduceCtorEq, not_false_eq_true, true_and]
      change (if ¬ nLines text = 1 then true else _) = false ↔ nLines text = 1 ∧ words text = [root, cacheName]
      by_cases hn : nLines text = 1
      · rw [if_neg (by simp [hn])]
        simp only [hn, true_and]
        split
        · rename_i a b hab
          rw [hab]
          by_cases ha : a = root <;> simp [ha]
        · rename_i hab
          constructor
          · intro h; cases h
          · intro h; exact absurd h (hab root cacheName)
      · rw [if_pos hn]
        simp [hn]

/-- C518: the next call does not always use the cache. -/
theorem reuse_false : ¬ ∀ (disk : Disk D) (root : Str) (c : List (Str × D)), root ≠ [] →
    mustGenerate (written (s "numpy.core.multiarray") disk root c) root = false := by
  intro h
  have h1 := ((reuse_iff (D := D) _ ⟨true, true, none, none⟩ (s "/my data") []).1 (h _ _ _ (by decide))).2 ' ' (by decide)
  revert h1
  decide

example : mustGenerate (written (s "numpy.core.multiarray") (⟨true, true, none, none⟩ : Disk Int) (s "/d") []) (s "/d") = false := by decide

/-! ## Pickles -/

/-- C519: an object is found exactly when it is one of three, and it is the one that is named. -/
theorem find_class (m n : Str) (v : Str × Str) :
    findClass m n = .ok v ↔ v = (m, n) ∧ ((m, n) = (s "numpy", s "ndarray") ∨ (m, n) = (s "numpy", s "dtype") ∨
      (m, n) = (s "numpy.core.multiarray", s "_reconstruct")) := by
  have hne : s "numpy" ≠ s "numpy.core.multiarray" := by decide
  have hne' : s "dtype" ≠ s "ndarray" := by decide
  have hd : (allowedObj.any (fun a => decide (m = a.1 ∧ n = a.2)) = true) ↔ ((m, n) = (s "numpy", s "ndarray") ∨ (m, n) = (s "numpy", s "dtype") ∨
      (m, n) = (s "numpy.core.multiarray", s "_reconstruct")) := by
    simp only [allowedObj, List.any_cons, List.any_nil, Bool.or_false, Bool.or_eq_true, decide_eq_true_eq, Prod.mk.injEq]
  unfold findClass
  by_cases h : allowedObj.any (fun a => decide (m = a.1 ∧ n = a.2)) = true
  · rw [if_pos h]
    have h' := hd.1 h
    have : (if m = s "numpy" then if n = s "ndarray" then Except.ok (m, n) else if n = s "dtype" then .ok (m, n) else .error Err.runtime
        else if m = s "numpy.core.multiarray" then .ok (m, n) else .error .runtime) = Except.ok (m, n) := by
      simp only [Prod.mk.injEq] at h'
      rcases h' with ⟨h1, h2⟩ | ⟨h1, h2⟩ | ⟨h1, h2⟩
      · rw [if_pos h1, if_pos h2]
      · rw [if_pos h1, if_neg (by rw [h2]; exact hne'), if_pos h2]
      · rw [if_neg (by rw [h1]; exact hne.symm), if_pos h1]
    rw [this]
    simp only [Except.ok.injEq, h', and_true]
    exact eq_comm
  · rw [if_neg h]
    simp only [reduceCtorEq, false_iff, not_and]
    exact fun _ h' => h (hd.2 h')

/-- C519: any other object is refused with a `RuntimeError`, and so is a pickle that names one. -/
theorem load_refused (p : Pickle D) (m n : Str) (h : (m, n) ∈ p.classes)
    (hn : (m, n) ∉ [(s "numpy", s "ndarray"), (s "numpy", s "dtype"), (s "numpy.core.multiarray", s "_reconstruct")]) :
    load p = .error .runtime := by
  unfold load
  rw [if_neg]
  intro hall
  have := List.all_eq_true.mp hall _ h
  unfold found at this
  dsimp only at this
  cases hf : findClass m n with
  | ok v =>
    have := ((find_class m n v).1 hf).2
    exact hn (by simpa using this)
  | error e => rw [hf] at this; exact absurd this (by simp)

/-- C519 as the code is: a pickle that the code has written can be loaded exactly when `_reconstruct` belongs to
`numpy.core.multiarray`. -/
theorem load_written (multi : Str) (g : Global D) : load ⟨npClasses multi, g⟩ = .ok g ↔ multi = s "numpy.core.multiarray" := by
  constructor
  · intro h
    by_contra hne
    rw [load_refused _ multi (s "_reconstruct") (by simp [npClasses])] at h
    · cases h
    · have h1 : s "_reconstruct" ≠ s "ndarray" := by decide
      have h2 : s "_reconstruct" ≠ s "dtype" := by decide
      simp [h1, h2, hne]
  · rintro rfl
    have : (npClasses (s "numpy.core.multiarray")).all found = true := by decide
    simp only [load, this, if_true]

/-- C519: with numpy 2 the second call fails on the file that the first has written. -/
theorem second_call (lib lib' : Lib (List (K × K))) (root : Str) (lo hi : Option K) (disk : Disk (List (K × K)))
    (g : Global (List (K × K))) (h1 : root ≠ []) (h2 : ∀ ch ∈ root, ch.isWhitespace = false) :
    (cacheSeds (s "numpy._core.multiarray") lib' root lo hi
      (written (s "numpy._core.multiarray") { disk with dir := true } root (generate lib root)) g).2 = some .runtime := by
  have hm := (reuse_iff (s "numpy._core.multiarray") { disk with dir := true } root (generate lib root)).2 ⟨h1, h2⟩
  unfold cacheSeds
  rw [if_neg (by simp [written])]
  have hm' : mustGenerate { written (s "numpy._core.multiarray") { disk with dir := true } root (generate lib root) with dir := true } root = false := hm
  have hl : load (⟨npClasses (s "numpy._core.multiarray"), .dict (generate lib root)⟩ : Pickle (List (K × K))) = .error .runtime :=
    load_refused _ (s "numpy._core.multiarray") (s "_reconstruct") (by simp [npClasses]) (by decide)
  simp only [obtain', hm', Bool.false_eq_true, if_false]
  simp only [written, hl]

/-! ## Old contents -/

/-- C520 as the code is: a call that finds a cache for the same path uses what was cached, whatever the library has become. -/
theorem stale (lib' : Lib D) (root : Str) (disk : Disk D) (c : List (Str × D)) (g : Global D)
    (h1 : root ≠ []) (h2 : ∀ ch ∈ root, ch.isWhitespace = false) :
    obtain' (s "numpy.core.multiarray") lib' root (written (s "numpy.core.multiarray") disk root c) g =
      ((written (s "numpy.core.multiarray") disk root c, .dict c), none) := by
  have hm := (reuse_iff (s "numpy.core.multiarray") disk root c).2 ⟨h1, h2⟩
  have hl := (load_written (s "numpy.core.multiarray") (.dict c : Global D)).2 rfl
  unfold obtain'
  rw [hm]
  simp only [Bool.false_eq_true, if_false]
  simp only [written, hl]

/-- C520 fails: a library that has changed is not read again, and the call ends as usual. -/
theorem stale_false : ¬ ∀ (lib lib' : Lib (List (Int × Int))) (root : Str) (disk : Disk (List (Int × Int))),
    let st := cacheSeds (s "numpy.core.multiarray") lib root none none disk .none
    let st' := cacheSeds (s "numpy.core.multiarray") lib' root none none st.1.1 st.1.2
    st.2 = none → st'.2 = none → st'.1.2 = .dict (generate lib' root) := by
  intro h
  have := h (demo 7) (demo 8) (s "/d") ⟨true, true, none, none⟩ (by decide +kernel) (by decide +kernel)
  revert this
  decide +kernel

/-! ## Limits of wavelengths -/

omit [LinearOrder K] [Zero K] in
private theorem lookup_map (f : Str) (t : List (K × K) → List (K × K)) : ∀ c : List (Str × List (K × K)),
    (c.map (fun e => (e.1, t e.2))).lookup f = (c.lookup f).map t
  | [] => rfl
  | (a, d) :: c => by
    rw [List.map_cons, List.lookup_cons, List.lookup_cons, lookup_map f t c]
    cases f == a <;> rfl

/-- C521: with limits, the call that ends without exception leaves in memory the same names, each with its samples within the limits
(inclusive; from zero without a lower limit) in order; what is on disk is not limited. -/
theorem limits (lib : Lib (List (K × K))) (root : Str) (lo hi : Option K) (disk : Disk (List (K × K))) (g : Global (List (K × K)))
    (hl : lo ≠ none ∨ hi ≠ none) (hm : mustGenerate disk root = true) (multi : Str)
    (hok : (cacheSeds multi lib root lo hi disk g).2 = none) :
    (∃ c, (cacheSeds multi lib root lo hi disk g).1.2 = .dict c ∧
      ∀ f, (c.lookup f = none ↔ (generate lib root).lookup f = none) ∧
        ∀ d d', c.lookup f = some d' → (generate lib root).lookup f = some d → d'.Sublist d ∧
          (∀ p, d'.count p = if (∀ l ∈ lo, l ≤ p.1) ∧ (lo = none → 0 ≤ p.1) ∧ (∀ u ∈ hi, p.1 ≤ u) then d.count p else 0)) ∧
    (cacheSeds multi lib root lo hi disk g).1.1.pickle = some ⟨npClasses multi, .dict (generate lib root)⟩ := by
  have hm' : mustGenerate { disk with dir := true } root = true := hm
  unfold cacheSeds at hok ⊢
  split_ifs at hok ⊢ with hdir
  simp only [obtain', hm', if_true] at hok ⊢
  cases hc : checks lib root (.dict (generate lib root)) with
  | error e => rw [hc] at hok; cases e <;> simp at hok
  | ok u =>
    have hb : (lo.isNone && hi.isNone) = false := by
      rcases hl with h | h
      · cases lo with
        | none => exact absurd rfl h
        | some x => rfl
      · cases hi with
        | none => exact absurd rfl h
        | some x => simp
    simp only [truncate, hb, Bool.false_eq_true, if_false]
    refine ⟨⟨_, rfl, fun f => ?_⟩, rfl⟩
    rw [lookup_map]
    refine ⟨by simp, ?_⟩
    intro d d' h1 h2
    rw [h2] at h1
    simp only [Option.map_some, Option.some.injEq] at h1
    subst h1
    refine ⟨List.filter_sublist, fun p => ?_⟩
    unfold cut
    have hp : (decide (lo.getD 0 ≤ p.1) && below' hi p.1) = true ↔
        ((∀ l ∈ lo, l ≤ p.1) ∧ (lo = none → 0 ≤ p.1) ∧ (∀ u ∈ hi, p.1 ≤ u)) := by
      cases lo <;> cases hi <;> simp [below']
    by_cases hq : (∀ l ∈ lo, l ≤ p.1) ∧ (lo = none → 0 ≤ p.1) ∧ (∀ u ∈ hi, p.1 ≤ u)
    · rw [if_pos hq, List.count_filter (p := fun p : K × K => decide (lo.getD 0 ≤ p.1) && below' hi p.1) (hp.2 hq)]
    · rw [if_neg hq, List.count_eq_zero, List.mem_filter]
      exact fun h => hq (hp.1 h.2)

example : (cacheSeds (s "numpy.core.multiarray") (demo 7) (s "/d") (some 400) (some 600) ⟨true, false, none, none⟩ .none).2 = none ∧
    (match (cacheSeds (s "numpy.core.multiarray") (demo 7) (s "/d") (some 400) (some 600) ⟨true, false, none, none⟩ .none).1.2 with
      | .dict c => c.lookup (s "/d/starSED/kurucz/c.gz") | _ => none) = some [((600 : Int), (2 : Int))] := by decide +kernel

end run

/-! ## Comparing spectra -/

section eq

variable {N K : Type} [DecidableEq N] [DecidableEq K]

/-- C522: for spectra whose flux is not an empty array, `==` holds exactly when names, zeropoints, bad values and all three arrays
agree; values that are not a number agree with each other. -/
theorem eq_iff_partial (a b : SedObj N K) (h : a.flambda ≠ some []) : sedEq a b = true ↔ a = b := by
  obtain ⟨n, z, v, w, l, f⟩ := a
  obtain ⟨n', z', v', w', l', f'⟩ := b
  have hs : ∀ x y : Option (List (Option K)), sameArr x y = true ↔ x = y := by
    intro x y
    cases x <;> cases y <;> simp [sameArr, arrEq]
  have hl : sameFlambda l l' = true ↔ l = l' := by
    cases l with
    | none => cases l' <;> simp [sameFlambda]
    | some x =>
      cases l' with
      | none =>
        simp only [sameFlambda, arrEq]
        simp at h ⊢
        exact h
      | some y => simp [sameFlambda, arrEq]
  have hv : badDiffers v v' = true ↔ v ≠ v' := by
    cases v with
    | none => cases v' <;> simp [badDiffers]
    | some x =>
      cases v' with
      | none => simp [badDiffers]
      | some y =>
        simp only [badDiffers, ne_eq, Option.some.injEq, decide_eq_true_eq]
        exact not_congr eq_comm
  unfold sedEq
  simp only [SedObj.mk.injEq]
  by_cases h1 : n = n'
  · by_cases h2 : z = z'
    · rw [if_neg (by simpa using h1), if_neg (by simpa using h2)]
      by_cases h3 : v = v'
      · rw [if_neg (by rw [hv]; simpa using h3)]
        by_cases h4 : f = f'
        · rw [if_neg (by simp [(hs f f').2 h4])]
          by_cases h5 : l = l'
          · rw [if_neg (by simp [hl.2 h5]), hs]
            simp [h1, h2, h3, h4, h5]
          · rw [if_pos]
            · simp [h5]
            · have : sameFlambda l l' ≠ true := fun e => h5 (hl.1 e)
              simpa using this
        · rw [if_pos]
          · simp [h4]
          · have : sameArr f f' ≠ true := fun e => h4 ((hs _ _).1 e)
            simpa using this
      · rw [if_pos (hv.2 h3)]
        simp [h3]
    · rw [if_neg (by simpa using h1), if_pos h2]
      simp [h2]
  · rw [if_pos h1]
    simp [h1]

/-- C522 fails for an empty array: `==` is not symmetric. -/
theorem eq_symm_false : ¬ ∀ a b : SedObj Nat Int, sedEq a b = sedEq b a := by
  intro h
  have := h ⟨none, 0, none, some [], some [], none⟩ ⟨none, 0, none, some [], none, none⟩
  revert this
  decide

example : sedEq (⟨some 1, 0, none, some [some 1], some [none], none⟩ : SedObj Nat Int) ⟨some 1, 0, none, some [some 1], some [none], none⟩ = true ∧
    sedEq (⟨some 1, 0, none, some [some 1], some [none], none⟩ : SedObj Nat Int) ⟨some 1, 0, none, some [some 1], some [some 2], none⟩ = false := by
  decide

/-- C523 as the code is: a spectrum that was cleared and read again equals one that was read at once exactly when the two zeropoints
are the same. -/
theorem cleared_iff (zp0 zp1 : K) (o : SedObj N K) (hb : o.badval = none) (f : N) (name : Option N) (w fl : List (Option K)) (hne : fl ≠ []) :
    sedEq (setRead (clear zp1 o) f name w fl) (setRead (fresh zp0) f name w fl) = true ↔ zp1 = zp0 := by
  rw [eq_iff_partial _ _ (by simpa [setRead] using hne)]
  simp [setRead, clear, fresh, hb]

/-- C523: the bad value is not cleared: a spectrum that has one stays different after it was cleared and read again. -/
theorem cleared_badval (zp0 zp1 : K) (o : SedObj N K) (f : N) (name : Option N) (w fl : List (Option K)) (hne : fl ≠ []) :
    sedEq (setRead (clear zp1 o) f name w fl) (setRead (fresh zp0) f name w fl) = true ↔ zp1 = zp0 ∧ o.badval = none := by
  rw [eq_iff_partial _ _ (by simpa [setRead] using hne)]
  simp [setRead, clear, fresh]

/-- The two zeropoints of the code are not the same. -/
theorem zeropoints : (-8.9 : ℝ) ≠ -2.5 * Real.logb 10 3631 := by
  intro h
  have h1 : Real.logb 10 3631 = 89 / 25 := by linarith
  have h2 : (3631 : ℝ) = (10 : ℝ) ^ ((89 : ℝ) / 25) := by
    rw [← h1, Real.rpow_logb] <;> norm_num
  have h3 : (3631 : ℝ) ^ (25 : ℕ) = 10 ^ (89 : ℕ) := by
    rw [h2, ← Real.rpow_natCast, ← Real.rpow_mul (by norm_num), ← Real.rpow_natCast]
    norm_num
  norm_num at h3

/-- C523 fails: a cleared spectrum keeps another zeropoint. -/
theorem cleared_false : ¬ ∀ (o : SedObj Nat ℝ) (f : Nat) (w fl : List (Option ℝ)), o.badval = none → fl ≠ [] →
    (setRead (clear (-8.9) o) f none w fl).zp = (setRead (fresh (-2.5 * Real.logb 10 3631) : SedObj Nat ℝ) f none w fl).zp := by
  intro h
  exact zeropoints (h (fresh 0) 0 [none] [none] rfl (by simp))

end eq

/-! ## Stellar templates -/

private theorem split_one (c : Char) (a b : Str) (h : c ∉ a) : pySplit [c] (a ++ c :: b) = a :: pySplit [c] b := by
  unfold pySplit
  induction a with
  | nil =>
    rw [List.nil_append, splitGo, if_pos (by simp)]
    rfl
  | cons d a ih =>
    have hd : ¬ c = d := fun e => h (by simp [e])
    rw [List.cons_append, splitGo, if_neg (by simpa using hd), ih (fun hm => h (by simp [hm]))]

private theorem split_end (c : Char) (a : Str) (h : c ∉ a) : pySplit [c] a = [a] := by
  unfold pySplit
  induction a with
  | nil => rfl
  | cons d a ih =>
    have hd : ¬ c = d := fun e => h (by simp [e])
    rw [splitGo, if_neg (by simpa using hd), ih (fun hm => h (by simp [hm]))]

/-- A word of digits. -/
def Digits (w : Str) : Prop := ∀ c ∈ w, c.isDigit = true

private theorem digits_not {w : Str} (h : Digits w) {c : Char} (hc : c.isDigit = false) : c ∉ w := fun hm => by
  have := h c hm
  rw [hc] at this
  cases this

/-- C524: from a name such as `km01_7000.fits_g40_7140.gz` the sign and the digits of the metallicity, the digits of the surface gravity
and those of the temperature at its end are read. -/
theorem parse_name (sgn : Char) (z t g te : Str) (hs : sgn = 'm' ∨ sgn = 'p') (hz : Digits z) (ht : Digits t) (hg : Digits g) (hte : Digits te) :
    parseName ('k' :: sgn :: (z ++ s "_" ++ t ++ s ".fits_g" ++ g ++ s "_" ++ te ++ s ".gz")) = some (decide (sgn = 'm'), z, g, te) := by
  have hsg : sgn ≠ '_' ∧ sgn ≠ 'g' := by rcases hs with rfl | rfl <;> decide
  have hu : ∀ w : Str, Digits w → '_' ∉ w := fun w h => digits_not h (by decide)
  have hG : ∀ w : Str, Digits w → 'g' ∉ w := fun w h => digits_not h (by decide)
  have hD : ∀ w : Str, Digits w → '.' ∉ w := fun w h => digits_not h (by decide)
  have hz1 := hu z hz
  have hz2 := hG z hz
  have ht1 := hu t ht
  have ht2 := hG t ht
  have hg1 := hu g hg
  have hg2 := hG g hg
  have hte1 := hu te hte
  have hte2 := hG te hte
  have hte3 := hD te hte
  have e1 : ('k' :: sgn :: (z ++ s "_" ++ t ++ s ".fits_g" ++ g ++ s "_" ++ te ++ s ".gz")) =
      ('k' :: sgn :: z) ++ '_' :: ((t ++ s ".fits") ++ '_' :: (('g' :: g) ++ '_' :: (te ++ s ".gz"))) := by simp [s]
  have e2 : ('k' :: sgn :: (z ++ s "_" ++ t ++ s ".fits_g" ++ g ++ s "_" ++ te ++ s ".gz")) =
      ('k' :: sgn :: (z ++ '_' :: t ++ s ".fits_")) ++ 'g' :: ((g ++ '_' :: te ++ ['.']) ++ 'g' :: ['z']) := by simp [s]
  have s1 : pySplit ['_'] ('k' :: sgn :: (z ++ s "_" ++ t ++ s ".fits_g" ++ g ++ s "_" ++ te ++ s ".gz")) =
      ['k' :: sgn :: z, t ++ s ".fits", 'g' :: g, te ++ s ".gz"] := by
    rw [e1, split_one _ _ _ (by simp [hz1, hsg.1.symm]), split_one _ _ _ (by simp [ht1, s]), split_one _ _ _ (by simp [hg1]),
      split_end _ _ (by simp [hte1, s])]
  have s2 : (pySplit ['g'] ('k' :: sgn :: (z ++ s "_" ++ t ++ s ".fits_g" ++ g ++ s "_" ++ te ++ s ".gz")))[1]? = some (g ++ '_' :: te ++ ['.']) := by
    rw [e2, split_one _ _ _ (by simp [hz2, ht2, hsg.2.symm, s]), split_one _ _ _ (by simp [hg2, hte2])]
    rfl
  have s3 : pySplit ['_'] (g ++ '_' :: te ++ ['.']) = [g, te ++ ['.']] := by
    rw [show g ++ '_' :: te ++ ['.'] = g ++ '_' :: (te ++ ['.']) by simp, split_one _ _ _ hg1, split_end _ _ (by simp [hte1])]
  have s4 : pySplit ['.'] (te ++ s ".gz") = [te, s "gz"] := by
    rw [show te ++ s ".gz" = te ++ '.' :: s "gz" by simp [s], split_one _ _ _ hte3, split_end _ _ (by simp [s])]
  have h0 : ('k' :: sgn :: (z ++ s "_" ++ t ++ s ".fits_g" ++ g ++ s "_" ++ te ++ s ".gz"))[1]? = some sgn := rfl
  unfold parseName
  rw [h0, s1, s2]
  simp only [List.getElem?_cons_zero, s3]
  simp [s4]

example : parseName (s "km01_7000.fits_g40_7140.gz") = some (true, s "01", s "40", s "7140") := by decide +kernel

section close

variable {K : Type} [Field K] [LinearOrder K]

private theorem nearest_spec {key : Combo K → K} {x : K} {l l' : List (Combo K)} (h : nearest key x l = some l') (e : Combo K) :
    e ∈ l' ↔ e ∈ l ∧ ∀ e' ∈ l, |key e - x| ≤ |key e' - x| := by
  unfold nearest at h
  cases hm : (l.map (fun e => |key e - x|)).min? with
  | none => rw [hm] at h; cases h
  | some m =>
    rw [hm] at h
    simp only [Option.some.injEq] at h
    subst h
    rw [List.min?_eq_some_iff] at hm
    obtain ⟨h1, h2⟩ := hm
    obtain ⟨a, ha, rfl⟩ := List.mem_map.mp h1
    rw [List.mem_filter]
    refine and_congr_right fun he => ?_
    simp only [decide_eq_true_eq]
    constructor
    · intro h e' he'
      rw [h]
      exact h2 _ (List.mem_map.mpr ⟨e', he', rfl⟩)
    · intro h
      exact le_antisymm (h a ha) (h2 _ (List.mem_map.mpr ⟨e, he, rfl⟩))

private theorem nearest_some {key : Combo K → K} {x : K} {l : List (Combo K)} (h : l ≠ []) : ∃ l', nearest key x l = some l' ∧ l' ≠ [] := by
  unfold nearest
  cases hm : (l.map (fun e => |key e - x|)).min? with
  | none => rw [List.min?_eq_none_iff] at hm; simp at hm; exact absurd hm h
  | some m =>
    refine ⟨_, rfl, ?_⟩
    rw [List.min?_eq_some_iff] at hm
    obtain ⟨a, ha, hk⟩ := List.mem_map.mp hm.1
    exact List.ne_nil_of_mem (a := a) (List.mem_filter.mpr ⟨ha, by simpa using hk⟩)

/-- C525: the templates that match are those that are closest in temperature, among them in metallicity, and among these in surface
gravity. -/
theorem match_closest (teff feh logg : K) (l : List (Combo K)) (h : l ≠ []) :
    ∃ r, matches' teff feh logg l = some r ∧ r ≠ [] ∧ ∀ e, e ∈ r ↔ e ∈ l ∧ ∀ e' ∈ l,
      |e.teff - teff| < |e'.teff - teff| ∨ |e.teff - teff| = |e'.teff - teff| ∧
        (|e.feh - feh| < |e'.feh - feh| ∨ |e.feh - feh| = |e'.feh - feh| ∧ |e.logg - logg| ≤ |e'.logg - logg|) := by
  obtain ⟨l1, h1, n1⟩ := nearest_some (key := Combo.teff) (x := teff) h
  obtain ⟨l2, h2, n2⟩ := nearest_some (key := Combo.feh) (x := feh) n1
  obtain ⟨l3, h3, n3⟩ := nearest_some (key := Combo.logg) (x := logg) n2
  refine ⟨l3, by simp [matches', h1, h2, h3], n3, fun e => ?_⟩
  rw [nearest_spec h3]
  constructor
  · rintro ⟨he2, hg⟩
    obtain ⟨he1, hf⟩ := (nearest_spec h2 e).1 he2
    obtain ⟨he, ht⟩ := (nearest_spec h1 e).1 he1
    refine ⟨he, fun e' he' => ?_⟩
    rcases lt_or_eq_of_le (ht e' he') with hlt | heq
    · exact Or.inl hlt
    · refine Or.inr ⟨heq, ?_⟩
      have he1' : e' ∈ l1 := (nearest_spec h1 e').2 ⟨he', fun x hx => heq ▸ ht x hx⟩
      rcases lt_or_eq_of_le (hf e' he1') with hlt | heq'
      · exact Or.inl hlt
      · exact Or.inr ⟨heq', hg e' ((nearest_spec h2 e').2 ⟨he1', fun x hx => heq' ▸ hf x hx⟩)⟩
  · rintro ⟨he, hall⟩
    have he1 : e ∈ l1 := (nearest_spec h1 e).2 ⟨he, fun x hx => by
      rcases hall x hx with h | h
      · exact h.le
      · exact h.1.le⟩
    have he2 : e ∈ l2 := (nearest_spec h2 e).2 ⟨he1, fun x hx => by
      obtain ⟨hx0, hxt⟩ := (nearest_spec h1 x).1 hx
      rcases hall x hx0 with h | ⟨-, h | h⟩
      · exact absurd (hxt e he) (not_le.2 h)
      · exact h.le
      · exact h.1.le⟩
    refine ⟨he2, fun x hx => ?_⟩
    obtain ⟨hx1, hxf⟩ := (nearest_spec h2 x).1 hx
    obtain ⟨hx0, hxt⟩ := (nearest_spec h1 x).1 hx1
    rcases hall x hx0 with h | ⟨-, h | h⟩
    · exact absurd (hxt e he) (not_le.2 h)
    · exact absurd (hxf e he1) (not_le.2 h)
    · exact h.2

example : (matches' (K := ℚ) 5000 0 40 [⟨s "a", 4900, 0, 45⟩, ⟨s "b", 5100, 1, 40⟩, ⟨s "c", 4900, 0, 30⟩, ⟨s "d", 6000, 0, 40⟩]).map
    (fun l => l.map Combo.file) = some [s "a"] := by decide +kernel

/-- C526 as the code is: no template is ever returned: the call ends with a `TypeError`, or with a `ValueError` when there are no
templates. -/
theorem close_raises (teff feh logg : K) (l : List (Combo K)) :
    readClose teff feh logg l = .error (if l = [] then .value else .type) := by
  by_cases h : l = []
  · subst h
    rfl
  · obtain ⟨r, hr, -, -⟩ := match_closest teff feh logg l h
    rw [if_neg h, readClose, hr]

/-- C526 fails. -/
theorem close_false : ¬ ∀ (teff feh logg : ℚ) (l : List (Combo ℚ)), l ≠ [] → ∃ e ∈ l, readClose teff feh logg l = .ok e := by
  intro h
  obtain ⟨e, -, he⟩ := h 0 0 0 [⟨[], 0, 0, 0⟩] (by simp)
  rw [close_raises] at he
  cases he

/-- C526: a path that is longer than 200 characters is not stored as it is. -/
theorem stored_iff (f : Str) : stored f = f ↔ f.length ≤ 200 := by
  unfold stored
  rw [List.take_eq_self_iff]

/-! ## `setup_phi_array` -/

variable [IsStrictOrderedRing K] [FloorSemiring K]

private theorem widths (lo hi step : K) (hs : 0 < step) (hl : lo ≤ hi) :
    (Bandpass.halfGrid lo hi step).length = phiWidth lo hi step ↔ ¬ ∃ n : ℕ, (n : K) * step < hi - lo ∧ hi - lo ≤ n * step + step / 2 := by
  have e1 : (hi + step / 2 - lo) / step = (hi - lo) / step + 1 / 2 := by field_simp; ring
  have e2 : (hi + step - lo) / step = (hi - lo) / step + 1 := by field_simp; ring
  have hq : 0 ≤ (hi - lo) / step := div_nonneg (by linarith) hs.le
  have hr : ∀ n : ℕ, ((n : K) * step < hi - lo ∧ hi - lo ≤ n * step + step / 2) ↔ ((n : K) < (hi - lo) / step ∧ (hi - lo) / step ≤ n + 1 / 2) := by
    intro n
    rw [lt_div_iff₀ hs, div_le_iff₀ hs]
    refine and_congr_right fun _ => ?_
    rw [add_mul]
    constructor <;> intro h <;> linarith
  simp only [hr]
  have hlen : (Bandpass.halfGrid lo hi step).length = ⌈(hi - lo) / step + 1 / 2⌉₊ := by
    simp [Bandpass.halfGrid, Sed.grid, e1]
  rw [hlen, phiWidth, e2, Nat.ceil_add_one hq]
  generalize (hi - lo) / step = q at hq ⊢
  have hle := Nat.le_ceil q
  rw [Nat.ceil_eq_iff (by simp)]
  simp only [Nat.add_sub_cancel, Nat.cast_add, Nat.cast_one]
  constructor
  · rintro ⟨h1, -⟩ ⟨n, hn1, hn2⟩
    have : n < ⌈q⌉₊ := Nat.lt_ceil.2 hn1
    have : ((n + 1 : ℕ) : K) ≤ (⌈q⌉₊ : K) := by exact_mod_cast this
    push_cast at this
    linarith
  · intro h
    refine ⟨?_, by linarith⟩
    by_contra hc
    push Not at hc
    rcases Nat.eq_zero_or_pos ⌈q⌉₊ with h0 | h0
    · rw [h0] at hc
      simp only [Nat.cast_zero] at hc
      linarith
    · obtain ⟨m, hm⟩ := Nat.exists_eq_succ_of_ne_zero h0.ne'
      have hmq : (m : K) < q := Nat.lt_ceil.1 (by omega)
      refine h ⟨m, hmq, ?_⟩
      rw [hm] at hc
      push_cast at hc
      linarith

/-- The wavelengths of a curve increase and there is one. -/
def Curve (c : List (K × K)) : Prop := c ≠ [] ∧ c.Pairwise (fun a b => a.1 < b.1)

omit [Field K] [IsStrictOrderedRing K] [FloorSemiring K] in
private theorem curve_ends {c : List (K × K)} (h : Curve c) : ∃ a b, ends c = some (a, b) ∧ a ≤ b ∧ ∀ p ∈ c, a ≤ p.1 ∧ p.1 ≤ b := by
  obtain ⟨hne, hp⟩ := h
  cases c with
  | nil => exact absurd rfl hne
  | cons x r =>
    have hl := List.getLast?_eq_some_getLast (l := x :: r) (by simp)
    refine ⟨x.1, ((x :: r).getLast (by simp)).1, by simp only [ends, List.head?_cons, hl], ?_, ?_⟩
    · rcases List.mem_cons.mp (List.getLast_mem (l := x :: r) (by simp)) with h | h
      · exact (congrArg Prod.fst h).ge
      · exact ((List.pairwise_cons.mp hp).1 _ h).le
    · intro p hpm
      constructor
      · rcases List.mem_cons.mp hpm with h | h
        · rw [h]
        · exact ((List.pairwise_cons.mp hp).1 _ h).le
      · obtain ⟨i, hi, rfl⟩ := List.mem_iff_getElem.mp hpm
        rw [List.getLast_eq_getElem]
        rcases Nat.lt_or_ge i ((x :: r).length - 1) with h | h
        · exact (List.pairwise_iff_getElem.mp hp i _ hi (by simp) h).le
        · have : i = (x :: r).length - 1 := by omega
          subst this
          exact le_refl _

private theorem row_some {lo hi step : K} {c : List (K × K)} (hc : Curve c) {a b : K} (he : ends c = some (a, b)) (ha : lo ≤ a) (hb : b ≤ hi) :
    phiRow lo hi step c = if (Bandpass.halfGrid lo hi step).length = phiWidth lo hi step then
      some ((Bandpass.halfGrid lo hi step).map fun w => (w, Bandpass.interp0 c w)) else none := by
  obtain ⟨a', b', he', hab, hall⟩ := curve_ends hc
  rw [he] at he'
  simp only [Option.some.injEq, Prod.mk.injEq] at he'
  obtain ⟨rfl, rfl⟩ := he'
  have hne : c.map Prod.fst ≠ [] := by simpa using hc.1
  unfold phiRow Bandpass.resampleBandpass
  cases hmin : (c.map Prod.fst).min? with
  | none => rw [List.min?_eq_none_iff] at hmin; exact absurd hmin hne
  | some m =>
    cases hmax : (c.map Prod.fst).max? with
    | none => rw [List.max?_eq_none_iff] at hmax; exact absurd hmax hne
    | some m' =>
      rw [List.min?_eq_some_iff] at hmin
      rw [List.max?_eq_some_iff] at hmax
      obtain ⟨p, hp, hpm⟩ := List.mem_map.mp hmin.1
      obtain ⟨p', hp', hpm'⟩ := List.mem_map.mp hmax.1
      have h1 := (hall p hp).2
      have h2 := (hall p' hp').1
      have hno : ¬ (hi < m ∨ m' < lo) := by
        rintro (h | h)
        · rw [← hpm] at h; linarith
        · rw [← hpm'] at h; linarith
      simp only [if_neg hno, List.length_map]

private theorem mapM_none {A B : Type} (f : A → Option B) (l : List A) (a : A) (ha : a ∈ l) (hf : f a = none) : l.mapM f = none := by
  induction l with
  | nil => cases ha
  | cons x l ih =>
    rw [List.mapM_cons]
    rcases List.mem_cons.mp ha with rfl | h
    · rw [hf]; rfl
    · cases f x with
      | none => rfl
      | some y => simp [ih h]

private theorem mapM_some {A B : Type} (f : A → Option B) (g : A → B) (l : List A) (h : ∀ a ∈ l, f a = some (g a)) : l.mapM f = some (l.map g) := by
  induction l with
  | nil => rfl
  | cons x l ih =>
    rw [List.mapM_cons, h x (by simp), ih (fun a ha => h a (by simp [ha]))]
    rfl

/-- C527 as the code is: for curves with increasing wavelengths that all lie between two wavelengths, both reached, and a positive first
step, the array is made exactly when the width of the range is not more than a whole number of steps by at most half a step. Then every curve
is put onto the grid from the least wavelength by the first step, zero where it is not known. -/
theorem setup_phi (cs : List (List (K × K))) (step lo hi : K) (hs : 0 < step) (hstep : stepOf cs = some step) (hc : ∀ c ∈ cs, Curve c)
    (hrange : range cs = some (lo, hi)) :
    ((¬ ∃ n : ℕ, (n : K) * step < hi - lo ∧ hi - lo ≤ n * step + step / 2) →
      setupPhi cs = some (cs.map (fun c => (List.range ⌈(hi - lo) / step + 1 / 2⌉₊).map (fun i : ℕ =>
        (lo + step * i, Bandpass.interp0 c (lo + step * i)))), step)) ∧
    ((∃ n : ℕ, (n : K) * step < hi - lo ∧ hi - lo ≤ n * step + step / 2) → setupPhi cs = none) := by
  have hbounds : ∀ c ∈ cs, ∃ a b, ends c = some (a, b) ∧ lo ≤ a ∧ b ≤ hi := by
    unfold range at hrange
    cases hm : cs.mapM ends with
    | none => rw [hm] at hrange; cases hrange
    | some es =>
      rw [hm] at hrange
      dsimp only at hrange
      intro c hcm
      obtain ⟨a, b, he, -, -⟩ := curve_ends (hc c hcm)
      have hes : es = cs.map (fun c => (ends c).getD (0, 0)) := by
        have := mapM_some ends (fun c => (ends c).getD (0, 0)) cs (fun c hc' => by
          obtain ⟨a, b, he, -, -⟩ := curve_ends (hc c hc')
          rw [he]; rfl)
        rw [hm] at this
        simpa using this
      have hmem : (a, b) ∈ es := by
        rw [hes]
        exact List.mem_map.mpr ⟨c, hcm, by rw [he]; rfl⟩
      cases hmin : (es.map Prod.fst).min? with
      | none => rw [hmin] at hrange; cases hrange
      | some x =>
        cases hmax : (es.map Prod.snd).max? with
        | none => rw [hmin, hmax] at hrange; cases hrange
        | some y =>
          rw [hmin, hmax] at hrange
          simp only [Option.some.injEq, Prod.mk.injEq] at hrange
          obtain ⟨rfl, rfl⟩ := hrange
          rw [List.min?_eq_some_iff] at hmin
          rw [List.max?_eq_some_iff] at hmax
          exact ⟨a, b, he, hmin.2 _ (List.mem_map.mpr ⟨_, hmem, rfl⟩), hmax.2 _ (List.mem_map.mpr ⟨_, hmem, rfl⟩)⟩
  have hcs : ∃ c, c ∈ cs := by
    cases cs with
    | nil => cases hstep
    | cons c _ => exact ⟨c, by simp⟩
  have hl : lo ≤ hi := by
    obtain ⟨c, hcm⟩ := hcs
    obtain ⟨a, b, he, h1, h2⟩ := hbounds c hcm
    obtain ⟨a', b', he', h3, -⟩ := curve_ends (hc c hcm)
    rw [he] at he'
    simp only [Option.some.injEq, Prod.mk.injEq] at he'
    obtain ⟨rfl, rfl⟩ := he'
    linarith
  have e1 : (hi + step / 2 - lo) / step = (hi - lo) / step + 1 / 2 := by field_simp; ring
  have hgrid : ∀ c : List (K × K), ((Bandpass.halfGrid lo hi step).map fun w => (w, Bandpass.interp0 c w)) =
      (List.range ⌈(hi - lo) / step + 1 / 2⌉₊).map (fun i : ℕ => (lo + step * i, Bandpass.interp0 c (lo + step * i))) := by
    intro c
    rw [Bandpass.halfGrid, Sed.grid, e1, List.map_map]
    rfl
  have hrow : ∀ c ∈ cs, phiRow lo hi step c = if (Bandpass.halfGrid lo hi step).length = phiWidth lo hi step then
      some ((Bandpass.halfGrid lo hi step).map fun w => (w, Bandpass.interp0 c w)) else none := by
    intro c hcm
    obtain ⟨a, b, he, h1, h2⟩ := hbounds c hcm
    exact row_some (hc c hcm) he h1 h2
  unfold setupPhi
  rw [hstep, hrange]
  dsimp only
  by_cases hw : (Bandpass.halfGrid lo hi step).length = phiWidth lo hi step
  · refine ⟨fun _ => ?_, fun h => absurd h ((widths lo hi step hs hl).1 hw)⟩
    rw [mapM_some (phiRow lo hi step) (fun c => (List.range ⌈(hi - lo) / step + 1 / 2⌉₊).map (fun i : ℕ =>
        (lo + step * i, Bandpass.interp0 c (lo + step * i)))) cs (fun c hcm => by rw [hrow c hcm, if_pos hw, hgrid])]
    rfl
  · refine ⟨fun h => absurd ((widths lo hi step hs hl).2 h) hw, fun _ => ?_⟩
    obtain ⟨c, hcm⟩ := hcs
    rw [mapM_none _ cs c hcm (by rw [hrow c hcm, if_neg hw])]
    rfl

end close

/-- C527 fails: two curves with overlapping ranges for which the array is not made. -/
theorem setup_phi_false : ¬ ∀ cs : List (List (ℚ × ℚ)), cs ≠ [] → (∀ c ∈ cs, Curve c ∧ 2 ≤ c.length) → (setupPhi cs).isSome = true := by
  intro h
  have hc : ∀ c ∈ [[((300 : ℚ), (1 : ℚ)), (301, 1), (302, 1)], [((300 : ℚ), (1 : ℚ)), ((1512 : ℚ) / 5, 1)]], Curve c ∧ 2 ≤ c.length := by
    intro c hc
    simp only [List.mem_cons, List.not_mem_nil, or_false] at hc
    rcases hc with rfl | rfl
    · refine ⟨⟨by simp, by norm_num⟩, by simp⟩
    · refine ⟨⟨by simp, by norm_num⟩, by simp⟩
  have h1 := h _ (by simp) hc
  rw [(setup_phi _ 1 300 (1512 / 5) (by norm_num) (by norm_num [stepOf]) (fun c hcm => (hc c hcm).1)
    (by decide +kernel)).2 ⟨2, by norm_num, by norm_num⟩] at h1
  cases h1

/-! ## `HourglassPlot` -/

private theorem segments_iff {R : Type} : ∀ rows : List R, (∃ l, segments rows = some l ∧ rows = l.flatMap (fun p => [p.1, p.2])) ∨
    (segments rows = none ∧ rows.length % 2 = 1)
  | [] => Or.inl ⟨[], rfl, rfl⟩
  | [_] => Or.inr ⟨rfl, rfl⟩
  | a :: b :: r => by
    rcases segments_iff r with ⟨l, h1, h2⟩ | ⟨h1, h2⟩
    · refine Or.inl ⟨(a, b) :: l, by simp [segments, h1], ?_⟩
      rw [List.flatMap_cons, ← h2]
      rfl
    · refine Or.inr ⟨by simp [segments, h1], ?_⟩
      simp only [List.length_cons]
      omega

/-- C528: the segments that are drawn are the successive pairs of rows; an odd number of rows is an `IndexError`. -/
theorem segments_spec {R : Type} (rows : List R) :
    (rows.length % 2 = 0 → ∃ l, segments rows = some l ∧ rows = l.flatMap (fun p => [p.1, p.2])) ∧
    (rows.length % 2 = 1 → segments rows = none) := by
  rcases segments_iff rows with ⟨l, h1, h2⟩ | ⟨h1, h2⟩
  · refine ⟨fun _ => ⟨l, h1, h2⟩, fun h => ?_⟩
    have hl : rows.length = 2 * l.length := by
      rw [h2]
      generalize l = l
      induction l with
      | nil => rfl
      | cons p l ih => simp only [List.flatMap_cons, List.length_append, ih]; simp; omega
    omega
  · exact ⟨fun h => by omega, fun _ => h1⟩

/-- C528: for what `HourglassMetric` returns one segment is drawn for each block of visits, from its first to its last visit. -/
theorem metric_segments {F K : Type} [DecidableEq F] [Field K] [LinearOrder K] (gap : K) (v : List (Hourglass.Visit F K)) :
    segments (Hourglass.perFilter gap v) = some ((Hourglass.blocks gap v).map (fun b => (v[b.1]?, v[b.2]?))) := by
  unfold Hourglass.perFilter
  generalize Hourglass.blocks gap v = bs
  induction bs with
  | nil => rfl
  | cons b bs ih => simp [segments, ih]

example : segments [1, 2, 3, 4] = some [(1, 2), (3, 4)] ∧ segments [1, 2, 3] = none := by decide

end Verif.SedCache
