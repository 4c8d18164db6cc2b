import Mathlib.Algebra.BigOperators.Group.List.Basic
import Mathlib.Algebra.Order.BigOperators.Group.List
import Mathlib.Algebra.Order.Field.Rat
import Mathlib.Data.List.Dedup
import Mathlib.Data.List.Nodup
import Mathlib.Data.Int.Interval
import Mathlib.Tactic.FieldSimp
import Mathlib.Tactic.Linarith
import Mathlib.Tactic.NormNum
import Mathlib.Tactic.Positivity
import Mathlib.Tactic.Ring
import Verif.Model.Batch2
import Verif.Props.Names

/-! # Names of the bundles of a batch, and summaries of light curves -/

namespace Verif.Batch2

open Names

/-! ## Names -/

theorem squeeze_split (a b : Str) : squeeze (a ++ '_' :: b) = squeeze (a ++ ['_']) ++ (squeeze ('_' :: b)).tail := by
  induction a with
  | nil =>
    have h := squeeze_head ('_' :: b)
    simp only [List.head?_cons] at h
    obtain ⟨t, ht⟩ := List.head?_eq_some_iff.mp h
    simp [ht, squeeze]
  | cons c r ih =>
    simp only [List.cons_append]
    rw [squeeze_cons, squeeze_cons c (r ++ ['_'])]
    have e : (r ++ '_' :: b).head? = (r ++ ['_']).head? := by cases r <;> simp
    rw [e]
    split_ifs with h
    · exact ih
    · rw [ih]
      rfl

/-- The name between two underscores, as it appears in a file name. -/
def spot (m : Str) : Str := sanitize ('_' :: m ++ ['_'])

def core (m : Str) : Str := (squeeze ('_' :: (m.flatMap image ++ ['_']))).tail

private theorem image_us : image '_' = ['_'] := by decide
private theorem image_sp : image ' ' = ['_'] := by decide

private theorem spot_eq (m : Str) : spot m = '_' :: core m := by
  unfold spot core
  rw [sanitize_eq]
  simp only [List.cons_append, List.flatMap_cons, List.flatMap_append, image_us, List.flatMap_nil, List.append_nil, List.nil_append]
  have h := squeeze_head ('_' :: (m.flatMap image ++ ['_']))
  simp only [List.head?_cons] at h
  obtain ⟨t, ht⟩ := List.head?_eq_some_iff.mp h
  rw [ht]
  rfl

theorem spot_inj (m n : Str) : spot m = spot n ↔ core m = core n := by
  rw [spot_eq, spot_eq]
  simp

private theorem tail_split (a b : Str) : (squeeze ('_' :: (a ++ '_' :: b))).tail = (squeeze ('_' :: (a ++ ['_']))).tail ++ (squeeze ('_' :: b)).tail := by
  have e := squeeze_split ('_' :: a) b
  simp only [List.cons_append] at e
  rw [e]
  have h := squeeze_head ('_' :: (a ++ ['_']))
  simp only [List.head?_cons] at h
  obtain ⟨t, ht⟩ := List.head?_eq_some_iff.mp h
  rw [ht]
  rfl

theorem core_words (a b : Str) : core (a ++ ' ' :: b) = core a ++ core b := by
  unfold core
  have e : (a ++ ' ' :: b).flatMap image ++ ['_'] = a.flatMap image ++ '_' :: (b.flatMap image ++ ['_']) := by
    simp [List.flatMap_append, image_sp]
  rw [e, tail_split]

theorem root_eq (run m i s : Str) :
    BaseM.fileRoot run m i s = squeeze (run.flatMap image ++ ['_']) ++ core m ++ core i ++ (squeeze ('_' :: s.flatMap image)).tail := by
  unfold BaseM.fileRoot
  rw [sanitize_eq]
  have e : (run ++ ['_'] ++ m ++ ['_'] ++ i ++ ['_'] ++ s).flatMap image
      = run.flatMap image ++ '_' :: (m.flatMap image ++ '_' :: (i.flatMap image ++ '_' :: s.flatMap image)) := by
    simp [List.flatMap_append, image_us]
  rw [e, squeeze_split, tail_split (m.flatMap image), tail_split (i.flatMap image)]
  simp [core]

/-- **C506.** For the same run, label and slicer, two bundles get the same file name exactly if the names of their metrics look the same between
underscores; the same holds of labels, of names of runs and of slicers. -/
theorem root_metric (run m n i s : Str) : BaseM.fileRoot run m i s = BaseM.fileRoot run n i s ↔ spot m = spot n := by
  rw [root_eq, root_eq, spot_inj]
  simp

theorem root_info (run m i j s : Str) : BaseM.fileRoot run m i s = BaseM.fileRoot run m j s ↔ spot i = spot j := by
  rw [root_eq, root_eq, spot_inj]
  simp

theorem root_run (run run' m i s : Str) :
    BaseM.fileRoot run m i s = BaseM.fileRoot run' m i s ↔ sanitize (run ++ ['_']) = sanitize (run' ++ ['_']) := by
  rw [root_eq, root_eq, sanitize_eq, sanitize_eq]
  simp [List.flatMap_append, image_us]

private theorem fillDict_eq (run : Str) (bs : List Bun) (d : List (Str × Bun)) (hd : (d.map Prod.fst).Nodup) :
    fillDict run d bs = if (d.map Prod.fst ++ bs.map (Bun.root run)).Nodup then .ok (d ++ bs.map (fun b => (b.root run, b))) else .error "NameError" := by
  induction bs generalizing d with
  | nil => simp [fillDict, hd]
  | cons b bs ih =>
    rw [fillDict]
    split_ifs with h h2 h2
    · exfalso
      rw [List.contains_iff_mem] at h
      rw [List.map_cons, List.nodup_append] at h2
      exact h2.2.2 _ h _ (List.mem_cons_self) rfl
    · rfl
    · have h' : b.root run ∉ d.map Prod.fst := by simpa [List.contains_iff_mem] using h
      rw [ih _ (by
        rw [List.map_append, List.nodup_append]
        refine ⟨hd, by simp, ?_⟩
        rintro x hx y hy rfl
        simp at hy
        exact h' (hy ▸ hx)), if_pos (by simpa [List.map_append] using h2)]
      simp
    · have h' : b.root run ∉ d.map Prod.fst := by simpa [List.contains_iff_mem] using h
      rw [ih _ (by
        rw [List.map_append, List.nodup_append]
        refine ⟨hd, by simp, ?_⟩
        rintro x hx y hy rfl
        simp at hy
        exact h' (hy ▸ hx)), if_neg (by simpa [List.map_append] using h2)]

/-- The dictionary has every bundle under its own file name and in the order given, or there is a `NameError`, which happens exactly if two bundles have the same
file name. -/
theorem makeDict_eq (run : Str) (bs : List Bun) :
    makeDict run bs = if (bs.map (Bun.root run)).Nodup then .ok (bs.map (fun b => (b.root run, b))) else .error "NameError" := by
  unfold makeDict
  rw [fillDict_eq run bs [] (by simp)]
  simp

example : makeDict "run 1".toList [⟨"Min x".toList, "all".toList, "HEAL".toList, [], [], []⟩, ⟨"Min  x".toList, "all".toList, "HEAL".toList, [], [], []⟩]
    = .error "NameError" := by decide +kernel

example : spot "Gaps at  3.0 hr".toList = "_Gaps_at_3_0_hr_".toList := by decide +kernel

/-! ## C507: one bundle per band -/

private def tag : Option Char → Str
  | none => "all_bands_".toList
  | some c => c :: "_band_".toList

private theorem core_band (sql label : Option Str) : ∃ P : Str, ∀ b ∈ Batches.bandList true, core (bandLabel sql label b) = P ++ tag b := by
  have lit : ∀ b ∈ Batches.bandList true, core (match b with | none => "all bands".toList | some c => c :: " band".toList) = tag b := by decide +kernel
  have sp : ∀ x : Str, ∀ b ∈ Batches.bandList true,
      core (match b with | none => (x ++ [' ']) ++ "all bands".toList | some c => (x ++ [' ']) ++ c :: " band".toList) = core x ++ tag b := by
    intro x b hb
    have := lit b hb
    cases b with
    | none =>
      simp only at this ⊢
      rw [List.append_assoc, List.singleton_append, core_words, this]
    | some c =>
      simp only at this ⊢
      rw [List.append_assoc, List.singleton_append, core_words, this]
  cases label with
  | some l =>
    refine ⟨core l, fun b hb => ?_⟩
    have := sp l b hb
    cases b <;> simpa [bandLabel, prefixLabel] using this
  | none =>
    cases sql with
    | none =>
      refine ⟨[], fun b hb => ?_⟩
      have := lit b hb
      cases b <;> simpa [bandLabel, prefixLabel] using this
    | some s =>
      by_cases hs : s = []
      · refine ⟨[], fun b hb => ?_⟩
        have := lit b hb
        cases b <;> simpa [bandLabel, prefixLabel, hs] using this
      · refine ⟨core s, fun b hb => ?_⟩
        have := sp s b hb
        cases b <;> simpa [bandLabel, prefixLabel, hs] using this

private theorem tag_inj (x y : Str) (a b : Option Char) (ha : a ∈ Batches.bandList true) (hb : b ∈ Batches.bandList true) (h : x ++ tag a = y ++ tag b) : a = b := by
  have h7 : ∀ a ∈ Batches.bandList true, 7 ≤ (tag a).reverse.length := by decide
  have e := congrArg (fun l => l.reverse.take 7) h
  simp only [List.reverse_append] at e
  rw [List.take_append_of_le_length (h7 a ha), List.take_append_of_le_length (h7 b hb)] at e
  have f : ∀ a ∈ Batches.bandList true, ∀ b ∈ Batches.bandList true, (tag a).reverse.take 7 = (tag b).reverse.take 7 → a = b := by decide
  exact f a ha b hb e

/-- **C507.** Labels of different bands never lead to the same file name, whatever the names of the run and of the metrics and the labels and conditions added. -/
theorem band_root (run m n s : Str) (sql label : Option Str) (a b : Option Char) (ha : a ∈ Batches.bandList true) (hb : b ∈ Batches.bandList true) :
    BaseM.fileRoot run m (bandLabel sql label a) s = BaseM.fileRoot run n (bandLabel sql label b) s ↔ a = b ∧ spot m = spot n := by
  obtain ⟨P, hP⟩ := core_band sql label
  rw [root_eq, root_eq, hP a ha, hP b hb, spot_inj]
  constructor
  · intro h
    simp only [List.append_assoc] at h
    have h1 := List.append_cancel_left h
    simp only [← List.append_assoc] at h1
    have h2 := List.append_cancel_right h1
    have e := tag_inj _ _ a b ha hb h2
    subst e
    have h3 := List.append_cancel_right h2
    exact ⟨rfl, List.append_cancel_right h3⟩
  · rintro ⟨rfl, h⟩
    rw [h]

theorem perBand_nodup (run : Str) (ms : List Str) (s : Str) (sql label : Option Str) (h : (ms.map spot).Nodup) :
    ((perBand ms s sql label).map (Bun.root run)).Nodup := by
  have hb : (Batches.bandList true).Nodup := by decide
  have hall : ∀ b ∈ Batches.bandList true, b ∈ Batches.bandList true := fun _ h => h
  unfold perBand
  rw [List.map_flatMap]
  rw [List.nodup_flatMap]
  constructor
  · intro b hb
    rw [List.map_map]
    refine List.Nodup.map_on ?_ (List.Nodup.of_map _ h)
    intro m hm n hn e
    simp only [Function.comp, Bun.root] at e
    exact List.inj_on_of_nodup_map h hm hn ((band_root run m n s sql label b b hb hb).mp e).2
  · refine hb.pairwise_of_forall_ne ?_
    intro a ha b hb hne x hx hy
    simp only [List.mem_map] at hx hy
    obtain ⟨_, ⟨m, _, rfl⟩, rfl⟩ := hx
    obtain ⟨_, ⟨n, _, rfl⟩, e⟩ := hy
    exact hne ((band_root run n m s sql label b a hb ha).mp e).1.symm

/-- A batch with one bundle for every band and each of some metrics, whose names look different between underscores, has no `NameError`: all its bundles are in the
dictionary. -/
theorem perBand_dict (run : Str) (ms : List Str) (s : Str) (sql label : Option Str) (h : (ms.map spot).Nodup) :
    ∃ d, makeDict run (perBand ms s sql label) = .ok d ∧ d.map Prod.snd = perBand ms s sql label ∧ d.length = 7 * ms.length := by
  refine ⟨_, by rw [makeDict_eq, if_pos (perBand_nodup run ms s sql label h)], ?_, ?_⟩
  · rw [List.map_map]
    exact List.map_id _
  · simp [perBand, Batches.bandList]
    ring

/-- So it is with the maps in altitude and azimuth. -/
theorem altaz_dict (run metric : Str) (sql label : Option Str) :
    ∃ d, makeDict run (altaz metric sql label) = .ok d ∧ d.map Prod.snd = altaz metric sql label ∧ d.length = 7 :=
  perBand_dict run [metric] _ sql label (by simp)

private theorem perBand_disj (run : Str) (ms ns : List Str) (s : Str) (sql label : Option Str) (h : ∀ m ∈ ms, ∀ n ∈ ns, spot m ≠ spot n) :
    List.Disjoint ((perBand ms s sql label).map (Bun.root run)) ((perBand ns s sql label).map (Bun.root run)) := by
  intro x hx hy
  simp only [perBand, List.mem_map, List.mem_flatMap] at hx hy
  obtain ⟨_, ⟨a, ha, m, hm, rfl⟩, rfl⟩ := hx
  obtain ⟨_, ⟨b, hb, n, hn, rfl⟩, e⟩ := hy
  exact h m hm n hn ((band_root run n m s sql label b a hb ha).mp e).2.symm

/-- And with the lengths and numbers of seasons: fifteen bundles. -/
theorem seasons_dict (run slicer : Str) (sql label : Option Str) :
    ∃ d, makeDict run (seasons slicer sql label) = .ok d ∧ d.map Prod.snd = seasons slicer sql label ∧ d.length = 15 := by
  have nd : ((seasons slicer sql label).map (Bun.root run)).Nodup := by
    unfold seasons
    rw [List.map_append, List.map_append, List.nodup_append', List.nodup_append']
    refine ⟨⟨perBand_nodup _ _ _ _ _ (by simp), perBand_nodup _ _ _ _ _ (by simp), perBand_disj _ _ _ _ _ _ (by decide +kernel)⟩, by simp, ?_⟩
    rw [← List.map_append]
    intro x hx hy
    simp only [perBand, List.mem_map, List.mem_flatMap, List.mem_append, List.mem_singleton] at hx hy
    obtain ⟨_, rfl, rfl⟩ := hy
    have ne : ∀ m ∈ ["Median Season Length".toList, "80thPercentile Season Length".toList], spot m ≠ spot "NSeasons".toList := by decide +kernel
    rcases hx with ⟨_, ⟨a, ha, m, rfl, rfl⟩ | ⟨a, ha, m, rfl, rfl⟩, e⟩
    · exact ne _ (by simp) ((band_root run _ _ slicer sql label a none ha (by decide)).mp e).2
    · exact ne _ (by simp) ((band_root run _ _ slicer sql label a none ha (by decide)).mp e).2
  exact ⟨_, by rw [makeDict_eq, if_pos nd], by rw [List.map_map]; exact List.map_id _, by simp [seasons, perBand, Batches.bandList]⟩

example : (perBand ["fO".toList] "HEAL".toList (some "night < 365".toList) none).map (Bun.root "v4".toList)
    = ["v4_fO_night_lt_365_all_bands_HEAL", "v4_fO_night_lt_365_u_band_HEAL", "v4_fO_night_lt_365_g_band_HEAL", "v4_fO_night_lt_365_r_band_HEAL",
       "v4_fO_night_lt_365_i_band_HEAL", "v4_fO_night_lt_365_z_band_HEAL", "v4_fO_night_lt_365_y_band_HEAL"].map String.toList := by decide +kernel

/-! ## C508: gaps between visits -/

private def gapNames : List Str :=
  ["Tgaps observationStartMJD".toList, "Gaps at  3.0 hr".toList, "Gaps at  7.0 hr".toList, "Gaps at  24.0 hr".toList]

private theorem gaps_roots (run slicer : Str) (sql label : Option Str) (sub : Str) :
    (timeGaps slicer sql label sub).map (Bun.root run) = (perBand gapNames slicer sql label).map (Bun.root run) := by
  have h : ∀ (bs : List (Option Char)) (sub : Str), (gapsLoop slicer sql label sub bs).map (Bun.root run)
      = (bs.flatMap (fun b => gapNames.map (fun m => ({ metric := m, info := bandLabel sql label b, slicer := slicer, sql := bandText defaultBandCol sql b } : Bun)))).map
          (Bun.root run) := by
    intro bs
    induction bs with
    | nil => intro _; rfl
    | cons b bs ih =>
      intro sub
      rw [gapsLoop, List.map_append, ih, List.flatMap_cons, List.map_append]
      simp [gapsBand, gapNames, Bun.root]
  exact h _ _

/-- **C508.** There are twenty-eight bundles and no `NameError`. -/
theorem timeGaps_dict (run slicer : Str) (sql label : Option Str) (sub : Str) :
    ∃ d, makeDict run (timeGaps slicer sql label sub) = .ok d ∧ d.map Prod.snd = timeGaps slicer sql label sub ∧ d.length = 28 := by
  refine ⟨_, by rw [makeDict_eq, if_pos]; rw [gaps_roots]; exact perBand_nodup _ _ _ _ _ (by decide +kernel), by rw [List.map_map]; exact List.map_id _, ?_⟩
  simp [timeGaps, gapsLoop, Batches.bandList, gapsBand]

/-- The histograms of gaps are put in the subgroup asked for only in the case of all bands; those of the single bands are put in "Gaps Sampling". -/
theorem timeGaps_subgroup_partial (slicer : Str) (sql label : Option Str) (sub : Str) (b : Bun) (hb : b ∈ timeGaps slicer sql label sub) :
    b.subgroup = if b.metric = "Tgaps observationStartMJD".toList ∧ b.info = bandLabel sql label none then sub else "Gaps Sampling".toList := by
  have inj : ∀ c ∈ ['u', 'g', 'r', 'i', 'z', 'y'], bandLabel sql label (some c) ≠ bandLabel sql label none := by
    intro c hc e
    have h := (band_root [] [] [] [] sql label (some c) none (by simp only [Batches.bandList]; simpa using hc) (by decide)).mp (by rw [e])
    exact absurd h.1 (by simp)
  have n1 : ∀ m ∈ ["Gaps at  3.0 hr".toList, "Gaps at  7.0 hr".toList, "Gaps at  24.0 hr".toList], m ≠ "Tgaps observationStartMJD".toList := by decide
  have later : ∀ (bs : List (Option Char)), (∀ x ∈ bs, ∃ c ∈ ['u', 'g', 'r', 'i', 'z', 'y'], x = some c) →
      ∀ b ∈ gapsLoop slicer sql label "Gaps Sampling".toList bs, b.subgroup = "Gaps Sampling".toList ∧ b.info ≠ bandLabel sql label none := by
    intro bs
    induction bs with
    | nil => intro _ b hb; simp [gapsLoop] at hb
    | cons x bs ih =>
      intro hx b hb
      rw [gapsLoop, List.mem_append] at hb
      rcases hb with hb | hb
      · obtain ⟨c, hc, rfl⟩ := hx x (by simp)
        simp only [gapsBand, List.mem_cons, List.mem_map] at hb
        rcases hb with rfl | ⟨m, _, rfl⟩ <;> exact ⟨rfl, inj c hc⟩
      · exact ih (fun y hy => hx y (by simp [hy])) b (by simpa [gapsBand] using hb)
  unfold timeGaps at hb
  have hl : Batches.bandList true = none :: ['u', 'g', 'r', 'i', 'z', 'y'].map some := rfl
  rw [hl, gapsLoop, List.mem_append] at hb
  rcases hb with hb | hb
  · simp only [gapsBand, List.mem_cons, List.mem_map] at hb
    rcases hb with rfl | ⟨m, hm, rfl⟩
    · rw [if_pos ⟨rfl, rfl⟩]
    · rw [if_neg (fun h => n1 m (by simpa using hm) h.1)]
  · have := later (['u', 'g', 'r', 'i', 'z', 'y'].map some) (by decide) b hb
    rw [if_neg (fun h => this.2 h.2), this.1]

/-- So the subgroup given is not that of all histograms. -/
theorem timeGaps_subgroup_false (slicer : Str) (sql label : Option Str) :
    ¬ ∀ sub : Str, ∀ b ∈ timeGaps slicer sql label sub, b.metric = "Tgaps observationStartMJD".toList → b.subgroup = sub := by
  intro h
  have := h [] ((gapsBand slicer sql label "Gaps Sampling".toList (some 'u')).1.head (by simp [gapsBand]))
    (by simp [timeGaps, gapsLoop, Batches.bandList, gapsBand]) (by simp [gapsBand])
  simp [gapsBand] at this

example : ((timeGaps "HEAL".toList none none "Visit Gaps".toList).map (fun b => String.ofList b.subgroup)).take 6
    = ["Visit Gaps", "Gaps Sampling", "Gaps Sampling", "Gaps Sampling", "Gaps Sampling", "Gaps Sampling"] := by decide +kernel

/-! ## C509: metadata -/

/-- Four characters that stay as they are. -/
def Letters (s : Str) : Prop := s.length = 4 ∧ ∀ c ∈ s, c ∉ unfriendly ∧ c ≠ '_'

private theorem tail_letters {s : Str} (h : Letters s) : (squeeze ('_' :: s.flatMap image)).tail = s := by
  rw [flatMap_image (fun c hc => (h.2 c hc).1), squeeze_cons, squeeze_of_not_double]
  · rw [if_neg]
    · rfl
    · rintro ⟨-, e⟩
      obtain ⟨t, rfl⟩ := List.head?_eq_some_iff.mp e
      exact (h.2 '_' (by simp)).2 rfl
  · obtain ⟨hl, h⟩ := h
    clear hl
    induction s with
    | nil => rfl
    | cons c r ih =>
      cases r with
      | nil => rfl
      | cons d r =>
        have hc := (h c (by simp)).2
        simp only [hasDouble, Bool.or_eq_false_iff, Bool.and_eq_false_iff, beq_eq_false_iff_ne]
        exact ⟨Or.inl hc, ih (fun x hx => h x (List.mem_cons_of_mem _ hx))⟩

/-- Bundles of slicers with different letters have different file names. -/
theorem root_slicer (run m n i j s t : Str) (hs : Letters s) (ht : Letters t) (h : BaseM.fileRoot run m i s = BaseM.fileRoot run n j t) : s = t := by
  rw [root_eq, root_eq, tail_letters hs, tail_letters ht] at h
  exact (List.append_inj' h (by rw [hs.1, ht.1])).2

instance (s : Str) : Decidable (Letters s) := by unfold Letters; infer_instance

theorem perBand_other (run : Str) (ms ns : List Str) (s t : Str) (sql label : Option Str) (hs : Letters s) (ht : Letters t) (hne : s ≠ t) :
    List.Disjoint ((perBand ms s sql label).map (Bun.root run)) ((perBand ns t sql label).map (Bun.root run)) := by
  intro x hx hy
  simp only [perBand, List.mem_map, List.mem_flatMap] at hx hy
  obtain ⟨_, ⟨a, ha, m, hm, rfl⟩, rfl⟩ := hx
  obtain ⟨_, ⟨b, hb, n, hn, rfl⟩, e⟩ := hy
  exact hne (root_slicer _ _ _ _ _ _ _ ht hs e).symm

private theorem spot_prefix (p q : String) (v : Str) (hp : p.toList = p.toList.dropLast ++ [' ']) (hq : q.toList = q.toList.dropLast ++ [' '])
    (h : spot (p.toList ++ v) = spot (q.toList ++ v)) : core p.toList.dropLast = core q.toList.dropLast := by
  rw [spot_inj, hp, hq, List.append_assoc, List.append_assoc, List.singleton_append, core_words, core_words] at h
  exact List.append_cancel_right h

private theorem nodup_prefix (ps : List String) (v : Str) (h1 : ∀ p ∈ ps, p.toList = p.toList.dropLast ++ [' ']) (h2 : (ps.map (fun p => core p.toList.dropLast)).Nodup) :
    ((ps.map (fun p => p.toList ++ v)).map spot).Nodup := by
  rw [List.map_map]
  refine List.Nodup.map_on ?_ (List.Nodup.of_map _ h2)
  intro p hp q hq e
  simp only [Function.comp] at e
  exact List.inj_on_of_nodup_map h2 hp hq (spot_prefix p q v (h1 p hp) (h1 q hq) e)

/-- **C509.** Whatever the quantity, the labels and the condition, the bundles of the metadata have different file names if the slicer given for the maps is not a `UniSlicer`; -/
theorem metadata_dict_partial (run value sky : Str) (sql label : Option Str) (hs : Letters sky) (hne : sky ≠ "UNIS".toList) :
    ∃ d, makeDict run (metadataBasics value sky sql label) = .ok d ∧ d.map Prod.snd = metadataBasics value sky sql label ∧ d.length = 98 := by
  have three : ((["Min ", "Median ", "Max "].map (fun p => p.toList ++ value)).map spot).Nodup := nodup_prefix _ value (by decide) (by decide +kernel)
  have ten : ((extendedNames value).map spot).Nodup := nodup_prefix _ value (by decide) (by decide +kernel)
  have nd : ((metadataBasics value sky sql label).map (Bun.root run)).Nodup := by
    unfold metadataBasics
    rw [List.map_append, List.map_append, List.nodup_append', List.nodup_append']
    refine ⟨⟨perBand_nodup _ _ _ _ _ ten, perBand_nodup _ _ _ _ _ (by simp), perBand_other _ _ _ _ _ _ _ (by decide) (by decide) (by decide)⟩,
      perBand_nodup _ _ _ _ _ three, ?_⟩
    rw [List.disjoint_append_left]
    refine ⟨perBand_other _ _ _ _ _ _ _ (by decide) hs hne.symm, ?_⟩
    by_cases ho : sky = "ONED".toList
    · rw [ho]
      refine perBand_disj _ _ _ _ _ _ ?_
      intro m hm n hn e
      simp only [List.mem_singleton] at hm
      subst hm
      have e1 : core (value ++ " Histogram".toList) = core value ++ "Histogram_".toList := by
        have : value ++ " Histogram".toList = value ++ ' ' :: "Histogram".toList := rfl
        rw [this, core_words]
        congr 1
      have l : ∀ p ∈ ["Min ", "Median ", "Max "], (core (p.toList ++ value)).length ≠ (core value).length + 10 := by
        intro p hp
        have h1 : ∀ p ∈ ["Min ", "Median ", "Max "], p.toList = p.toList.dropLast ++ [' '] ∧ (core p.toList.dropLast).length < 10 := by decide +kernel
        rw [(h1 p hp).1, List.append_assoc, List.singleton_append, core_words, List.length_append]
        have := (h1 p hp).2
        omega
      rw [spot_inj, e1] at e
      have e2 := congrArg List.length e
      rw [List.length_append] at e2
      have hl : "Histogram_".toList.length = 10 := by decide
      rw [hl] at e2
      simp only [List.mem_cons, List.not_mem_nil, or_false] at hn
      rcases hn with rfl | rfl | rfl
      · exact l "Min " (by simp) e2.symm
      · exact l "Median " (by simp) e2.symm
      · exact l "Max " (by simp) e2.symm
    · exact perBand_other _ _ _ _ _ _ _ (by decide) hs (fun e => ho e.symm)
  refine ⟨_, by rw [makeDict_eq, if_pos nd], by rw [List.map_map]; exact List.map_id _, ?_⟩
  simp [metadataBasics, perBand, Batches.bandList, extendedNames]

/-- with a `UniSlicer` there is always a `NameError`, as minimum, median and maximum are among the statistics over all visits. -/
theorem metadata_dict_false (run value : Str) (sql label : Option Str) : makeDict run (metadataBasics value "UNIS".toList sql label) = .error "NameError" := by
  rw [makeDict_eq, if_neg]
  intro h
  unfold metadataBasics at h
  rw [List.map_append, List.nodup_append'] at h
  have hd := h.2.2
  refine hd (a := BaseM.fileRoot run ("Min ".toList ++ value) (bandLabel sql label none) "UNIS".toList) ?_ ?_
  · simp only [List.map_append, List.mem_append]
    left
    refine List.mem_map.mpr ⟨{ metric := "Min ".toList ++ value, info := bandLabel sql label none, slicer := "UNIS".toList, sql := bandText defaultBandCol sql none }, ?_, rfl⟩
    simp [perBand, Batches.bandList, extendedNames]
  · refine List.mem_map.mpr ⟨{ metric := "Min ".toList ++ value, info := bandLabel sql label none, slicer := "UNIS".toList, sql := bandText defaultBandCol sql none }, ?_, rfl⟩
    simp [perBand, Batches.bandList]

example : Letters "HEAL".toList ∧ "HEAL".toList ≠ "UNIS".toList := by decide

/-! ## C510: slews -/

private theorem same_nodup (run i s : Str) (bs : List Bun) (h : ∀ b ∈ bs, b.info = i ∧ b.slicer = s) (hm : ((bs.map Bun.metric).map spot).Nodup) :
    (bs.map (Bun.root run)).Nodup := by
  rw [List.map_map] at hm
  refine List.Nodup.map_on ?_ (List.Nodup.of_map _ hm)
  intro b hb c hc e
  unfold Bun.root at e
  rw [(h b hb).1, (h b hb).2, (h c hc).1, (h c hc).2] at e
  have e' := (root_metric run b.metric c.metric i s).mp e
  have key : (spot ∘ Bun.metric) b = (spot ∘ Bun.metric) c := by
    simp only [Function.comp]
    exact e'
  exact List.inj_on_of_nodup_map hm hb hc key

private theorem slicer_disj (run s t : Str) (bs cs : List Bun) (hs : Letters s) (ht : Letters t) (hne : s ≠ t) (h : ∀ b ∈ bs, b.slicer = s) (h' : ∀ b ∈ cs, b.slicer = t) :
    List.Disjoint (bs.map (Bun.root run)) (cs.map (Bun.root run)) := by
  intro x hx hy
  obtain ⟨b, hb, rfl⟩ := List.mem_map.mp hx
  obtain ⟨c, hc, e⟩ := List.mem_map.mp hy
  unfold Bun.root at e
  rw [h b hb, h' c hc] at e
  exact hne (root_slicer _ _ _ _ _ _ _ ht hs e).symm

private theorem core_prefix (p : String) (v : Str) (hp : p.toList = p.toList.dropLast ++ [' ']) : core (p.toList ++ v) = core p.toList.dropLast ++ core v := by
  rw [hp, List.append_assoc, List.singleton_append, core_words, ← hp]

private theorem slew_uni (slewtime : Str) : (("Slew Count".toList :: ["Mean ", "Median ", "Min ", "Max "].map (fun p => p.toList ++ slewtime)).map spot).Nodup := by
  rw [List.map_cons, List.nodup_cons]
  refine ⟨?_, nodup_prefix _ slewtime (by decide) (by decide +kernel)⟩
  intro h
  simp only [List.mem_map] at h
  obtain ⟨_, ⟨p, hp, rfl⟩, e⟩ := h
  have hs : ∀ p ∈ ["Mean ", "Median ", "Min ", "Max "], p.toList = p.toList.dropLast ++ [' '] ∧ (core p.toList.dropLast).head? = some 'M' := by decide +kernel
  rw [spot_inj, core_prefix p slewtime (hs p hp).1] at e
  have e2 := congrArg List.head? e
  have hS : (core "Slew Count".toList).head? = some 'S' := by decide +kernel
  rw [List.head?_append, (hs p hp).2, hS, Option.some_or] at e2
  exact absurd e2 (by decide)

/-- **C510.** The batch on slews has no `NameError`, and has nine bundles if there is a column of distances and seven otherwise, all under the condition given. -/
theorem slew_dict (run slewtime : Str) (slewdist sql : Option Str) :
    ∃ d, makeDict run (slewBasics slewtime slewdist sql) = .ok d ∧ d.map Prod.snd = slewBasics slewtime slewdist sql
      ∧ d.length = (if slewdist.isSome then 9 else 7) ∧ ∀ b ∈ slewBasics slewtime slewdist sql, b.sql = sql.getD [] := by
  have fu : ∀ b ∈ slewUni slewtime (slewLabel sql) (sql.getD []), b.info = slewLabel sql ∧ b.slicer = "UNIS".toList ∧ b.sql = sql.getD [] := by
    intro b hb
    obtain ⟨p, -, rfl⟩ := List.mem_map.mp hb
    exact ⟨rfl, rfl, rfl⟩
  have fh : ∀ b ∈ slewHist slewdist (sql.getD []), b.info = "All visits".toList ∧ b.slicer = "ONED".toList ∧ b.sql = sql.getD [] := by
    intro b hb
    obtain ⟨p, -, rfl⟩ := List.mem_map.mp hb
    exact ⟨rfl, rfl, rfl⟩
  have nd : ((slewBasics slewtime slewdist sql).map (Bun.root run)).Nodup := by
    have u := slew_uni slewtime
    unfold slewBasics
    rw [List.map_append, List.nodup_append']
    refine ⟨?_, ?_, slicer_disj run "UNIS".toList "ONED".toList _ _ (by decide) (by decide) (by decide) (fun b hb => (fu b hb).2.1) (fun b hb => (fh b hb).2.1)⟩
    · refine same_nodup run (slewLabel sql) "UNIS".toList _ (fun b hb => ⟨(fu b hb).1, (fu b hb).2.1⟩) ?_
      have e : (slewUni slewtime (slewLabel sql) (sql.getD [])).map Bun.metric = "Slew Count".toList :: ["Mean ", "Median ", "Min ", "Max "].map (fun p => p.toList ++ slewtime) := by
        unfold slewUni
        rw [List.map_map, List.map_cons, List.map_map]
        rfl
      rw [e]
      exact u
    · refine same_nodup run "All visits".toList "ONED".toList _ (fun b hb => ⟨(fh b hb).1, (fh b hb).2.1⟩) ?_
      have h2 : (["Slew Time Histogram".toList, "Zoom Slew Time Histogram".toList].map spot).Nodup := by decide +kernel
      have h4 : (["Slew Time Histogram".toList, "Zoom Slew Time Histogram".toList, "Slew Distance Histogram".toList, "Zoom Slew Distance Histogram".toList].map spot).Nodup := by
        decide +kernel
      have e : (slewHist slewdist (sql.getD [])).map Bun.metric = match slewdist with
          | none => ["Slew Time Histogram".toList, "Zoom Slew Time Histogram".toList]
          | some _ => ["Slew Time Histogram".toList, "Zoom Slew Time Histogram".toList, "Slew Distance Histogram".toList, "Zoom Slew Distance Histogram".toList] := by
        cases slewdist <;> rfl
      rw [e]
      cases slewdist
      · exact h2
      · exact h4
  refine ⟨_, by rw [makeDict_eq, if_pos nd], by rw [List.map_map]; exact List.map_id _, ?_, ?_⟩
  · rw [List.length_map]
    cases slewdist <;> rfl
  · intro b hb
    rcases List.mem_append.mp hb with hb | hb
    · exact (fu b hb).2.2
    · exact (fh b hb).2.2

/-- The statistics are labelled with the condition; but the histograms are labelled "All visits" whatever it is, -/
theorem slew_label (slewtime : Str) (slewdist : Option Str) (cond : Str) (hc : cond ≠ []) (b : Bun) (hb : b ∈ slewBasics slewtime slewdist (some cond)) :
    b.info = if b.slicer = "UNIS".toList then cond else "All visits".toList := by
  have he : slewLabel (some cond) = cond := by
    unfold slewLabel
    simp [hc]
  rcases List.mem_append.mp hb with hb | hb
  · obtain ⟨p, -, rfl⟩ := List.mem_map.mp hb
    rw [if_pos rfl]
    exact he
  · obtain ⟨p, -, rfl⟩ := List.mem_map.mp hb
    have hn : ¬ ("ONED".toList = "UNIS".toList) := by decide
    exact (if_neg hn).symm

/-- so the label of a bundle does not tell its condition, and the batches of two different conditions have bundles of the same file name. -/
theorem slew_label_false (run slewtime : Str) (slewdist : Option Str) (c d : Str) (hcd : c ≠ d) :
    ∃ b ∈ slewBasics slewtime slewdist (some c), ∃ b' ∈ slewBasics slewtime slewdist (some d), b.sql ≠ b'.sql ∧ b.info = b'.info ∧ b.root run = b'.root run := by
  refine ⟨{ metric := "Slew Time Histogram".toList, info := "All visits".toList, slicer := "ONED".toList, sql := c, subgroup := "Slew Basics".toList,
            caption := "Histogram of slew times (seconds) for all visits.".toList }, ?_,
          { metric := "Slew Time Histogram".toList, info := "All visits".toList, slicer := "ONED".toList, sql := d, subgroup := "Slew Basics".toList,
            caption := "Histogram of slew times (seconds) for all visits.".toList }, ?_, hcd, rfl, rfl⟩
  · exact List.mem_append_right _ (List.mem_map.mpr ⟨_, List.mem_append_left _ (List.mem_cons_self), rfl⟩)
  · exact List.mem_append_right _ (List.mem_map.mpr ⟨_, List.mem_append_left _ (List.mem_cons_self), rfl⟩)

example : ((slewBasics "slewTime".toList none (some "night < 365".toList)).map (fun b => String.ofList (b.root "r".toList)))
    = ["r_Slew_Count_night_lt_365_UNIS", "r_Mean_slewTime_night_lt_365_UNIS", "r_Median_slewTime_night_lt_365_UNIS", "r_Min_slewTime_night_lt_365_UNIS",
       "r_Max_slewTime_night_lt_365_UNIS", "r_Slew_Time_Histogram_All_visits_ONED", "r_Zoom_Slew_Time_Histogram_All_visits_ONED"] := by decide +kernel

/-! ## C511: changes of filter -/

private theorem change_nodup (filterCol : Str) : ((changeNames filterCol false).map spot).Nodup := by
  have w : ∀ (a b : String), (a.toList = a.toList.dropLast ++ [' ']) → (b.toList = ' ' :: b.toList.tail) →
      core (a.toList ++ filterCol ++ b.toList) = core a.toList.dropLast ++ (core filterCol ++ core b.toList.tail) := by
    intro a b ha hb
    rw [List.append_assoc, core_prefix a _ ha, hb, core_words]
    rfl
  have c2 := w "Minimum time between " " changes (minutes)" (by decide) (by decide)
  have c3 := w "Number of " " changes faster than <10.0 minutes" (by decide) (by decide)
  have c4 := w "Number of " " changes faster than <20.0 minutes" (by decide) (by decide)
  have c5 := w "Max number of " " changes within 10.0 minutes" (by decide) (by decide)
  have c6 := w "Max number of " " changes within 20.0 minutes" (by decide) (by decide)
  have key : ∀ (x y : Str) (p q : Str), p.length = 2 → q.length = 2 → p ≠ q → p ++ x ≠ q ++ y := by
    intro x y p q hp hq hne e
    exact hne (List.append_inj e (by rw [hp, hq])).1
  have t2 : core "Minimum time between ".toList.dropLast = ['M', 'i'] ++ (core "Minimum time between ".toList.dropLast).drop 2 := by decide +kernel
  have t3 : core "Number of ".toList.dropLast = ['N', 'u'] ++ (core "Number of ".toList.dropLast).drop 2 := by decide +kernel
  have t5 : core "Max number of ".toList.dropLast = ['M', 'a'] ++ (core "Max number of ".toList.dropLast).drop 2 := by decide +kernel
  have t1 : core "Filter Changes".toList = ['F', 'i'] ++ (core "Filter Changes".toList).drop 2 := by decide +kernel
  have d34 : core " changes faster than <10.0 minutes".toList.tail ≠ core " changes faster than <20.0 minutes".toList.tail := by decide +kernel
  have d56 : core " changes within 10.0 minutes".toList.tail ≠ core " changes within 20.0 minutes".toList.tail := by decide +kernel
  simp only [changeNames, Bool.false_eq_true, if_false, List.map_cons, List.map_nil, List.nodup_cons, List.mem_cons, List.not_mem_nil, or_false, not_or, spot_inj]
  rw [c2, c3, c4, c5, c6]
  refine ⟨⟨?_, ?_, ?_, ?_, ?_⟩, ⟨?_, ?_, ?_, ?_⟩, ⟨?_, ?_, ?_⟩, ⟨?_, ?_⟩, ?_, by simp⟩
  · rw [t1, t2, List.append_assoc]; exact key _ _ _ _ rfl rfl (by decide)
  · rw [t1, t3, List.append_assoc]; exact key _ _ _ _ rfl rfl (by decide)
  · rw [t1, t3, List.append_assoc]; exact key _ _ _ _ rfl rfl (by decide)
  · rw [t1, t5, List.append_assoc]; exact key _ _ _ _ rfl rfl (by decide)
  · rw [t1, t5, List.append_assoc]; exact key _ _ _ _ rfl rfl (by decide)
  · rw [t2, t3, List.append_assoc, List.append_assoc]; exact key _ _ _ _ rfl rfl (by decide)
  · rw [t2, t3, List.append_assoc, List.append_assoc]; exact key _ _ _ _ rfl rfl (by decide)
  · rw [t2, t5, List.append_assoc, List.append_assoc]; exact key _ _ _ _ rfl rfl (by decide)
  · rw [t2, t5, List.append_assoc, List.append_assoc]; exact key _ _ _ _ rfl rfl (by decide)
  · exact fun e => d34 (List.append_cancel_left (List.append_cancel_left e))
  · rw [t3, t5, List.append_assoc, List.append_assoc]; exact key _ _ _ _ rfl rfl (by decide)
  · rw [t3, t5, List.append_assoc, List.append_assoc]; exact key _ _ _ _ rfl rfl (by decide)
  · rw [t3, t5, List.append_assoc, List.append_assoc]; exact key _ _ _ _ rfl rfl (by decide)
  · rw [t3, t5, List.append_assoc, List.append_assoc]; exact key _ _ _ _ rfl rfl (by decide)
  · exact fun e => d56 (List.append_cancel_left (List.append_cancel_left e))

/-- **C511.** Neither batch of filter changes has a `NameError`, nor do both together: there are six bundles each. -/
theorem changes_dict (run filterCol nights : Str) (sql label sql' label' : Option Str) :
    ∃ d, makeDict run (perNight filterCol nights sql label ++ wholeSurvey filterCol sql' label') = .ok d
      ∧ d.map Prod.snd = perNight filterCol nights sql label ++ wholeSurvey filterCol sql' label' ∧ d.length = 12 := by
  have nd : ((perNight filterCol nights sql label ++ wholeSurvey filterCol sql' label').map (Bun.root run)).Nodup := by
    rw [List.map_append, List.nodup_append']
    have c := change_nodup filterCol
    refine ⟨?_, ?_, ?_⟩
    · refine same_nodup run (changeLabel (if nights = ['1'] then "Per Night".toList else "Per ".toList ++ nights ++ " Nights".toList) sql label) "ONED".toList _ ?_ ?_
      · intro b hb
        obtain ⟨m, -, rfl⟩ := List.mem_map.mp hb
        exact ⟨rfl, rfl⟩
      · have e : (perNight filterCol nights sql label).map Bun.metric = changeNames filterCol false := by
          unfold perNight
          rw [List.map_map]
          exact List.map_id _
        rw [e]
        exact c
    · refine same_nodup run (changeLabel "Whole Survey".toList sql' label') "UNIS".toList _ ?_ ?_
      · intro b hb
        obtain ⟨m, -, rfl⟩ := List.mem_map.mp hb
        exact ⟨rfl, rfl⟩
      · have e : (wholeSurvey filterCol sql' label').map Bun.metric = changeNames filterCol false := by
          unfold wholeSurvey
          rw [List.map_map]
          exact List.map_id _
        rw [e]
        exact c
    · refine slicer_disj run "ONED".toList "UNIS".toList _ _ (by decide) (by decide) (by decide) (fun b hb => ?_) (fun b hb => ?_)
      · obtain ⟨m, -, rfl⟩ := List.mem_map.mp hb
        rfl
      · obtain ⟨m, -, rfl⟩ := List.mem_map.mp hb
        rfl
  exact ⟨_, by rw [makeDict_eq, if_pos nd], by rw [List.map_map]; exact List.map_id _, rfl⟩

/-- The name for the whole survey, "Total Filter Changes", is never used: the metric of the whole survey has the name of that per night. -/
theorem whole_name_false (filterCol : Str) (sql label : Option Str) :
    (wholeSurvey filterCol sql label).map (fun b => b.metric) = changeNames filterCol false
    ∧ ∀ b ∈ (wholeSurvey filterCol sql label).head?, b.metric = "Filter Changes".toList ∧ b.metric ≠ "Total Filter Changes".toList := by
  constructor
  · simp only [wholeSurvey, List.map_map]
    exact List.map_id _
  · intro b hb
    simp only [wholeSurvey, changeNames, Bool.false_eq_true, if_false, List.map_cons, List.head?_cons, Option.mem_def, Option.some.injEq] at hb
    subst hb
    have hn : "Filter Changes".toList ≠ "Total Filter Changes".toList := by decide
    exact ⟨rfl, hn⟩

/-- The label says the condition only if no label is given; with a label, the condition is not in it. -/
theorem change_label (start : Str) (sql : Option Str) (cond x : Str) (hc : cond ≠ []) :
    changeLabel start (some cond) none = start ++ ' ' :: cond ∧ changeLabel start sql (some x) = start ++ ' ' :: x ∧ changeLabel start none none = start
      ∧ changeLabel start (some []) none = start := by
  have he : cond.isEmpty = false := by simpa using hc
  refine ⟨by simp [changeLabel, he], ?_, rfl, rfl⟩
  cases sql <;> simp [changeLabel]

example : (wholeSurvey "filter".toList none none).map (fun b => String.ofList (b.root "r".toList))
    = ["r_Filter_Changes_Whole_Survey_UNIS", "r_Minimum_time_between_filter_changes_minutes_Whole_Survey_UNIS",
       "r_Number_of_filter_changes_faster_than_lt10_0_minutes_Whole_Survey_UNIS", "r_Number_of_filter_changes_faster_than_lt20_0_minutes_Whole_Survey_UNIS",
       "r_Max_number_of_filter_changes_within_10_0_minutes_Whole_Survey_UNIS", "r_Max_number_of_filter_changes_within_20_0_minutes_Whole_Survey_UNIS"] := by
  decide +kernel

/-! ## C512: open shutter, and the number of nights -/

/-- **C512.** The four bundles of the batch have different file names. -/
theorem shutter_dict (run nightCol : Str) (sql label : Option Str) :
    ∃ d, makeDict run (openShutter nightCol sql label) = .ok d ∧ d.map Prod.snd = openShutter nightCol sql label ∧ d.length = 4 := by
  have nd : ((openShutter nightCol sql label).map (Bun.root run)).Nodup := by
    have e : openShutter nightCol sql label = (openShutter nightCol sql label).take 3 ++ (openShutter nightCol sql label).drop 3 := (List.take_append_drop 3 _).symm
    rw [e, List.map_append, List.nodup_append']
    refine ⟨same_nodup run (shutterLabel "All visits".toList "all visits".toList sql label) "UNIS".toList _ ?_ ?_, by simp [openShutter], ?_⟩
    · intro b hb
      simp only [openShutter, List.take_succ_cons, List.take_zero, List.mem_cons, List.not_mem_nil, or_false] at hb
      rcases hb with rfl | rfl | rfl <;> exact ⟨rfl, rfl⟩
    · simp only [openShutter, List.take_succ_cons, List.take_zero, List.map_cons, List.map_nil, List.nodup_cons, List.mem_cons, List.not_mem_nil, or_false, not_or, spot_inj]
      rw [core_prefix "CountUnique " nightCol (by decide), core_prefix "FullRange " nightCol (by decide)]
      have a1 : core "CountUnique ".toList.dropLast ≠ core "FullRange ".toList.dropLast := by decide +kernel
      have h1 : (core "OpenShutterFraction".toList).head? = some 'O' := by decide +kernel
      have h2 : (core "CountUnique ".toList.dropLast).head? = some 'C' := by decide +kernel
      have h3 : (core "FullRange ".toList.dropLast).head? = some 'F' := by decide +kernel
      refine ⟨⟨fun e => ?_, fun e => ?_⟩, fun e => a1 (List.append_cancel_right e), by simp⟩
      · have := congrArg List.head? e
        rw [List.head?_append, h1, h2, Option.some_or] at this
        exact absurd this (by decide)
      · have := congrArg List.head? e
        rw [List.head?_append, h1, h3, Option.some_or] at this
        exact absurd this (by decide)
    · refine slicer_disj run "UNIS".toList "ONED".toList _ _ (by decide) (by decide) (by decide) (fun b hb => ?_) (fun b hb => ?_)
      · simp only [openShutter, List.take_succ_cons, List.take_zero, List.mem_cons, List.not_mem_nil, or_false] at hb
        rcases hb with rfl | rfl | rfl <;> rfl
      · simp only [openShutter, List.drop_succ_cons, List.drop_zero, List.mem_cons, List.not_mem_nil, or_false] at hb
        subst hb
        rfl
  exact ⟨_, by rw [makeDict_eq, if_pos nd], by rw [List.map_map]; exact List.map_id _, by simp [openShutter]⟩

/-- "Number of nights from start to finish": the number of nights from the first to the last, both included, is one more than what is reported, and what is reported can be less than the number of
nights with visits by one. -/
theorem fullRange_nights (nights : List Int) (lo hi : Int) (h1 : nights.min? = some lo) (h2 : nights.max? = some hi) :
    ((Finset.Icc lo hi).card : Int) = fullRange nights + 1 ∧ (countUnique nights : Int) ≤ fullRange nights + 1 := by
  have m := List.min?_eq_some_iff.mp h1
  have M := List.max?_eq_some_iff.mp h2
  have hle : lo ≤ hi := M.2 lo m.1
  have e : fullRange nights = hi - lo := by simp [fullRange, h1, h2]
  have c : ((Finset.Icc lo hi).card : Int) = fullRange nights + 1 := by
    rw [Int.card_Icc, e]
    omega
  refine ⟨c, ?_⟩
  rw [← c, countUnique, ← List.toFinset_card_of_nodup (List.nodup_dedup nights)]
  have hs : nights.dedup.toFinset ⊆ Finset.Icc lo hi := by
    intro x hx
    have hx' : x ∈ nights := by simpa using hx
    exact Finset.mem_Icc.mpr ⟨m.2 x hx', M.2 x hx'⟩
  exact_mod_cast Finset.card_le_card hs

/-- It is never the number of nights. -/
theorem nights_false (nights : List Int) (lo hi : Int) (h1 : nights.min? = some lo) (h2 : nights.max? = some hi) :
    fullRange nights ≠ (Finset.Icc lo hi).card := by
  rw [(fullRange_nights nights lo hi h1 h2).1]
  omega

example : fullRange [1, 2, 2, 3] = 2 ∧ countUnique [1, 2, 2, 3] = 3 := by decide

/-! ## C513, C514: summaries -/

section
variable {K : Type} [Field K] [LinearOrder K] [IsStrictOrderedRing K]

private theorem filled_sum (vals : List (Option K)) : (vals.map (fun v => v.getD 0)).sum = (vals.filterMap (fun v => v)).sum := by
  induction vals with
  | nil => rfl
  | cons v vs ih => cases v <;> simpa using ih

/-- **C513.** With light curves in the footprint: the counts are the numbers of points not masked and of all points, the total is the sum, and the fractions are the total divided by the counts. -/
theorem lightcurve_spec (bad : K) (vals : List (Option K)) (h : ∃ x : K, some x ∈ vals) :
    lightcurveSummary bad vals =
      [("Total detected", (vals.filterMap (fun v => v)).sum), ("Total lightcurves in footprint", ((vals.countP Option.isSome : Nat) : K)), ("Total lightcurves on sky", (vals.length : K)),
       ("Fraction detected in footprint (mean)", (vals.filterMap (fun v => v)).sum / (vals.countP Option.isSome : Nat)),
       ("Fraction detected of total (mean)", (vals.filterMap (fun v => v)).sum / vals.length)] := by
  obtain ⟨x, hx⟩ := h
  have n1 : vals.filterMap (fun v => v) ≠ [] := List.ne_nil_of_mem (List.mem_filterMap.mpr ⟨some x, hx, rfl⟩)
  have n2 : vals ≠ [] := List.ne_nil_of_mem hx
  have l : (vals.filterMap (fun v => v)).length = vals.countP Option.isSome := by
    clear hx n1 n2
    induction vals with
    | nil => rfl
    | cons v vs ih => cases v <;> simpa using ih
  simp [lightcurveSummary, summary, summaryData, mean, n1, n2, filled_sum, l]

/-- Detection probabilities between 0 and 1 give fractions between 0 and 1, and the fraction of all light curves is at most that of those in the footprint. -/
theorem lightcurve_fractions (bad : K) (vals : List (Option K)) (h : ∃ x : K, some x ∈ vals) (h01 : ∀ x : K, some x ∈ vals → 0 ≤ x ∧ x ≤ 1) (f t : K)
    (hf : ("Fraction detected in footprint (mean)", f) ∈ lightcurveSummary bad vals) (ht : ("Fraction detected of total (mean)", t) ∈ lightcurveSummary bad vals) :
    0 ≤ t ∧ t ≤ f ∧ f ≤ 1 := by
  rw [lightcurve_spec bad vals h] at hf ht
  simp at hf ht
  obtain ⟨x, hx⟩ := h
  have c1 : 0 < vals.countP Option.isSome := List.countP_pos_iff.mpr ⟨some x, hx, rfl⟩
  have c2 : vals.countP Option.isSome ≤ vals.length := List.countP_le_length
  have s0 : ∀ l : List (Option K), (∀ x : K, some x ∈ l → 0 ≤ x ∧ x ≤ 1) → 0 ≤ (l.filterMap (fun v => v)).sum ∧ (l.filterMap (fun v => v)).sum ≤ (l.countP Option.isSome : Nat) := by
    intro l
    induction l with
    | nil => simp
    | cons v vs ih =>
      intro h
      have i := ih (fun x hx => h x (List.mem_cons_of_mem _ hx))
      cases v with
      | none => simpa using i
      | some x =>
        have := h x (by simp)
        simp only [List.filterMap_cons, List.sum_cons, List.countP_cons, Option.isSome_some, if_true]
        push_cast
        constructor <;> linarith
  have s := s0 vals h01
  have k1 : (0 : K) < (vals.countP Option.isSome : Nat) := by exact_mod_cast c1
  have k2 : ((vals.countP Option.isSome : Nat) : K) ≤ vals.length := by exact_mod_cast c2
  have k3 : (0 : K) < vals.length := lt_of_lt_of_le k1 k2
  subst hf ht
  refine ⟨div_nonneg s.1 k3.le, div_le_div_of_nonneg_left s.1 k1 k2, (div_le_one k1).mpr s.2⟩

/-- With no light curve in the footprint, the total is the bad value and not zero, nor is the count; the fraction of all light curves is zero. -/
theorem lightcurve_empty (bad : K) (vals : List (Option K)) (h : ∀ v ∈ vals, v = none) (hn : vals ≠ []) :
    lightcurveSummary bad vals = [("Total detected", bad), ("Total lightcurves in footprint", bad), ("Total lightcurves on sky", (vals.length : K)),
      ("Fraction detected in footprint (mean)", bad), ("Fraction detected of total (mean)", 0)] := by
  have e : vals.filterMap (fun v => v) = [] := by
    rw [List.filterMap_eq_nil_iff]
    intro v hv
    rw [h v hv]
  simp [lightcurveSummary, summary, summaryData, mean, e, hn, filled_sum]

theorem lightcurve_total_false (bad : K) (hb : bad ≠ 0) :
    ¬ ∀ vals : List (Option K), ("Total detected", (vals.filterMap (fun v => v)).sum) ∈ lightcurveSummary bad vals := by
  intro h
  have := h [none]
  rw [lightcurve_empty bad [none] (by simp) (by simp)] at this
  simp at this
  exact hb this.symm

example : lightcurveSummary (-666 : ℚ) [some 1, none, some 0, none] = [("Total detected", 1), ("Total lightcurves in footprint", 2), ("Total lightcurves on sky", 4),
    ("Fraction detected in footprint (mean)", 1/2), ("Fraction detected of total (mean)", 1/4)] := by
  decide +kernel

omit [IsStrictOrderedRing K] in
/-- **C514.** Any type other than "Npts" and "Fisher" is an exception. -/
theorem micro_error (kind : String) (npts cutoff bad : K) (vals : List (Option K)) :
    (∃ e, microlensingSummary kind npts cutoff bad vals = .error e) ↔ kind ≠ "Npts" ∧ kind ≠ "Fisher" := by
  unfold microlensingSummary
  split_ifs with h <;> simp [h]

omit [IsStrictOrderedRing K] in
/-- The first number is the fraction of the light curves in the footprint with at least the required number of points; for Fisher, with an uncertainty of at most the cutoff. -/
theorem micro_fraction_partial (npts cutoff bad : K) (vals : List (Option K)) (h : ∃ x : K, some x ∈ vals) :
    (∃ r, microlensingSummary "Npts" npts cutoff bad vals = .ok r
      ∧ r.head? = some (((vals.countP (fun v => v.elim false (fun x => decide (npts ≤ x))) : Nat) : K) / (vals.countP Option.isSome : Nat)))
    ∧ (∃ r, microlensingSummary "Fisher" npts cutoff bad vals = .ok r
      ∧ r.head? = some (((vals.countP (fun v => v.elim false (fun x => decide (x ≤ cutoff))) : Nat) : K) / (vals.countP Option.isSome : Nat))) := by
  obtain ⟨x, hx⟩ := h
  have n1 : vals.filterMap (fun v => v) ≠ [] := List.ne_nil_of_mem (List.mem_filterMap.mpr ⟨some x, hx, rfl⟩)
  have c : ∀ (p : K → Bool) (l : List (Option K)), ((l.filterMap (fun v => v)).filter p).length = l.countP (fun v => v.elim false p) := by
    intro p l
    induction l with
    | nil => rfl
    | cons v vs ih =>
      cases v with
      | none => simpa using ih
      | some x => by_cases hp : p x <;> simpa [hp] using ih
  have l : (vals.filterMap (fun v => v)).length = vals.countP Option.isSome := by
    clear hx n1 c
    induction vals with
    | nil => rfl
    | cons v vs ih => cases v <;> simpa using ih
  constructor
  · refine ⟨_, rfl, ?_⟩
    simp only [if_true, summary, summaryData, fracAbove, c, l, List.head?_cons]
    rw [if_neg (by simpa using n1)]
  · refine ⟨_, rfl, ?_⟩
    simp only [summary, summaryData, fracBelow, c, l, List.head?_cons]
    rw [if_neg (by decide), if_neg (by simpa using n1)]

/-- So it is not the fraction with more than the required number of points, nor that with an uncertainty below the cutoff, as documented. -/
theorem micro_more_false (npts cutoff bad : K) :
    (¬ ∀ vals : List (Option K), (∃ x : K, some x ∈ vals) → ∃ r, microlensingSummary "Npts" npts cutoff bad vals = .ok r
      ∧ r.head? = some (((vals.countP (fun v => v.elim false (fun x => decide (npts < x))) : Nat) : K) / (vals.countP Option.isSome : Nat)))
    ∧ (¬ ∀ vals : List (Option K), (∃ x : K, some x ∈ vals) → ∃ r, microlensingSummary "Fisher" npts cutoff bad vals = .ok r
      ∧ r.head? = some (((vals.countP (fun v => v.elim false (fun x => decide (x < cutoff))) : Nat) : K) / (vals.countP Option.isSome : Nat))) := by
  constructor
  · intro h
    obtain ⟨r, e, hr⟩ := h [some npts] ⟨npts, by simp⟩
    obtain ⟨r', e', hr'⟩ := (micro_fraction_partial npts cutoff bad [some npts] ⟨npts, by simp⟩).1
    rw [e] at e'
    cases e'
    rw [hr] at hr'
    simp at hr'
  · intro h
    obtain ⟨r, e, hr⟩ := h [some cutoff] ⟨cutoff, by simp⟩
    obtain ⟨r', e', hr'⟩ := (micro_fraction_partial npts cutoff bad [some cutoff] ⟨cutoff, by simp⟩).2
    rw [e] at e'
    cases e'
    rw [hr] at hr'
    simp at hr'

/-- The mean uncertainty "of total" takes light curves without value as perfectly measured: the more of them there are, the smaller it is. -/
theorem micro_total (npts cutoff bad : K) (vals : List (Option K)) (n : Nat) (h : ∃ x : K, some x ∈ vals) :
    ∃ r, microlensingSummary "Fisher" npts cutoff bad (vals ++ List.replicate n none) = .ok r ∧ r[4]? = some ((vals.filterMap (fun v => v)).sum / ((vals.length : K) + n)) := by
  obtain ⟨x, hx⟩ := h
  refine ⟨_, rfl, ?_⟩
  have n2 : vals ≠ [] := List.ne_nil_of_mem hx
  have e : summary bad mean (some 0) (vals ++ List.replicate n none) = (vals.filterMap (fun v => v)).sum / ((vals.length : K) + n) := by
    unfold summary
    simp only
    rw [if_neg (by simp [summaryData, n2])]
    unfold mean summaryData
    simp only
    rw [filled_sum]
    simp
  simp only [List.getElem?_cons_succ, List.getElem?_cons_zero, e]

example : microlensingSummary "Fisher" (10 : ℚ) (1/10) (-666) [some (1/10), some (1/5), none] = .ok [1/2, 2, 3, 3/20, 1/10] := by decide +kernel

end

end Verif.Batch2
