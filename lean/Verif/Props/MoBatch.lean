import Verif.Model.MoBatch
import Verif.Props.Batch2
import Verif.Props.MoDiscovery

/-! # C572–C578: batches for moving objects -/

namespace Verif.MoBatch

open Verif.Mo Verif.Batch2 Verif.Names

/-! ## C572: names of the bundles -/

/-- Two bundles with the same label of the population and the same losses: if neither end of the labels is an end of the other, the file names differ. -/
theorem root_ne (run label loss : Str) (x y : Str × Str)
    (h : ¬ core (x.2 ++ loss) <:+ core (y.2 ++ loss)) (h' : ¬ core (y.2 ++ loss) <:+ core (x.2 ++ loss)) :
    (bundle label loss x).root run ≠ (bundle label loss y).root run := by
  intro e
  unfold Bun.root bundle at e
  simp only [root_eq, core_words] at e
  have e2 := List.append_cancel_right e
  simp only [List.append_assoc] at e2
  have e3 := List.append_cancel_left e2
  simp only [← List.append_assoc] at e3
  rcases List.suffix_or_suffix_of_suffix (List.suffix_append (core x.1 ++ core label) (core (x.2 ++ loss)))
    (e3 ▸ List.suffix_append (core y.1 ++ core label) (core (y.2 ++ loss))) with h1 | h1
  · exact h h1
  · exact h' h1

private theorem ends (loss : Str) (hl : loss = " trailing loss".toList ∨ loss = " detection loss".toList) :
    (quickNames ++ discNames).Pairwise (fun x y => ¬ core (x.2 ++ loss) <:+ core (y.2 ++ loss) ∧ ¬ core (y.2 ++ loss) <:+ core (x.2 ++ loss)) := by
  rcases hl with rfl | rfl <;> decide +kernel

private theorem nodup_of (run label loss : Str) (l : List (Str × Str))
    (h : l.Pairwise (fun x y => ¬ core (x.2 ++ loss) <:+ core (y.2 ++ loss) ∧ ¬ core (y.2 ++ loss) <:+ core (x.2 ++ loss))) :
    ((l.map (bundle label loss)).map (Bun.root run)).Nodup := by
  rw [List.Nodup, List.pairwise_map, List.pairwise_map]
  exact h.imp (fun {x y} h => root_ne run label loss x y h.1 h.2)

private theorem own_root (run : Str) (l : List Bun) : ∀ x ∈ l.map (fun b => (b.root run, b)), x.1 = x.2.root run := by
  intro x hx
  obtain ⟨b, _, e⟩ := List.mem_map.mp hx
  rw [← e]

private theorem roots_nodup (run label loss : Str) (hl : loss = " trailing loss".toList ∨ loss = " detection loss".toList) :
    (((quickNames ++ discNames).map (bundle label loss)).map (Bun.root run)).Nodup := by
  exact nodup_of run label loss _ (ends loss hl)

private theorem loss_cases (losses loss : Str) (h : lossWords losses = .ok loss) :
    (losses = "trailing".toList ∧ loss = " trailing loss".toList) ∨ (losses = "detection".toList ∧ loss = " detection loss".toList) := by
  unfold lossWords at h
  split_ifs at h with h1 h2
  · exact Or.inl ⟨h1, (Except.ok.inj h).symm⟩
  · exact Or.inr ⟨h2, (Except.ok.inj h).symm⟩

/-- **C572.** For every run, label of a population and kind of losses the two discovery batches give 2 and 11 bundles, each under its own file name, all thirteen
names are different, and the label of each has the words of its criterion; any other losses are a `ValueError`. -/
theorem batches (run label losses : Str) :
    (losses ≠ "trailing".toList → losses ≠ "detection".toList → quickBatch run label losses = .error "ValueError" ∧ discBatch run label losses = .error "ValueError") ∧
    (losses = "trailing".toList ∨ losses = "detection".toList → ∃ q d : List (Str × Bun), quickBatch run label losses = .ok q ∧ discBatch run label losses = .ok d ∧
      ((q ++ d).map Prod.fst).Nodup ∧ q.length = 2 ∧ d.length = 11 ∧
      (∀ x ∈ q ++ d, x.1 = x.2.root run) ∧
      (q ++ d).map (fun x => (x.2.metric, x.2.info)) =
        [("Discovery_2x3in15", " 3 pairs in 15 nights"), ("Discovery_2x3in30", " 3 pairs in 30 nights"),
         ("Discovery_2x4in20", " 4 pairs in 20 nights"), ("Discovery_3x3in30", " 3 triplets in 30 nights"), ("Discovery_4x1in2", " 1 quad in 1 night"),
         ("Discovery_2x3in15", " 3 pairs in 15 nights SNR=5"), ("Discovery_2x3in15", " 3 pairs in 15 nights SNR=4"),
         ("Discovery_2x3in15", " 3 pairs in 15 nights SNR=3"), ("Discovery_2x3in15", " 3 pairs in 15 nights SNR=0"),
         ("Discovery_1x1in5", " Single detection"), ("Discovery_2x1in5", " Single pair"),
         ("HighVelocityNights", " High velocity pair"), ("MagicDiscovery", " 6 detections in 60 nights")].map
         (fun x => (x.1.toList, label ++ x.2.toList ++ ' ' :: (losses ++ " loss".toList)))) := by
  constructor
  · intro h1 h2
    have : lossWords losses = .error "ValueError" := by
      unfold lossWords
      rw [if_neg h1, if_neg h2]
    unfold quickBatch discBatch
    rw [this]
    exact ⟨rfl, rfl⟩
  · intro h
    obtain ⟨loss, hl⟩ : ∃ loss, lossWords losses = .ok loss := by
      rcases h with rfl | rfl
      · exact ⟨_, rfl⟩
      · exact ⟨_, rfl⟩
    have hc := loss_cases losses loss hl
    have hn := roots_nodup run label loss (hc.imp (·.2) (·.2))
    rw [List.map_append, List.map_append] at hn
    refine ⟨(quickNames.map (bundle label loss)).map (fun b => (b.root run, b)), (discNames.map (bundle label loss)).map (fun b => (b.root run, b)), ?_, ?_, ?_, ?_, ?_, ?_, ?_⟩
    · unfold quickBatch
      rw [hl]
      simp only
      rw [makeDict_eq, if_pos hn.of_append_left]
    · unfold discBatch
      rw [hl]
      simp only
      rw [makeDict_eq, if_pos hn.of_append_right]
    · simpa [Function.comp_def] using hn
    · rw [List.length_map, List.length_map]
      rfl
    · rw [List.length_map, List.length_map]
      rfl
    · intro x hx
      rcases List.mem_append.mp hx with h | h
      · exact own_root run _ x h
      · exact own_root run _ x h
    · have hloss : loss = ' ' :: (losses ++ " loss".toList) := by rcases hc with ⟨rfl, rfl⟩ | ⟨rfl, rfl⟩ <;> rfl
      have key : (quickNames ++ discNames).map (fun x => (x.1, ' ' :: x.2)) =
          [("Discovery_2x3in15", " 3 pairs in 15 nights"), ("Discovery_2x3in30", " 3 pairs in 30 nights"),
         ("Discovery_2x4in20", " 4 pairs in 20 nights"), ("Discovery_3x3in30", " 3 triplets in 30 nights"), ("Discovery_4x1in2", " 1 quad in 1 night"),
         ("Discovery_2x3in15", " 3 pairs in 15 nights SNR=5"), ("Discovery_2x3in15", " 3 pairs in 15 nights SNR=4"),
         ("Discovery_2x3in15", " 3 pairs in 15 nights SNR=3"), ("Discovery_2x3in15", " 3 pairs in 15 nights SNR=0"),
         ("Discovery_1x1in5", " Single detection"), ("Discovery_2x1in5", " Single pair"),
         ("HighVelocityNights", " High velocity pair"), ("MagicDiscovery", " 6 detections in 60 nights")].map (fun x => (x.1.toList, x.2.toList)) := by decide +kernel
      have key2 := congrArg (List.map (fun x : Str × Str => (x.1, label ++ x.2 ++ loss))) key
      rw [List.map_map, List.map_map] at key2
      rw [← hloss, ← List.map_append, ← List.map_append, List.map_map, List.map_map]
      rw [show (fun x : String × String => (x.1.toList, label ++ x.2.toList ++ loss)) = (fun x : Str × Str => (x.1, label ++ x.2 ++ loss)) ∘ (fun x : String × String => (x.1.toList, x.2.toList)) from rfl]
      rw [← key2]
      apply List.map_congr_left
      intro x _
      simp [bundle]

example : (quickBatch "run".toList "NEO".toList "detection".toList).map (·.map Prod.fst) = .ok
    ["run_Discovery_2x3in15_NEO_3_pairs_in_15_nights_detection_loss_MOOB".toList, "run_Discovery_2x3in30_NEO_3_pairs_in_30_nights_detection_loss_MOOB".toList] := by
  decide +kernel
example : discBatch "run".toList "NEO".toList "none".toList = .error "ValueError" := by decide +kernel

/-! ## C573: wider windows -/

/-- **C573.** A wider window of nights loses no chance, whatever the rows and their order: `badval` is given for the same objects, and the number of chances does not
get smaller. -/
theorem window_mono {K : Type*} [Field K] [LinearOrder K] (c : Disc K) (w : Int) (hw : c.tWindow ≤ w) (v : List (Obs K)) (p : List Nat) :
    (c.run v p = none ↔ ({ c with tWindow := w } : Disc K).run v p = none) ∧
    ∀ r r', c.run v p = some r → ({ c with tWindow := w } : Disc K).run v p = some r' → r.nChances ≤ r'.nChances := by
  have ht : ({ c with tWindow := w } : Disc K).tracklets v p = c.tracklets v p := rfl
  unfold Disc.run
  rw [ht]
  by_cases hv : v.length = 0
  · simp [hv]
  · simp only [if_neg hv]
    unfold Disc.tracks
    dsimp only
    split_ifs with h
    · simp
    · refine ⟨by simp, ?_⟩
      rintro r r' h1 h2
      rw [Option.some.injEq] at h1 h2
      rw [← h1, ← h2]
      dsimp only
      apply List.Sublist.length_le
      apply List.monotone_filter_right
      intro i hi
      split at hi
      · simp only [Bool.and_eq_true, decide_eq_true_eq] at hi ⊢
        exact ⟨hi.1, hi.2.trans hw⟩
      · exact hi

/-- **C573.** What is found by three pairs in 15 nights is found by three pairs in 30 nights. -/
theorem quick_nested (v : List (Obs ℚ)) (p : List Nat) (h : 1 ≤ chances ((pairs 3 15).run v p)) :
    1 ≤ chances ((pairs 3 30).run v p) := by
  obtain ⟨h1, h2⟩ := window_mono (pairs 3 15) 30 (by decide) v p
  have e : ({ pairs 3 15 with tWindow := 30 } : Disc ℚ) = pairs 3 30 := rfl
  rw [e] at h1 h2
  rcases h3 : (pairs 3 15).run v p with _ | r
  · rw [h3] at h
    simp [chances] at h
  · rcases h4 : (pairs 3 30).run v p with _ | r'
    · rw [h1.mpr h4] at h3
      simp at h3
    · rw [h3] at h
      exact le_trans h (h2 r r' h3 h4)

example : chances ((pairs 3 15).run [o1 0 0 9, o1 (1/24) 0 9, o1 10 10 9, o1 (10 + 1/24) 10 9, o1 20 20 9, o1 (20 + 1/24) 20 9] (List.range 6)) = 0 ∧
    chances ((pairs 3 30).run [o1 0 0 9, o1 (1/24) 0 9, o1 10 10 9, o1 (10 + 1/24) 10 9, o1 20 20 9, o1 (20 + 1/24) 20 9] (List.range 6)) = 1 := by decide +kernel

/-! ## C574: stricter criteria -/

section Sorted
variable (v : List (Obs ℚ)) (ht : v.Pairwise (fun a b => a.mjd ≤ b.mjd)) (hs : v.Pairwise (fun a b => a.night ≤ b.night))
include ht hs

omit ht hs in
open Classical in
/-- The nights that count, in order. -/
private theorem nights_exist (c : Disc ℚ) (hn : 1 ≤ c.nObs) : ∃ G : List Int, G.Pairwise (· < ·) ∧ ∀ d, d ∈ G ↔ NightOk c (timesOn v d) := by
  refine ⟨(Seasons.uniqueInt (v.map (·.night))).filter (fun d => decide (NightOk c (timesOn v d))), (Seasons.uniqueInt_sorted _).sublist List.filter_sublist, ?_⟩
  intro d
  rw [List.mem_filter, decide_eq_true_eq, Seasons.mem_uniqueInt]
  refine ⟨fun h => h.2, fun h => ⟨?_, h⟩⟩
  have h1 := h.1
  unfold timesOn at h1
  rw [List.length_map] at h1
  obtain ⟨o, ho⟩ := List.exists_mem_of_length_pos (by omega : 0 < (v.filter (fun o => decide (o.night = d))).length)
  obtain ⟨ho1, ho2⟩ := List.mem_filter.mp ho
  exact List.mem_map.mpr ⟨o, ho1, by simpa using ho2⟩

private theorem chances_eq (c : Disc ℚ) (hmin : 0 < c.tMin) (hn : 1 ≤ c.nObs) (hk : 1 ≤ c.nNights) (hw : 0 ≤ c.tWindow) (G : List Int)
    (hG : G.Pairwise (· < ·)) (hmem : ∀ d, d ∈ G ↔ NightOk c (timesOn v d)) :
    chances (c.run v (List.range v.length)) = G.countP (fun d => decide (c.nNights ≤ G.countP (fun e => decide (d ≤ e) && decide (e ≤ d + c.tWindow)))) := by
  rcases h : c.run v (List.range v.length) with _ | r
  · have := (run_none c v ht hs hmin hn hk G hG hmem).mp h
    symm
    simp only [chances]
    rw [List.countP_eq_zero]
    intro d _
    simp only [decide_eq_true_eq, not_le]
    exact lt_of_le_of_lt List.countP_le_length this
  · exact (run_some c v ht hs hmin hn hk hw G hG hmem r h).1

omit ht hs in
/-- Nights of `G` are nights of `H`, fewer nights are asked for and the window is not narrower: there are at least as many chances. -/
private theorem count_mono (G H : List Int) (hG : G.Pairwise (· < ·)) (hGH : ∀ d ∈ G, d ∈ H) (k k' : Nat) (w w' : Int) (hk : k' ≤ k) (hw : w ≤ w') :
    G.countP (fun d => decide (k ≤ G.countP (fun e => decide (d ≤ e) && decide (e ≤ d + w)))) ≤
    H.countP (fun d => decide (k' ≤ H.countP (fun e => decide (d ≤ e) && decide (e ≤ d + w')))) := by
  have sub : G.Subperm H := List.subperm_of_subset (hG.imp (fun h => h.ne)) hGH
  refine le_trans (List.countP_mono_left ?_) (sub.countP_le _)
  intro d _ h
  simp only [decide_eq_true_eq] at h ⊢
  refine le_trans hk (le_trans h (le_trans (List.countP_mono_left ?_) (sub.countP_le _)))
  intro e _ he
  simp only [Bool.and_eq_true, decide_eq_true_eq] at he ⊢
  omega

/-- **C574.** With the same tracklets, fewer nights and a window that is not narrower there are at least as many chances, for rows in order of time. -/
theorem nested (c : Disc ℚ) (hmin : 0 < c.tMin) (hn : 1 ≤ c.nObs) (k : Nat) (w : Int) (hk : 1 ≤ k) (hk' : k ≤ c.nNights) (hw : 0 ≤ c.tWindow) (hw' : c.tWindow ≤ w) :
    chances (c.run v (List.range v.length)) ≤ chances (({ c with nNights := k, tWindow := w } : Disc ℚ).run v (List.range v.length)) := by
  obtain ⟨G, hG, hmem⟩ := nights_exist v c hn
  rw [chances_eq v ht hs c hmin hn (hk.trans hk') hw G hG hmem,
    chances_eq v ht hs { c with nNights := k, tWindow := w } hmin hn hk (hw.trans hw') G hG hmem]
  exact count_mono G G hG (fun _ h => h) c.nNights k c.tWindow w hk' hw'

/-- **C574.** Four pairs in 20 nights are at most as many chances as three pairs in 30 nights. -/
theorem four_nested : chances ((pairs 4 20).run v (List.range v.length)) ≤ chances ((pairs 3 30).run v (List.range v.length)) :=
  nested v ht hs (pairs 4 20) (by norm_num [pairs, tMin]) (by decide) 3 30 (by decide) (by decide) (by decide) (by decide)

omit ht hs in
private theorem window_one (G : List Int) (w : Int) (hw : 0 ≤ w) :
    G.countP (fun d => decide (1 ≤ G.countP (fun e => decide (d ≤ e) && decide (e ≤ d + w)))) = G.length := by
  rw [List.countP_eq_length]
  intro d hd
  simp only [decide_eq_true_eq]
  exact List.countP_pos_iff.mpr ⟨d, hd, by simp; omega⟩

/-- With one night asked for the width of the window does not matter: every night with a tracklet is a chance. -/
theorem single_pair (c : Disc ℚ) (hmin : 0 < c.tMin) (hn : 1 ≤ c.nObs) (hk : c.nNights = 1) (hw : 0 ≤ c.tWindow) (G : List Int)
    (hG : G.Pairwise (· < ·)) (hmem : ∀ d, d ∈ G ↔ NightOk c (timesOn v d)) : chances (c.run v (List.range v.length)) = G.length := by
  rw [chances_eq v ht hs c hmin hn (by omega) hw G hG hmem, hk]
  exact window_one G _ hw

/-- **C574.** Whatever is found by pairs in several nights is found by a single pair, with at least as many chances. -/
theorem single_nested (k : Nat) (hk : 1 ≤ k) (w : Int) (hw : 0 ≤ w) :
    chances ((pairs k w).run v (List.range v.length)) ≤ chances ((pairs 1 5).run v (List.range v.length)) := by
  obtain ⟨G, hG, hmem⟩ := nights_exist v (pairs k w) (show 1 ≤ 2 by omega)
  rw [chances_eq v ht hs (pairs k w) (by norm_num [pairs, tMin]) (by show 1 ≤ 2; omega) hk hw G hG hmem,
    single_pair v ht hs (pairs 1 5) (by norm_num [pairs, tMin]) (by decide) rfl (by decide) G hG hmem]
  exact List.countP_le_length

/-- **C575**, what holds: if fainter rows only add nights, that is the times of the nights with a tracklet stay as they are, then a lower limit loses no chance. -/
theorem snr_partial (c : Disc ℚ) (hmin : 0 < c.tMin) (hn : 1 ≤ c.nObs) (hk : 1 ≤ c.nNights) (hw : 0 ≤ c.tWindow) (a b : ℚ)
    (h : ∀ o ∈ v, (∃ o' ∈ v, o'.night = o.night ∧ a ≤ o'.snr) → b ≤ o.snr → a ≤ o.snr) (hab : b ≤ a) :
    chances (c.run (Mo.vis (some a) v) (List.range (Mo.vis (some a) v).length)) ≤ chances (c.run (Mo.vis (some b) v) (List.range (Mo.vis (some b) v).length)) := by
  have hta : ∀ l, (Mo.vis (some l) v).Pairwise (fun a b => a.mjd ≤ b.mjd) := fun l => ht.filter _
  have hsa : ∀ l, (Mo.vis (some l) v).Pairwise (fun a b => a.night ≤ b.night) := fun l => hs.filter _
  obtain ⟨G, hG, hmem⟩ := nights_exist (Mo.vis (some a) v) c hn
  obtain ⟨H, hH, hmem'⟩ := nights_exist (Mo.vis (some b) v) c hn
  rw [chances_eq _ (hta a) (hsa a) c hmin hn hk hw G hG hmem, chances_eq _ (hta b) (hsa b) c hmin hn hk hw H hH hmem']
  apply count_mono G H hG _ _ _ _ _ le_rfl le_rfl
  intro d hd
  rw [hmem] at hd
  rw [hmem']
  have hne : ∃ o' ∈ v, o'.night = d ∧ a ≤ o'.snr := by
    have h1 := hd.1
    unfold timesOn Mo.vis at h1
    rw [List.length_map] at h1
    obtain ⟨o, ho⟩ := List.exists_mem_of_length_pos (by omega : 0 < ((v.filter (visible (some a))).filter (fun o => decide (o.night = d))).length)
    simp only [List.mem_filter, visible, decide_eq_true_eq] at ho
    exact ⟨o, ho.1.1, ho.2, ho.1.2⟩
  have e : timesOn (Mo.vis (some b) v) d = timesOn (Mo.vis (some a) v) d := by
    unfold timesOn Mo.vis
    rw [List.filter_filter, List.filter_filter]
    congr 1
    apply List.filter_congr
    intro o ho
    rw [Bool.eq_iff_iff]
    simp only [visible, Bool.and_eq_true, decide_eq_true_eq]
    constructor
    · rintro ⟨h1, h2⟩
      exact ⟨h1, h o ho (h1 ▸ hne) h2⟩
    · rintro ⟨h1, h2⟩
      exact ⟨h1, hab.trans h2⟩
  rw [e]
  exact hd

omit ht hs in
/-- What the criterion for single detections asks of a night: that its first and its last detection are between five and ninety minutes apart. -/
theorem single_night (d : Int) : NightOk single (timesOn v d) ↔
    ∃ x y, (timesOn v d).head? = some x ∧ (timesOn v d).getLast? = some y ∧ 5 / 1440 ≤ y - x ∧ y - x ≤ 90 / 1440 := by
  have e1 : single.tMin = 5 / 1440 := by norm_num [single, tMin]
  have e2 : single.tMax = 90 / 1440 := by norm_num [single, tMax]
  unfold NightOk
  rw [e1, e2]
  constructor
  · rintro ⟨-, x, y, hx, hy, h | ⟨-, -, i, p, q, hp, hq, h, -⟩⟩
    · exact ⟨x, y, hx, hy, h⟩
    · have : p = q := by
        have e : (timesOn v d)[i]? = some q := hq
        rw [hp] at e
        exact Option.some.inj e
      subst this
      rw [sub_self] at h
      norm_num at h
  · rintro ⟨x, y, hx, hy, h⟩
    refine ⟨?_, x, y, hx, hy, Or.inl h⟩
    show 1 ≤ _
    obtain ⟨t, e⟩ := List.head?_eq_some_iff.mp hx
    rw [e]
    simp

/-- **C576.** The criterion "Single detection" counts the nights whose first and last detections are five to ninety minutes apart. -/
theorem single_iff (G : List Int) (hG : G.Pairwise (· < ·))
    (hmem : ∀ d, d ∈ G ↔ ∃ x y, (timesOn v d).head? = some x ∧ (timesOn v d).getLast? = some y ∧ 5 / 1440 ≤ y - x ∧ y - x ≤ 90 / 1440) :
    chances (single.run v (List.range v.length)) = G.length :=
  single_pair v ht hs single (by norm_num [single, tMin]) (by decide) rfl (by decide) G hG (fun d => (hmem d).trans (single_night v d).symm)

/-- **C576.** An object with at most one detection in every night is not found by the criterion "Single detection". -/
theorem single_misses (h : ∀ d, (timesOn v d).length ≤ 1) : chances (single.run v (List.range v.length)) = 0 := by
  apply single_iff v ht hs [] List.Pairwise.nil
  intro d
  simp only [List.not_mem_nil, false_iff]
  intro h1
  exact single_never single (by norm_num [single, tMin]) v d (h d) ((single_night v d).mpr h1)

/-- **C576.** It finds no more than the criterion "Single pair" does. -/
theorem single_le_pair : chances (single.run v (List.range v.length)) ≤ chances ((pairs 1 5).run v (List.range v.length)) := by
  obtain ⟨G, hG, hmem⟩ := nights_exist v single (by decide)
  obtain ⟨H, hH, hmem'⟩ := nights_exist v (pairs 1 5) (by decide)
  rw [chances_eq v ht hs single (by norm_num [single, tMin]) (by decide) (by decide) (by decide) G hG hmem,
    chances_eq v ht hs (pairs 1 5) (by norm_num [pairs, tMin]) (by decide) (by decide) (by decide) H hH hmem']
  apply count_mono G H hG _ _ _ _ _ le_rfl le_rfl
  intro d hd
  rw [hmem] at hd
  rw [hmem']
  obtain ⟨x, y, hx, hy, h⟩ := (single_night v d).mp hd
  have e1 : (pairs 1 5).tMin = 5 / 1440 := by norm_num [pairs, tMin]
  have e2 : (pairs 1 5).tMax = 90 / 1440 := by norm_num [pairs, tMax]
  refine ⟨?_, x, y, hx, hy, Or.inl (by rw [e1, e2]; exact h)⟩
  show 2 ≤ _
  by_contra hlt
  exact single_never single (by norm_num [single, tMin]) v d (by omega) hd

end Sorted

/-- Three nights, each with detections after 0, 3 and 100 minutes. -/
private def wide : List (Obs ℚ) := (List.range 3).flatMap (fun n : Nat => [o1 (n : ℚ) (n : Int) 9, o1 ((n : ℚ) + 3 / 1440) (n : Int) 9, o1 ((n : ℚ) + 100 / 1440) (n : Int) 9])

/-- **C574.** Three triplets in 30 nights can be found where three pairs in 30 nights are not: the triplets may take 120 minutes, the pairs 90. -/
theorem triplets_false : ¬ ∀ v : List (Obs ℚ), v.Pairwise (fun a b => a.mjd ≤ b.mjd) → v.Pairwise (fun a b => a.night ≤ b.night) →
    1 ≤ chances (triplets.run v (List.range v.length)) → 1 ≤ chances ((pairs 3 30).run v (List.range v.length)) := by
  intro h
  have := h wide (by decide +kernel) (by decide +kernel) (by decide +kernel)
  revert this
  decide +kernel

/-- Three nights, each with bright detections after 0, 3 and 6 minutes and a faint one after 200 minutes. -/
private def faint : List (Obs ℚ) :=
  (List.range 3).flatMap (fun n : Nat => [o1 (n : ℚ) (n : Int) 9, o1 ((n : ℚ) + 3 / 1440) (n : Int) 9, o1 ((n : ℚ) + 6 / 1440) (n : Int) 9, o1 ((n : ℚ) + 200 / 1440) (n : Int) (9 / 2)])

/-- **C575.** An object found with a limit of 5 need not be found with a limit of 4. -/
theorem snr_false : ¬ ∀ v : List (Obs ℚ), v.Pairwise (fun a b => a.mjd ≤ b.mjd) → v.Pairwise (fun a b => a.night ≤ b.night) →
    ∀ c ∈ discCrits, ∀ c' ∈ discCrits, c.words = "3 pairs in 15 nights SNR=5".toList → c'.words = "3 pairs in 15 nights SNR=4".toList →
    1 ≤ chances (c.run v) → 1 ≤ chances (c'.run v) := by
  intro h
  have := h faint (by decide +kernel) (by decide +kernel) ⟨"3 pairs in 15 nights SNR=5".toList, pairs 3 15, some 5⟩ (by simp [discCrits])
    ⟨"3 pairs in 15 nights SNR=4".toList, pairs 3 15, some 4⟩ (by simp [discCrits]) rfl rfl (by decide +kernel)
  revert this
  decide +kernel

example : (∀ o ∈ [o1 0 0 9, o1 (1 / 24) 0 9, o1 1 1 4], (∃ o' ∈ [o1 0 0 9, o1 (1 / 24) 0 9, o1 1 1 4], o'.night = o.night ∧ 5 ≤ o'.snr) → 3 ≤ o.snr → 5 ≤ o.snr) := by
  decide +kernel

/-- **C576.** The criterion "Single detection" does not find every object that is detected. -/
theorem single_false : ¬ ∀ v : List (Obs ℚ), v.Pairwise (fun a b => a.mjd ≤ b.mjd) → v.Pairwise (fun a b => a.night ≤ b.night) → v ≠ [] →
    1 ≤ chances (single.run v (List.range v.length)) := by
  intro h
  have := h [o1 0 0 9, o1 1 1 9] (by decide +kernel) (by decide +kernel) (by simp)
  revert this
  decide +kernel

example : chances (single.run [o1 0 0 9, o1 (1 / 24) 0 9] (List.range 2)) = 1 ∧ chances (single.run [o1 0 0 9, o1 (1 / 24) 0 9, o1 (1 / 4) 0 9] (List.range 3)) = 0 ∧
    chances ((pairs 1 5).run [o1 0 0 9, o1 (1 / 24) 0 9, o1 (1 / 4) 0 9] (List.range 3)) = 1 := by decide +kernel
example : chances ((pairs 4 20).run ((List.range 5).flatMap (fun n : Nat => [o1 (n : ℚ) (n : Int) 9, o1 ((n : ℚ) + 1 / 24) (n : Int) 9])) (List.range 10)) = 2 ∧
    chances ((pairs 3 30).run ((List.range 5).flatMap (fun n : Nat => [o1 (n : ℚ) (n : Int) 9, o1 ((n : ℚ) + 1 / 24) (n : Int) 9])) (List.range 10)) = 3 ∧
    chances ((pairs 1 5).run ((List.range 5).flatMap (fun n : Nat => [o1 (n : ℚ) (n : Int) 9, o1 ((n : ℚ) + 1 / 24) (n : Int) 9])) (List.range 10)) = 5 := by decide +kernel

/-! ## C577: characterization -/

/-- Text that stays as it is. -/
private theorem core_clean (D : Str) (h : ∀ c ∈ D, c ∉ unfriendly ∧ c ≠ '_') (hne : D ≠ []) : core D = D ++ ['_'] := by
  unfold core
  rw [flatMap_image (fun c hc => (h c hc).1), squeeze_of_not_double]
  · rfl
  · have key : ∀ D : Str, (∀ c ∈ D, c ≠ '_') → hasDouble (D ++ ['_']) = false := by
      intro D
      induction D with
      | nil => intro _; rfl
      | cons c r ih =>
        intro h
        have hc := h c (by simp)
        have := ih (fun x hx => h x (List.mem_cons_of_mem _ hx))
        cases r with
        | nil =>
          simp only [List.cons_append, List.nil_append, hasDouble, Bool.or_eq_false_iff, Bool.and_eq_false_iff, beq_eq_false_iff_ne]
          exact ⟨Or.inl hc, trivial⟩
        | cons d r =>
          simp only [List.cons_append, hasDouble, Bool.or_eq_false_iff, Bool.and_eq_false_iff, beq_eq_false_iff_ne] at this ⊢
          exact ⟨Or.inl hc, this⟩
    cases D with
    | nil => exact absurd rfl hne
    | cons c r =>
      have := key (c :: r) (fun x hx => (h x hx).2)
      have hc := (h c (by simp)).2
      simp only [List.cons_append, hasDouble, Bool.or_eq_false_iff, Bool.and_eq_false_iff, beq_eq_false_iff_ne] at this ⊢
      exact ⟨Or.inr hc, this⟩

private theorem digits_clean (n : Nat) : ∀ c ∈ digits n, c ∉ unfriendly ∧ c ≠ '_' := by
  intro c hc
  have hd := Nat.isDigit_of_mem_toDigits (by norm_num) (by norm_num) hc
  constructor
  · intro h
    have key : ∀ c ∈ unfriendly, c.isDigit = false := by decide +kernel
    rw [key c h] at hd
    exact absurd hd (by simp)
  · rintro rfl
    exact absurd hd (by decide)

private theorem digits_inj (m n : Nat) (h : digits m = digits n) : m = n := by
  have e := congrArg (fun l => Nat.ofDigitChars 10 l 0) h
  simp only [digits] at e
  rwa [Nat.ofDigitChars_toDigits (by norm_num) (by norm_num), Nat.ofDigitChars_toDigits (by norm_num) (by norm_num)] at e

private theorem core_digits (n : Nat) : core (digits n) = digits n ++ ['_'] := by
  apply core_clean _ (digits_clean n)
  unfold digits
  exact Nat.toDigits_ne_nil

private theorem windowName_inj (v w : ℚ) : spot (windowName v) = spot (windowName w) ↔ fmt0 v = fmt0 w := by
  rw [spot_inj]
  unfold windowName
  rw [core_words, core_words, core_words, core_words, core_digits, core_digits]
  constructor
  · intro h
    exact digits_inj _ _ (List.append_cancel_right (List.append_cancel_right (List.append_cancel_left h)))
  · intro h
    rw [h]

private theorem binName_inj (v w : ℚ) : spot (binName v) = spot (binName w) ↔ fmt0 v = fmt0 w := by
  rw [spot_inj]
  unfold binName
  rw [core_words, core_words, core_words, core_words, core_digits, core_digits]
  constructor
  · intro h
    exact digits_inj _ _ (List.append_cancel_right (List.append_cancel_right (List.append_cancel_left h)))
  · intro h
    rw [h]

private theorem core_window (w : ℚ) : ∃ t, core (windowName w) = "Chances_of_detecting_activity_lasting_".toList ++ t := by
  unfold windowName
  rw [core_words]
  exact ⟨_, by rw [show core "Chances of detecting activity lasting".toList = "Chances_of_detecting_activity_lasting_".toList by decide +kernel]⟩

private theorem core_bin (w : ℚ) : ∃ t, core (binName w) = "Chances_of_detecting_activity_covering_".toList ++ t := by
  unfold binName
  rw [core_words]
  exact ⟨_, by rw [show core "Chances of detecting activity covering".toList = "Chances_of_detecting_activity_covering_".toList by decide +kernel]⟩

private def winPre : Str := "Chances_of_detecting_activity_lasting_".toList
private def binPre : Str := "Chances_of_detecting_activity_covering_".toList

private theorem not_both (x : Str) (h1 : winPre <+: x) (h2 : binPre <+: x) : False := by
  rcases List.prefix_or_prefix_of_prefix h1 h2 with h | h
  · exact absurd h (by decide +kernel)
  · exact absurd h (by decide +kernel)

/-- The ends of the lists of names. -/
private def fixed (inner : Bool) : List Str :=
  if inner then ["LightcurveInversionAsteroid".toList, "ColorAsteroid".toList] else ["LightcurveColorOuter".toList]

private def first : List Str := ["NObs".toList, "ObsArc".toList]

private theorem fixed_pre (inner : Bool) : ∀ x ∈ first ++ fixed inner, ¬ winPre <+: core x ∧ ¬ binPre <+: core x := by
  cases inner <;> decide +kernel

private theorem fixed_nodup (inner : Bool) : ((first ++ fixed inner).map core).Nodup := by
  cases inner <;> decide +kernel

private theorem nodup_map_iff {α β γ : Type*} (f : α → β) (g : α → γ) (h : ∀ a b, f a = f b ↔ g a = g b) (l : List α) : (l.map f).Nodup ↔ (l.map g).Nodup := by
  rw [List.Nodup, List.Nodup, List.pairwise_map, List.pairwise_map]
  constructor
  · exact fun hp => hp.imp (fun {a b} hn e => hn ((h a b).mpr e))
  · exact fun hp => hp.imp (fun {a b} hn e => hn ((h a b).mp e))

private theorem names_nodup (inner : Bool) (windows bins : List ℚ) :
    ((first ++ windows.map windowName ++ bins.map binName ++ fixed inner).map core).Nodup ↔ (windows.map fmt0).Nodup ∧ (bins.map fmt0).Nodup := by
  have perm : (first ++ windows.map windowName ++ bins.map binName ++ fixed inner).Perm ((first ++ fixed inner) ++ (windows.map windowName ++ bins.map binName)) := by
    rw [List.append_assoc, List.append_assoc, List.append_assoc]
    apply List.Perm.append_left
    rw [← List.append_assoc]
    exact List.perm_append_comm
  rw [(perm.map core).nodup_iff, List.map_append, List.nodup_append, List.map_append (l₁ := windows.map windowName), List.nodup_append (l₁ := (windows.map windowName).map core)]
  have hw : ((windows.map windowName).map core).Nodup ↔ (windows.map fmt0).Nodup := by
    rw [List.map_map]
    apply nodup_map_iff
    intro a b
    exact (spot_inj _ _).symm.trans (windowName_inj a b)
  have hb : ((bins.map binName).map core).Nodup ↔ (bins.map fmt0).Nodup := by
    rw [List.map_map]
    apply nodup_map_iff
    intro a b
    exact (spot_inj _ _).symm.trans (binName_inj a b)
  rw [hw, hb]
  have pw : ∀ x ∈ (windows.map windowName).map core, winPre <+: x := by
    intro x hx
    simp only [List.map_map, List.mem_map] at hx
    obtain ⟨w, _, rfl⟩ := hx
    obtain ⟨t, ht⟩ := core_window w
    exact ⟨t, ht.symm⟩
  have pb : ∀ x ∈ (bins.map binName).map core, binPre <+: x := by
    intro x hx
    simp only [List.map_map, List.mem_map] at hx
    obtain ⟨w, _, rfl⟩ := hx
    obtain ⟨t, ht⟩ := core_bin w
    exact ⟨t, ht.symm⟩
  constructor
  · rintro ⟨-, ⟨h1, h2, -⟩, -⟩
    exact ⟨h1, h2⟩
  · rintro ⟨h1, h2⟩
    refine ⟨fixed_nodup inner, ⟨h1, h2, ?_⟩, ?_⟩
    · rintro a ha b hb' rfl
      exact not_both a (pw a ha) (pb a hb')
    · rintro a ha b hb' rfl
      obtain ⟨x, hx, rfl⟩ := List.mem_map.mp ha
      have := fixed_pre inner x hx
      rcases List.mem_append.mp hb' with h | h
      · exact this.1 (pw _ h)
      · exact this.2 (pb _ h)

private theorem charBun_root (run label m : Str) : (charBun label m).root run = BaseM.fileRoot run m label "MOOB".toList := rfl

private theorem keys_own (run : Str) (l : List Bun) : (l.map (fun b => (b.root run, b))).map Prod.fst = l.map (Bun.root run) := by
  induction l with
  | nil => rfl
  | cons b l ih => rw [List.map_cons, List.map_cons, ih, List.map_cons]

/-- **C577.** The batches of characterization give a bundle for each of the fixed metrics, each window and each bin exactly if no two windows and no two bins are the same after rounding
to a whole number; else there is a `NameError`. -/
theorem char_iff (run label : Str) (inner : Bool) (windows bins : List ℚ) :
    ((windows.map fmt0).Nodup ∧ (bins.map fmt0).Nodup → ∃ d, charBatch run label inner windows bins = .ok d ∧
      d.length = windows.length + bins.length + (if inner then 4 else 3) ∧ (d.map Prod.fst).Nodup) ∧
    (¬ ((windows.map fmt0).Nodup ∧ (bins.map fmt0).Nodup) → charBatch run label inner windows bins = .error "NameError") := by
  have e : charNames inner windows bins = first ++ windows.map windowName ++ bins.map binName ++ fixed inner := rfl
  have hroot : (((charNames inner windows bins).map (charBun label)).map (Bun.root run)).Nodup ↔
      (windows.map fmt0).Nodup ∧ (bins.map fmt0).Nodup := by
    rw [← names_nodup inner windows bins, ← e, List.map_map]
    apply nodup_map_iff
    intro a b
    rw [Function.comp_apply, Function.comp_apply, charBun_root, charBun_root, root_metric, spot_inj]
  unfold charBatch
  rw [makeDict_eq]
  constructor
  · intro h
    rw [if_pos (hroot.mpr h)]
    refine ⟨_, rfl, ?_, ?_⟩
    · rw [e, List.length_map, List.length_map]
      simp only [List.length_append, List.length_map]
      cases inner <;> simp [first, fixed] <;> omega
    · rw [keys_own]
      exact hroot.mpr h
  · intro h
    rw [if_neg (fun hn => h (hroot.mp hn))]

/-- **C577.** Different windows do not always give a batch. -/
theorem char_false : ¬ ∀ (run label : Str) (inner : Bool) (windows bins : List ℚ), windows.Nodup → bins.Nodup → (∀ w ∈ windows ++ bins, 0 < w) →
    ∃ d, charBatch run label inner windows bins = .ok d := by
  intro h
  obtain ⟨d, hd⟩ := h [] [] true [51 / 5, 52 / 5] [] (by decide +kernel) (by decide) (by decide +kernel)
  rw [(char_iff [] [] true [51 / 5, 52 / 5] []).2 (by decide +kernel)] at hd
  cases hd

/-- The rounding changes a number by at most one half. -/
theorem fmt0_near (w : ℚ) (hw : 0 ≤ w) : |w - fmt0 w| ≤ 1 / 2 := by
  have h1 := Nat.floor_le hw
  have h2 := Nat.lt_floor_add_one w
  unfold fmt0
  rw [abs_le]
  split_ifs with a b c <;> push_cast <;> constructor <;> linarith

private theorem apart_nodup (l : List ℚ) (h0 : ∀ w ∈ l, 0 ≤ w) (h : l.Pairwise (fun v w => 1 < |v - w|)) : (l.map fmt0).Nodup := by
  rw [List.Nodup, List.pairwise_map]
  refine h.imp_of_mem ?_
  intro a b ha hb hab e
  have h1 := abs_le.mp (fmt0_near a (h0 a ha))
  have h2 := abs_le.mp (fmt0_near b (h0 b hb))
  rw [e] at h1
  have : |a - b| ≤ 1 := abs_le.mpr ⟨by linarith, by linarith⟩
  linarith

/-- **C577**, what holds: if windows are more than one day apart and bins more than one degree, there is a batch. -/
theorem char_partial (run label : Str) (inner : Bool) (windows bins : List ℚ) (h0 : ∀ w ∈ windows ++ bins, 0 ≤ w)
    (hw : windows.Pairwise (fun v w => 1 < |v - w|)) (hb : bins.Pairwise (fun v w => 1 < |v - w|)) :
    ∃ d, charBatch run label inner windows bins = .ok d ∧ d.length = windows.length + bins.length + (if inner then 4 else 3) ∧ (d.map Prod.fst).Nodup :=
  (char_iff run label inner windows bins).1 ⟨apart_nodup windows (fun w h => h0 w (List.mem_append_left _ h)) hw, apart_nodup bins (fun w h => h0 w (List.mem_append_right _ h)) hb⟩

example : fmt0 (3 / 2) = 2 ∧ fmt0 (5 / 2) = 2 ∧ fmt0 (26 / 5) = 5 := by decide +kernel

/-- **C577.** With the windows and bins that are used if none are given there is a batch. -/
theorem char_default (run label : Str) (inner : Bool) : ∃ d, charBatch run label inner windows0 bins0 = .ok d ∧ d.length = (if inner then 20 else 19) := by
  obtain ⟨d, hd, hl, -⟩ := (char_iff run label inner windows0 bins0).1 (by decide +kernel)
  refine ⟨d, hd, ?_⟩
  rw [hl]
  cases inner <;> rfl

/-! ## C578: plots of completeness -/

theorem has_iff (s t : Str) : has s t = true ↔ s <:+: t := by
  unfold has
  rw [List.any_eq_true, List.infix_iff_prefix_suffix]
  simp [List.mem_tails, List.isPrefixOf_iff_prefix]
  tauto

/-- The two criteria of the plots. -/
def Main (k : Str) : Prop := "3_pairs_in_30_nights_detection_loss".toList <:+: k ∨ "3_pairs_in_15_nights_detection_loss".toList <:+: k

/-- **C578**, what holds: if the word "Time" is in the keys of the curves over time only, then the plot over time is made, of exactly the cumulative curves over time of the two
main criteria, and the two others have no curve over time. -/
theorem over_time_partial (l : List Curve) (h : ∀ c ∈ l, "Time".toList <:+: c.key ↔ c.timed = true) :
    (∃ ks, overTime l = .ok ks ∧ ∀ k, k ∈ ks ↔ ∃ c ∈ l, c.key = k ∧ c.timed = true ∧ Main k ∧ "Cumulative".toList <:+: k) ∧
    (∀ c, c ∈ plotComp l → c.timed = false) ∧ ∀ c, c ∈ plotDiff l → c.timed = false := by
  have hT : ∀ c ∈ l, has "Time".toList c.key = c.timed := by
    intro c hc
    rw [Bool.eq_iff_iff, has_iff, h c hc]
  refine ⟨⟨(plotTimes l).map (·.key), ?_, ?_⟩, ?_, ?_⟩
  · unfold overTime
    rw [if_pos]
    rw [List.all_eq_true]
    intro c hc
    obtain ⟨h1, h2⟩ := List.mem_filter.mp hc
    rw [hT c h1, Bool.and_eq_true, Bool.and_eq_true] at h2
    exact h2.2.1
  · intro k
    simp only [List.mem_map, plotTimes, List.mem_filter, Bool.and_eq_true, wanted, Bool.or_eq_true, has_iff]
    constructor
    · rintro ⟨c, ⟨hc, h1, h2, h3⟩, rfl⟩
      exact ⟨c, hc, rfl, (h c hc).mp h2, h1, h3⟩
    · rintro ⟨c, hc, rfl, h1, h2, h3⟩
      exact ⟨c, ⟨hc, h2, (h c hc).mpr h1, h3⟩, rfl⟩
  · intro c hc
    obtain ⟨h1, h2⟩ := List.mem_filter.mp hc
    rw [hT c h1] at h2
    simp only [Bool.and_eq_true, Bool.not_eq_true'] at h2
    exact h2.2.1
  · intro c hc
    obtain ⟨h1, h2⟩ := List.mem_filter.mp hc
    rw [hT c h1] at h2
    simp only [Bool.and_eq_true, Bool.not_eq_true'] at h2
    exact h2.2.1

private def key1 : Str := "FirstTime_DiscoveryNChances_NEO_3_pairs_in_15_nights_detection_loss_MOOB CumulativeCompleteness".toList

/-- **C578**, the two plots against H: the numbers of chances of the two main criteria, apart from keys with the word "Time": the differential curves in one plot, and in the
other the cumulative ones that are not differential. -/
theorem against_h (l : List Curve) (c : Curve) :
    (c ∈ plotDiff l ↔ c ∈ l ∧ ("3_pairs_in_30_nights_detection_loss".toList <:+: c.key ∨ "3_pairs_in_15_nights_detection_loss".toList <:+: c.key) ∧
      ¬ "Time".toList <:+: c.key ∧ "Chances".toList <:+: c.key ∧ "Differential".toList <:+: c.key) ∧
    (c ∈ plotComp l ↔ c ∈ l ∧ ("3_pairs_in_30_nights_detection_loss".toList <:+: c.key ∨ "3_pairs_in_15_nights_detection_loss".toList <:+: c.key) ∧
      ¬ "Time".toList <:+: c.key ∧ "Chances".toList <:+: c.key ∧ ¬ "Differential".toList <:+: c.key ∧ "Cumulative".toList <:+: c.key) := by
  constructor
  · simp only [plotDiff, List.mem_filter, Bool.and_eq_true, wanted, Bool.or_eq_true, has_iff, Bool.not_eq_true', ← Bool.not_eq_true]
  · simp only [plotComp, List.mem_filter, Bool.and_eq_true, wanted, Bool.or_eq_true, has_iff, Bool.not_eq_true', ← Bool.not_eq_true]

/-- **C578.** With "Time" in the name of the run the plot is a `KeyError`. -/
theorem over_time_false : ¬ ∀ l : List Curve, (∀ c ∈ l, c.timed = true ↔ "DiscoveryTime".toList <:+: c.key) → ∃ ks, overTime l = .ok ks := by
  intro h
  obtain ⟨ks, hk⟩ := h [⟨key1, false⟩] (by decide +kernel)
  rw [show overTime [⟨key1, false⟩] = .error "KeyError" by decide +kernel] at hk
  cases hk

/-- What the plot of all curves has. -/
theorem mem_all (l : List Curve) (k : Str) : k ∈ allComp l ↔ ∃ c ∈ l, c.key = k ∧ "Cumulative".toList <:+: k ∧ ("DiscoveryNChances".toList <:+: k ∨ "Magic".toList <:+: k) := by
  induction l with
  | nil => simp [allComp]
  | cons c l ih =>
    rw [allComp, List.mem_append, List.mem_append, ih]
    have aux : ∀ (s : Str), k ∈ (if has s c.key && has "Cumulative".toList c.key then [c.key] else []) ↔ c.key = k ∧ "Cumulative".toList <:+: k ∧ s <:+: k := by
      intro s
      by_cases hh : (has s c.key && has "Cumulative".toList c.key) = true
      · rw [if_pos hh, List.mem_singleton]
        rw [Bool.and_eq_true, has_iff, has_iff] at hh
        constructor
        · rintro rfl
          exact ⟨rfl, hh.2, hh.1⟩
        · exact fun e => e.1.symm
      · rw [if_neg hh]
        rw [Bool.and_eq_true, has_iff, has_iff] at hh
        constructor
        · intro e
          cases e
        · rintro ⟨rfl, h1, h2⟩
          exact absurd ⟨h2, h1⟩ hh
    refine (or_congr (aux _) (or_congr (aux _) Iff.rfl)).trans ?_
    rw [List.exists_mem_cons_iff]
    generalize ("Cumulative".toList <:+: k) = A
    generalize ("DiscoveryNChances".toList <:+: k) = B
    generalize ("Magic".toList <:+: k) = C
    generalize (∃ c ∈ l, c.key = k ∧ A ∧ (B ∨ C)) = D
    clear ih aux
    tauto

private def key2 : Str := "run_HighVelocityNights_NEO_High_velocity_pair_detection_loss_MOOB CumulativeCompleteness".toList

/-- **C578.** The plot of all cumulative completeness curves does not have all of them: those for a high velocity are left out. -/
theorem all_false : ¬ ∀ (l : List Curve) (c : Curve), c ∈ l → c.timed = false → "CumulativeCompleteness".toList <:+ c.key → c.key ∈ allComp l := by
  intro h
  have := h [⟨key2, false⟩] ⟨key2, false⟩ (by simp) rfl (by decide +kernel)
  revert this
  decide +kernel

example : overTime [⟨"run_DiscoveryTime_NEO_3_pairs_in_15_nights_detection_loss_MOOB CumulativeCompleteness@Time".toList, true⟩,
    ⟨"run_DiscoveryNChances_NEO_3_pairs_in_15_nights_detection_loss_MOOB CumulativeCompleteness".toList, false⟩]
    = .ok ["run_DiscoveryTime_NEO_3_pairs_in_15_nights_detection_loss_MOOB CumulativeCompleteness@Time".toList] := by decide +kernel
example : allComp [⟨key1, false⟩, ⟨key2, false⟩] = [key1] := by decide +kernel

end Verif.MoBatch
