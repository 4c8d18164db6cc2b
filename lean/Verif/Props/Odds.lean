import Verif.Model.Odds
import Verif.Props.Astrometry
import Mathlib.Tactic.NormNum
import Mathlib.Tactic.Linarith
import Mathlib.Tactic.Positivity
import Mathlib.Tactic.IntervalCases

/-!
# Comments and indexes of the archive, text of bandpasses, time delays
-/

namespace Verif.Odds

open Verif.Np

/-! ## Comments -/

/-- **C560.** After any calls of `comment`, `get_comments` gives what was there for the sequence and
one row for each call on it, with its text, time and author. -/
theorem comments_spec {U T : Type} [DecidableEq U] (table : List (CRow U T)) (calls : List (CCall U T)) (u : U) :
    getComments (calls.foldl comment table) u =
      table.filter (fun r => decide (r.uuid = u)) ++
        (calls.filter (fun c => decide (c.uuid = u))).map (fun c => ⟨c.uuid, c.now, c.author, c.text⟩) := by
  induction calls generalizing table with
  | nil => simp [getComments]
  | cons c cs ih =>
    have hc : comment table c = table ++ [⟨c.uuid, c.now, c.author, c.text⟩] := by
      cases h : c.author <;> simp [comment, h]
    rw [List.foldl_cons, ih, hc]
    by_cases h : c.uuid = u <;> simp [h]

/-- **C560.** From an empty table: a comment is given exactly when it was made on that sequence, and
the author is none exactly when none was given. -/
theorem comments_mem {U T : Type} [DecidableEq U] (calls : List (CCall U T)) (u : U) (r : CRow U T) :
    r ∈ getComments (calls.foldl comment []) u ↔
      r.uuid = u ∧ ∃ c ∈ calls, c.uuid = u ∧ c.text = r.text ∧ c.now = r.time ∧ c.author = r.author := by
  rw [comments_spec]
  constructor
  · intro h
    simp only [List.filter_nil, List.nil_append, List.mem_map, List.mem_filter, decide_eq_true_eq] at h
    obtain ⟨c, ⟨hc, hu⟩, rfl⟩ := h
    exact ⟨hu, c, hc, hu, rfl, rfl, rfl⟩
  · rintro ⟨hu, c, hc, hcu, h1, h2, h3⟩
    simp only [List.filter_nil, List.nil_append, List.mem_map, List.mem_filter, decide_eq_true_eq]
    refine ⟨c, ⟨hc, hcu⟩, ?_⟩
    cases r
    simp_all

example : getComments (([⟨1, ['a'], none, 10⟩, ⟨2, ['b'], some ['M'], 11⟩, ⟨1, ['c'], some [], 12⟩] : List (CCall ℕ ℕ)).foldl comment []) 1 =
    [⟨1, 10, none, ['a']⟩, ⟨1, 12, some [], ['c']⟩] := by decide

/-! ## Versions -/

/-- **C561.** Without a list of packages every row of the simulation is given, and only those. -/
theorem versions_all {U : Type} [DecidableEq U] (table : List (PRow U)) (u : U) (r : PRow U) :
    r ∈ versions table u none ↔ r ∈ table ∧ r.uuid = u := by
  simp [versions]

/-- **C561.** With a list: the rows of the simulation with a name of the list; names that were not
recorded are left out. -/
theorem versions_mem {U : Type} [DecidableEq U] (table : List (PRow U)) (u : U) (ps : List Str) (r : PRow U) :
    r ∈ versions table u (some ps) ↔ r ∈ table ∧ r.uuid = u ∧ r.package ∈ ps := by
  simp only [versions, List.mem_flatMap, List.mem_filter, List.mem_map, decide_eq_true_eq]
  constructor
  · rintro ⟨p, ⟨hp, _⟩, ⟨hr, hu⟩, rfl⟩
    exact ⟨hr, hu, hp⟩
  · rintro ⟨hr, hu, hp⟩
    exact ⟨r.package, ⟨hp, r, ⟨hr, hu⟩, rfl⟩, ⟨hr, hu⟩, rfl⟩

theorem filter_one {U : Type} (rows : List (PRow U)) (hn : (rows.map PRow.package).Nodup) (p : Str)
    (hp : p ∈ rows.map PRow.package) : (rows.filter (fun r => decide (r.package = p))).map PRow.package = [p] := by
  induction rows with
  | nil => simp at hp
  | cons r rs ih =>
    simp only [List.map_cons, List.nodup_cons, List.mem_cons] at hn hp
    by_cases h : r.package = p
    · have : rs.filter (fun r => decide (r.package = p)) = [] := by
        rw [List.filter_eq_nil_iff]
        intro x hx hxp
        apply hn.1
        rw [h, ← of_decide_eq_true hxp]
        exact List.mem_map_of_mem hx
      simp [h, this]
    · rcases hp with hp | hp
      · exact absurd hp.symm h
      · simp [h, ih hn.2 hp]

/-- **C561.** When each package is recorded once, the rows come in the order of the list. -/
theorem versions_order {U : Type} [DecidableEq U] (table : List (PRow U)) (u : U) (ps : List Str)
    (hn : ((table.filter (fun r => decide (r.uuid = u))).map PRow.package).Nodup) :
    (versions table u (some ps)).map PRow.package = ps.filter (fun p => decide (∃ r ∈ table, r.uuid = u ∧ r.package = p)) := by
  have hiff : ∀ p, p ∈ (table.filter (fun r => decide (r.uuid = u))).map PRow.package ↔ ∃ r ∈ table, r.uuid = u ∧ r.package = p := by
    intro p
    simp only [List.mem_map, List.mem_filter, decide_eq_true_eq]
    constructor
    · rintro ⟨r, ⟨a, b⟩, c⟩; exact ⟨r, a, b, c⟩
    · rintro ⟨r, a, b, c⟩; exact ⟨r, ⟨a, b⟩, c⟩
  unfold versions
  simp only
  generalize hrows : table.filter (fun r => decide (r.uuid = u)) = rows at hn hiff
  induction ps with
  | nil => rfl
  | cons p ps ih =>
    by_cases h : p ∈ rows.map PRow.package
    · rw [List.filter_cons_of_pos (by simpa using h), List.filter_cons_of_pos (by simpa using (hiff p).1 h),
        List.flatMap_cons, List.map_append, ih, filter_one rows hn p h]
      rfl
    · rw [List.filter_cons_of_neg (by simpa using h), List.filter_cons_of_neg (by rw [decide_eq_true_eq]; exact fun x => h ((hiff p).2 x)), ih]

example : versions ([⟨1, ['a'], ['2']⟩, ⟨1, ['b'], ['3']⟩, ⟨2, ['c'], ['4']⟩] : List (PRow ℕ)) 1 (some [['c'], ['b'], ['a']]) =
    [⟨1, ['b'], ['3']⟩, ⟨1, ['a'], ['2']⟩] := by decide

/-! ## Prenights -/

/-- A date that `datetime.date` can hold, up to the lengths of months. -/
def Date.Ok (d : Date) : Prop := d.year < 10000 ∧ d.month < 100 ∧ d.day < 100

theorem dg_inj (a b : ℕ) (h : dg a = dg b) : a % 10 = b % 10 := by
  unfold dg at h
  have ha := Nat.mod_lt a (show 0 < 10 by norm_num)
  have hb := Nat.mod_lt b (show 0 < 10 by norm_num)
  generalize a % 10 = x at h ha ⊢
  generalize b % 10 = y at h hb ⊢
  interval_cases x <;> interval_cases y <;> first | rfl | (exact absurd h (by decide))

theorem iso_inj (d e : Date) (hd : d.Ok) (he : e.Ok) (h : iso d = iso e) : d = e := by
  unfold iso at h
  simp only [List.cons.injEq, and_true, true_and] at h
  obtain ⟨a1, a2, a3, a4, a5, a6, a7, a8⟩ := h
  have a1 := dg_inj _ _ a1
  have a2 := dg_inj _ _ a2
  have a3 := dg_inj _ _ a3
  have a4 := dg_inj _ _ a4
  have a5 := dg_inj _ _ a5
  have a6 := dg_inj _ _ a6
  have a7 := dg_inj _ _ a7
  have a8 := dg_inj _ _ a8
  obtain ⟨d1, d2, d3⟩ := hd
  obtain ⟨e1, e2, e3⟩ := he
  cases d
  cases e
  simp only [Date.mk.injEq] at *
  refine ⟨by omega, by omega, by omega⟩

/-- **C562.** Indexes of different telescopes or nights are different files. -/
theorem written_inj (t t' : Str) (d d' : Date) (hd : d.Ok) (hd' : d'.Ok) (h : writtenAt t d = readAt t' d') : t = t' ∧ d = d' := by
  unfold writtenAt readAt at h
  simp only [List.cons.injEq, and_true] at h
  obtain ⟨rfl, _, _, h⟩ := h
  refine ⟨rfl, iso_inj d d' hd hd' ?_⟩
  simpa using h

/-- **C562.** After any calls of `make_prenight_index`, the index read for a telescope and a night is
the last one made for this telescope and this night; none was made, none is found. -/
theorem prenight_spec {V : Type} (calls : List (Made V)) (hok : ∀ m ∈ calls, m.date.Ok) (t : Str) (d : Date) (hd : d.Ok) :
    readIndex (calls.foldl make (fun _ => none)) t d =
      ((calls.filter (fun m => decide (m.telescope = t ∧ m.date = d))).map Made.table).getLast? := by
  induction calls using List.reverseRecOn with
  | nil => simp [readIndex]
  | append_singleton cs m ih =>
    have ih := ih (fun x hx => hok x (by simp [hx]))
    have hm := hok m (by simp)
    rw [List.foldl_append]
    simp only [List.foldl_cons, List.foldl_nil, readIndex, make, List.filter_append, List.map_append]
    by_cases h : m.telescope = t ∧ m.date = d
    · have : readAt t d = writtenAt m.telescope m.date := by rw [h.1, h.2]; rfl
      simp [this, h]
    · have : readAt t d ≠ writtenAt m.telescope m.date := fun hh => h (written_inj _ _ _ _ hm hd hh.symm)
      simp only [this, if_false]
      simpa [h, readIndex] using ih

example : readIndex (([⟨['s'], ⟨2026, 1, 23⟩, 1⟩, ⟨['s'], ⟨2026, 12, 3⟩, 2⟩, ⟨['a'], ⟨2026, 1, 23⟩, 3⟩, ⟨['s'], ⟨2026, 1, 23⟩, 4⟩] : List (Made ℕ)).foldl make (fun _ => none))
    ['s'] ⟨2026, 1, 23⟩ = some 4 := by
  rw [prenight_spec _ (by simp [Date.Ok]) _ _ (by simp [Date.Ok])]
  decide

/-! ## Text of bandpasses -/

/-- Numbers are read as written; their text is a word that does not look like a comment. -/
structure Codec.Good {K : Type} (cd : Codec K) : Prop where
  back : ∀ x, cd.get (cd.put x) = some x
  nonempty : ∀ x, cd.put x ≠ []
  word : ∀ x, ∀ c ∈ cd.put x, isWs c = false
  plain : ∀ x, commented (cd.put x) = false

theorem splitP_self (p : Char → Bool) (a : Str) (h : ∀ c ∈ a, p c = false) : splitP p a = [a] := by
  induction a with
  | nil => rfl
  | cons c cs ih =>
    have hc := h c (by simp)
    have := ih (fun x hx => h x (by simp [hx]))
    simp [splitP, hc, this]

theorem splitP_append (p : Char → Bool) (a : Str) (h : ∀ c ∈ a, p c = false) (x : Char) (hx : p x = true) (b : Str) :
    splitP p (a ++ x :: b) = a :: splitP p b := by
  induction a with
  | nil => simp [splitP, hx]
  | cons c cs ih =>
    have hc := h c (by simp)
    have := ih (fun x hx => h x (by simp [hx]))
    simp [splitP, hc, this]

/-- The words of a line of data, without its end. -/
theorem words_line {K : Type} (cd : Codec K) (g : cd.Good) (r : K × K) :
    words (cd.put r.1 ++ ' ' :: cd.put r.2) = [cd.put r.1, cd.put r.2] := by
  unfold words
  rw [splitP_append _ _ (g.word _) _ (by decide), splitP_self _ _ (g.word _)]
  simp [g.nonempty]

theorem words_line3 {K : Type} (cd : Codec K) (g : cd.Good) (r : K × K) (x : K) :
    words (cd.put r.1 ++ ' ' :: (cd.put r.2 ++ ' ' :: cd.put x)) = [cd.put r.1, cd.put r.2, cd.put x] := by
  unfold words
  rw [splitP_append _ _ (g.word _) _ (by decide), splitP_append _ _ (g.word _) _ (by decide), splitP_self _ _ (g.word _)]
  simp [g.nonempty]

theorem nl_of_ws (c : Char) (h : isWs c = false) : isNl c = false := by
  unfold isWs at h
  simp only [Bool.or_eq_false_iff] at h
  exact h.2

theorem commented_append (a b : Str) (ha : a ≠ []) (h : commented a = false) : commented (a ++ b) = false := by
  cases a with
  | nil => exact absurd rfl ha
  | cons c cs =>
    simpa [commented, List.isPrefixOf] using h

/-- The first line of a line of data with the rest of the file. -/
theorem split_data {K : Type} (cd : Codec K) (g : cd.Good) (r : K × K) (phi : Option K) (rest : Str) :
    ∃ l, splitP isNl (dataLine cd r phi ++ rest) = l :: splitP isNl rest ∧ kept l = true ∧ numbers cd l = some r := by
  have hnl : ∀ x, ∀ c ∈ cd.put x, isNl c = false := fun x c hc => nl_of_ws c (g.word x c hc)
  have hcom : ∀ x : K, ∀ w : Str, (some (cd.put x) : Option Str) ∉ [some "$".toList, some "#".toList, some "!".toList] := by
    intro x _ h
    have hp := g.plain x
    simp only [List.mem_cons, Option.some.injEq, List.not_mem_nil, or_false] at h
    rcases h with h | h | h <;> rw [h] at hp <;> exact absurd hp (by decide)
  cases phi with
  | none =>
    refine ⟨cd.put r.1 ++ ' ' :: cd.put r.2, ?_, ?_, ?_⟩
    · have : dataLine cd r none ++ rest = (cd.put r.1 ++ ' ' :: cd.put r.2) ++ '\n' :: rest := by simp [dataLine]
      rw [this]
      apply splitP_append _ _ _ _ (by decide)
      intro c hc
      simp only [List.mem_append, List.mem_cons] at hc
      rcases hc with hc | rfl | hc
      · exact hnl _ c hc
      · decide
      · exact hnl _ c hc
    · have h1 := commented_append _ (' ' :: cd.put r.2) (g.nonempty r.1) (g.plain r.1)
      have h2 := hcom r.1 []
      simp only [kept, h1, words_line cd g r, List.head?_cons, h2]
      rfl
    · simp [numbers, words_line cd g r, g.back]
  | some x =>
    refine ⟨cd.put r.1 ++ ' ' :: (cd.put r.2 ++ ' ' :: cd.put x), ?_, ?_, ?_⟩
    · have : dataLine cd r (some x) ++ rest = (cd.put r.1 ++ ' ' :: (cd.put r.2 ++ ' ' :: cd.put x)) ++ '\n' :: rest := by simp [dataLine]
      rw [this]
      apply splitP_append _ _ _ _ (by decide)
      intro c hc
      simp only [List.mem_append, List.mem_cons] at hc
      rcases hc with hc | rfl | hc | rfl | hc
      · exact hnl _ c hc
      · decide
      · exact hnl _ c hc
      · decide
      · exact hnl _ c hc
    · have h1 := commented_append _ (' ' :: (cd.put r.2 ++ ' ' :: cd.put x)) (g.nonempty r.1) (g.plain r.1)
      have h2 := hcom r.1 []
      simp only [kept, h1, words_line3 cd g r, List.head?_cons, h2]
      rfl
    · simp [numbers, words_line3 cd g r, g.back]

theorem mapM_data {K : Type} (cd : Codec K) (g : cd.Good) (phi : Option (K × K → K)) (curve : List (K × K)) :
    ((splitP isNl (curve.flatMap (fun r => dataLine cd r (phi.map (fun f => f r))))).filter kept).mapM (numbers cd) = some curve := by
  induction curve with
  | nil => rfl
  | cons r rs ih =>
    obtain ⟨l, h1, h2, h3⟩ := split_data cd g r (phi.map (fun f => f r)) (rs.flatMap (fun r => dataLine cd r (phi.map (fun f => f r))))
    rw [List.flatMap_cons, h1, List.filter_cons_of_pos h2, List.mapM_cons, h3, ih]
    rfl

theorem read_of_rows {K : Type} [LinearOrder K] (cd : Codec K) (text : Str) (curve : List (K × K)) (hs : curve.Pairwise (fun a b => a.1 < b.1))
    (h : ((splitP isNl text).filter kept).mapM (numbers cd) = some curve) : readText cd text = some curve := by
  unfold readText
  rw [h]
  have hn : (curve.map Prod.fst).Nodup := by
    rw [List.Nodup, List.pairwise_map]
    exact hs.imp (fun h => ne_of_lt h)
  simp only [hn.dedup, ne_eq, not_true_eq_false, if_false]
  rw [List.Pairwise.insertionSort_eq (hs.imp (fun h => le_of_lt h))]

/-- The line of a header: the text up to the sign of comments of the columns. -/
theorem split_head (header : Option Str) (phi : Bool) (hh : ∀ h, header = some h → ∀ c ∈ h, isNl c = false) (rest : Str) :
    ∃ l, splitP isNl (head header phi ++ rest) = l :: splitP isNl rest ∧ kept l = false := by
  have key : ∀ a b : Str, (∀ c ∈ a, isNl c = false) → (∀ c ∈ b, isNl c = false) → commented (a ++ b) = true →
      ∃ l, splitP isNl (a ++ (b ++ ['\n']) ++ rest) = l :: splitP isNl rest ∧ kept l = false := by
    intro a b ha hb hc
    refine ⟨a ++ b, ?_, by simp [kept, hc]⟩
    have : a ++ (b ++ ['\n']) ++ rest = (a ++ b) ++ '\n' :: rest := by simp
    rw [this]
    apply splitP_append _ _ _ _ (by decide)
    intro c hc
    rcases List.mem_append.1 hc with h | h
    · exact ha c h
    · exact hb c h
  have hbn : ∀ c ∈ columns phi, isNl c = false := by cases phi <;> decide
  obtain ⟨cs, hcs⟩ : ∃ cs, columns phi = '#' :: cs := by cases phi <;> exact ⟨_, rfl⟩
  unfold head
  cases header with
  | none =>
    exact key [] (columns phi) (by simp) hbn (by simp [hcs, commented, List.isPrefixOf])
  | some h =>
    have hn := hh h rfl
    by_cases hp : "#".toList.isPrefixOf h = true
    · simp only [hp, if_true]
      refine key h (columns phi) hn hbn ?_
      cases h with
      | nil => exact absurd hp (by decide)
      | cons c t =>
        have hp' : (('#' == c) && List.isPrefixOf [] t) = true := hp
        have : c = '#' := (eq_of_beq (Bool.and_eq_true_iff.1 hp').1).symm
        rw [this]
        rfl
    · simp only [hp]
      refine key ('#' :: h) (columns phi) ?_ hbn (by simp [commented, List.isPrefixOf])
      intro c hc
      rcases List.mem_cons.1 hc with rfl | hc
      · decide
      · exact hn c hc

/-- **C563, what holds.** A bandpass with increasing wavelengths that is written, with or without the
column of phi, with no header or a header of one line, is read as it was. -/
theorem throughput_back_partial {K : Type} [LinearOrder K] (cd : Codec K) (g : cd.Good) (header : Option Str)
    (hh : ∀ h, header = some h → ∀ c ∈ h, isNl c = false) (phi : Option (K × K → K)) (curve : List (K × K))
    (hs : curve.Pairwise (fun a b => a.1 < b.1)) : readText cd (writeText cd header phi curve) = some curve := by
  apply read_of_rows cd _ curve hs
  unfold writeText
  obtain ⟨l, h1, h2⟩ := split_head header phi.isSome hh (curve.flatMap (fun r => dataLine cd r (phi.map (fun f => f r))))
  rw [h1, List.filter_cons_of_neg (by simp [h2])]
  exact mapM_data cd g phi curve

/-- **C563.** A header of two lines: the second line is read as data, and a word that is no number
is a ValueError, whatever the bandpass. -/
theorem throughput_header_raises {K : Type} [LinearOrder K] (cd : Codec K) (phi : Option (K × K → K)) (curve : List (K × K))
    (hw : cd.get "of".toList = none) :
    readText cd (writeText cd (some "Total throughput\nof the r band\n".toList) phi curve) = none := by
  have h1 : ∀ rest : Str, splitP isNl (head (some "Total throughput\nof the r band\n".toList) phi.isSome ++ rest) =
      "#Total throughput".toList :: "of the r band".toList :: splitP isNl ((columns phi.isSome ++ ['\n']) ++ rest) := by
    intro rest
    have : head (some "Total throughput\nof the r band\n".toList) phi.isSome ++ rest =
      "#Total throughput".toList ++ '\n' :: ("of the r band".toList ++ '\n' :: ((columns phi.isSome ++ ['\n']) ++ rest)) := by
      rfl
    rw [this, splitP_append _ _ (by decide) _ (by decide), splitP_append _ _ (by decide) _ (by decide)]
  unfold readText writeText
  rw [h1, List.filter_cons_of_neg (by decide), List.filter_cons_of_pos (by decide), List.mapM_cons]
  have : numbers cd "of the r band".toList = none := by
    have hwds : words "of the r band".toList = ["of".toList, "the".toList, "r".toList, "band".toList] := by decide
    unfold numbers
    rw [hwds]
    show (cd.get "of".toList).bind _ = none
    rw [hw]
    rfl
  rw [this]
  rfl

/-- Numbers in strokes. -/
def strokes : Codec ℕ := ⟨fun n => List.replicate (n + 1) '1', fun s => if s.all (fun c => c == '1') then some (s.length - 1) else none⟩

theorem strokes_good : strokes.Good where
  back x := by simp [strokes]
  nonempty x := by simp [strokes]
  word x c hc := by
    have : c = '1' := by simpa [strokes] using (List.mem_replicate.1 hc).2
    rw [this]; decide
  plain x := by simp [strokes, List.replicate_succ, commented, List.isPrefixOf]

/-- **C563 is false as stated**: with a header of two lines what is read is not what was written. -/
theorem throughput_back_false : ¬ ∀ (cd : Codec ℕ), cd.Good → ∀ (header : Option Str) (curve : List (ℕ × ℕ)),
    curve.Pairwise (fun a b => a.1 < b.1) → readText cd (writeText cd header none curve) = some curve := by
  intro h
  have := h strokes strokes_good (some "Total throughput\nof the r band\n".toList) [(1, 2)] (by simp)
  rw [throughput_header_raises strokes none _ (by decide)] at this
  exact absurd this (by simp)

example : readText strokes (writeText strokes (some "my band".toList) (some (fun r => r.1 + r.2)) [(1, 0), (2, 3)]) = some [(1, 0), (2, 3)] :=
  throughput_back_partial strokes strokes_good _ (by rintro _ ⟨⟩; decide) _ _ (by simp)

/-! ## Time delays -/

/-- What the other season metrics see. -/
def asObs {K : Type} (x : K) (v : TObs K) : Seasons.Obs K := ⟨v.mjd, v.night, x, v.season⟩

section tdc

variable {K : Type} [Field K] [LinearOrder K]

theorem diff_short (l : List Int) (h : l.length ≤ 1) : diff l = [] := by
  match l, h with
  | [], _ => rfl
  | [_], _ => rfl

theorem unique_short (l : List Int) (h : l.length ≤ 1) : (Seasons.uniqueInt l).length ≤ 1 := by
  match l, h with
  | [], _ => simp [Seasons.uniqueInt, sort]
  | [_], _ => simp [Seasons.uniqueInt, sort]

omit [LinearOrder K] in
theorem mean_same (x : K) (s : List (TObs K)) (e : Nat × Nat) : tdcMean s e = Seasons.seasonMean (s.map (asObs x)) e := by
  have hm : (pySlice (s.map (asObs x)) e.1 (e.2 + 1)).map (·.night) = (pySlice s e.1 (e.2 + 1)).map TObs.night := by
    simp [pySlice, List.map_take, List.map_drop, Function.comp_def, asObs]
  unfold tdcMean Seasons.seasonMean
  rw [hm]
  by_cases h : e.1 < e.2
  · simp [h, Seasons.mean]
  · have hlen : (diff (Seasons.uniqueInt ((pySlice s e.1 (e.2 + 1)).map TObs.night))) = [] := by
      apply diff_short
      apply unique_short
      simp [pySlice]
      omega
    simp [h, hlen]

omit [LinearOrder K] in
/-- **C564.** The cadence of `TdcMetric` is the mean of `MeanCampaignFrequencyMetric` on the visits
deep enough. -/
theorem tdc_cadence (x : K) (s : List (TObs K)) : tdcCad s = Seasons.meanFrequency (s.map (asObs x)) := by
  unfold tdcCad Seasons.meanFrequency Seasons.mean
  have h1 : (s.map (asObs x)).map (·.season) = s.map TObs.season := by simp [Function.comp_def, asObs]
  have h2 : (Seasons.seasonMean (s.map (asObs x))) = tdcMean s := by funext e; exact (mean_same x s e).symm
  rw [h1, h2]

/-- **C564.** Its season is the median of the lengths of `SeasonLengthMetric`, in months of thirty
days, and its campaign that of `CampaignLengthMetric`. -/
theorem tdc_season (x : K) (s : List (TObs K)) :
    tdcSea s = Mo.median ((Seasons.seasonLengths (s.map (asObs x))).filterMap (fun v => v)) / 30 ∧
    tdcCamp s = Seasons.campaignLength (s.map (asObs x)) := by
  have h1 : (s.map (asObs x)).map (·.season) = s.map TObs.season := by simp [Function.comp_def, asObs]
  constructor
  · unfold tdcSea tdcLengths Seasons.seasonLengths
    rw [h1]
    congr 3
    apply List.map_congr_left
    intro e _
    simp only [List.getElem?_map]
    cases s[e.2]? <;> cases s[e.1]? <;> rfl
  · unfold tdcCamp Seasons.campaignLength
    rw [h1]

end tdc

/-- **C564.** A visit that is not deeper than the cut behind the dust changes nothing. -/
theorem tdc_shallow (n : Norms) (ax cuts : String → ℝ) (ebv : ℝ) (a b : List (TObs ℝ)) (v : TObs ℝ) (h : v.m5 - ax v.band * ebv ≤ cuts v.band) :
    tdcRun n ax cuts ebv (a ++ v :: b) = tdcRun n ax cuts ebv (a ++ b) := by
  have : deep ax cuts ebv (a ++ v :: b) = deep ax cuts ebv (a ++ b) := by
    unfold deep
    rw [List.filter_append, List.filter_append, List.filter_cons_of_neg (by simpa using h)]
  unfold tdcRun
  rw [this]

/-- **C564.** What is given carries the cadence, season and campaign of the deep visits. -/
theorem tdc_given (n : Norms) (ax cuts : String → ℝ) (ebv : ℝ) (visits : List (TObs ℝ)) (t : Tdc) (h : tdcRun n ax cuts ebv visits = some t) :
    let s := visits.filter (fun v => decide (cuts v.band < v.m5 - ax v.band * ebv))
    s ≠ [] ∧ t.cadence = Seasons.meanFrequency (s.map (asObs 0)) ∧ t.campaign = Seasons.campaignLength (s.map (asObs 0)) ∧
      t.season = Mo.median ((Seasons.seasonLengths (s.map (asObs 0))).filterMap (fun v => v)) / 30 := by
  intro s
  have hs : deep ax cuts ebv visits = s := rfl
  unfold tdcRun at h
  simp only [hs] at h
  split_ifs at h with h1 h2
  obtain rfl := Option.some.inj h
  exact ⟨h1, tdc_cadence 0 s, (tdc_season 0 s).2, (tdc_season 0 s).1⟩

/-- **C565.** The numbers are positive. -/
theorem tdc_pos (n : Norms) (hn : 0 < n.cad ∧ 0 < n.sea ∧ 0 < n.camp) (cad sea : ℝ) (camp : ℕ) (h1 : 0 < cad) (h2 : 0 < sea) (h3 : 0 < camp) :
    0 < (tdcOf n cad sea camp).accuracy ∧ 0 < (tdcOf n cad sea camp).precision ∧ 0 < (tdcOf n cad sea camp).rate := by
  obtain ⟨a, b, c⟩ := hn
  have h3 : (0 : ℝ) < camp := by exact_mod_cast h3
  refine ⟨?_, ?_, ?_⟩ <;> simp only [tdcOf] <;> positivity

/-- **C565.** Shorter steps between nights: the error of the precision is not larger, the rate not
smaller, the accuracy the same. -/
theorem tdc_faster (n : Norms) (hn : 0 < n.cad ∧ 0 < n.sea ∧ 0 < n.camp) (cad cad' sea : ℝ) (camp : ℕ) (h0 : 0 < cad) (h1 : cad ≤ cad') (h2 : 0 < sea) :
    (tdcOf n cad sea camp).precision ≤ (tdcOf n cad' sea camp).precision ∧ (tdcOf n cad' sea camp).rate ≤ (tdcOf n cad sea camp).rate ∧
      (tdcOf n cad sea camp).accuracy = (tdcOf n cad' sea camp).accuracy := by
  obtain ⟨a, b, c⟩ := hn
  have h0' : 0 < cad' := lt_of_lt_of_le h0 h1
  refine ⟨?_, ?_, rfl⟩ <;> simp only [tdcOf] <;> gcongr

/-- **C565.** Longer seasons: all three better. -/
theorem tdc_longer (n : Norms) (hn : 0 < n.cad ∧ 0 < n.sea ∧ 0 < n.camp) (cad sea sea' : ℝ) (camp : ℕ) (h0 : 0 < cad) (h1 : 0 < sea) (h2 : sea ≤ sea') :
    (tdcOf n cad sea' camp).precision ≤ (tdcOf n cad sea camp).precision ∧ (tdcOf n cad sea' camp).accuracy ≤ (tdcOf n cad sea camp).accuracy ∧
      (tdcOf n cad sea camp).rate ≤ (tdcOf n cad sea' camp).rate := by
  obtain ⟨a, b, c⟩ := hn
  have h0' : 0 < sea' := lt_of_lt_of_le h1 h2
  refine ⟨?_, ?_, ?_⟩ <;> simp only [tdcOf] <;> gcongr

/-- **C565.** More seasons: precision and accuracy better, the rate not larger. -/
theorem tdc_campaign (n : Norms) (hn : 0 < n.cad ∧ 0 < n.sea ∧ 0 < n.camp) (cad sea : ℝ) (camp camp' : ℕ) (h0 : 0 < cad) (h1 : 0 < sea) (h2 : 0 < camp)
    (h3 : camp ≤ camp') :
    (tdcOf n cad sea camp').precision ≤ (tdcOf n cad sea camp).precision ∧ (tdcOf n cad sea camp').accuracy ≤ (tdcOf n cad sea camp).accuracy ∧
      (tdcOf n cad sea camp').rate ≤ (tdcOf n cad sea camp).rate := by
  obtain ⟨a, b, c⟩ := hn
  have h2 : (0 : ℝ) < camp := by exact_mod_cast h2
  have h3 : (camp : ℝ) ≤ camp' := by exact_mod_cast h3
  refine ⟨?_, ?_, ?_⟩ <;> simp only [tdcOf] <;> gcongr

/-- **C565.** At the normalisations the three numbers are 0.06, 4 and 30. -/
theorem tdc_norm (a b : ℝ) (k : ℕ) (ha : 0 < a) (hb : 0 < b) (hk : 0 < k) :
    (tdcOf ⟨a, b, k⟩ a b k).accuracy = 0.06 ∧ (tdcOf ⟨a, b, k⟩ a b k).precision = 4 ∧ (tdcOf ⟨a, b, k⟩ a b k).rate = 30 := by
  have hk : (k : ℝ) ≠ 0 := by exact_mod_cast hk.ne'
  simp only [tdcOf, div_self ha.ne', div_self hb.ne', div_self hk, Real.one_rpow]
  norm_num

example : (tdcOf ⟨3, 4, 5⟩ 3 4 5).precision = 4 := (tdc_norm 3 4 5 (by norm_num) (by norm_num) (by norm_num)).2.1

/-- Two seasons of two nights, and a shallow visit. -/
def someObs : List (TObs ℚ) := [⟨0, 0, 25, "r", 1⟩, ⟨10, 10, 25, "r", 1⟩, ⟨20, 20, 20, "r", 1⟩, ⟨400, 400, 25, "r", 2⟩, ⟨420, 420, 25, "r", 2⟩]

example : (deep (fun _ => 2) (fun _ => 23) (1 / 2) someObs).map TObs.night = [0, 10, 400, 420] := by decide +kernel

/-! ## Metrics with statistics -/

/-- **C566.** Of a subset of the metrics, exactly those with a statistic of one of the names are given,
each as often as in the subset. -/
theorem withStat_spec (srt : List Web.Metric → List Web.Metric) (hsrt : ∀ l, (srt l).Perm l) (stats : List (ℕ × Str)) (names : List Str)
    (metrics : List Web.Metric) (m : Web.Metric) :
    (m ∈ withStat srt stats names metrics ↔ m ∈ metrics ∧ ∃ n ∈ names, (m.id, n) ∈ stats) ∧
    (withStat srt stats names metrics).count m ≤ metrics.count m ∧
    (m ∈ withStat srt stats names metrics → (withStat srt stats names metrics).count m = metrics.count m) := by
  have hiff : (m.id ∈ (stats.filter (fun s => decide (s.2 ∈ names))).map Prod.fst) ↔ ∃ n ∈ names, (m.id, n) ∈ stats := by
    simp only [List.mem_map, List.mem_filter, decide_eq_true_eq, Prod.exists]
    constructor
    · rintro ⟨a, b, ⟨h1, h2⟩, rfl⟩; exact ⟨b, h2, h1⟩
    · rintro ⟨n, h1, h2⟩; exact ⟨m.id, n, ⟨h2, h1⟩, rfl⟩
  have hmem : m ∈ withStat srt stats names metrics ↔ m ∈ metrics ∧ ∃ n ∈ names, (m.id, n) ∈ stats := by
    unfold withStat
    rw [(hsrt _).mem_iff, List.mem_filter, decide_eq_true_eq, hiff]
  refine ⟨hmem, ?_, ?_⟩
  · unfold withStat
    rw [(hsrt _).count_eq]
    exact List.filter_sublist.count_le _
  · intro h
    have h := (hmem.1 h).2
    unfold withStat
    rw [(hsrt _).count_eq, List.count_filter]
    simpa using hiff.2 h

/-- **C566.** The metrics with any statistic. -/
theorem withAny_spec (srt : List Web.Metric → List Web.Metric) (hsrt : ∀ l, (srt l).Perm l) (stats : List (ℕ × Str))
    (metrics : List Web.Metric) (m : Web.Metric) :
    m ∈ withAny srt stats metrics ↔ m ∈ metrics ∧ ∃ n, (m.id, n) ∈ stats := by
  unfold withAny
  rw [(hsrt _).mem_iff, List.mem_filter, decide_eq_true_eq]
  simp

/-- **C566.** A metric has some statistic exactly when it is given for some name. -/
theorem withAny_union (srt : List Web.Metric → List Web.Metric) (hsrt : ∀ l, (srt l).Perm l) (stats : List (ℕ × Str))
    (metrics : List Web.Metric) (m : Web.Metric) :
    m ∈ withAny srt stats metrics ↔ ∃ n, m ∈ withStat srt stats [n] metrics := by
  rw [withAny_spec srt hsrt]
  simp only [(withStat_spec srt hsrt stats _ metrics m).1]
  simp

example : (withStat id [(1, ['M']), (2, ['R'])] [['R']] [⟨1, [], [], ['a']⟩, ⟨2, [], [], ['b']⟩, ⟨3, [], [], ['c']⟩]).map Web.Metric.id = [2] := by decide

theorem nameLabels_aux (rows : List (Str × Str)) (out : List Str) (hn : out.Nodup) :
    let r := rows.foldl (fun out r => if r.1 ++ ' ' :: r.2 ∈ out then out else out ++ [r.1 ++ ' ' :: r.2]) out
    r.Nodup ∧ (∀ s, s ∈ r ↔ s ∈ out ∨ s ∈ rows.map (fun r => r.1 ++ ' ' :: r.2)) ∧
      ∃ t, r = out ++ t ∧ t.Sublist (rows.map (fun r => r.1 ++ ' ' :: r.2)) := by
  induction rows generalizing out with
  | nil => simp [hn]
  | cons r rs ih =>
    simp only [List.foldl_cons]
    by_cases h : r.1 ++ ' ' :: r.2 ∈ out
    · simp only [h, if_true]
      obtain ⟨h1, h2, t, h3, h4⟩ := ih out hn
      refine ⟨h1, ?_, t, h3, h4.cons _⟩
      intro s
      rw [h2 s]
      simp only [List.map_cons, List.mem_cons]
      constructor
      · rintro (a | a)
        · exact Or.inl a
        · exact Or.inr (Or.inr a)
      · rintro (a | rfl | a)
        · exact Or.inl a
        · exact Or.inl h
        · exact Or.inr a
    · simp only [h, if_false]
      have hn' : (out ++ [r.1 ++ ' ' :: r.2]).Nodup := by
        rw [List.nodup_append]
        refine ⟨hn, by simp, ?_⟩
        intro a ha b hb
        rw [List.mem_singleton.1 hb]
        rintro rfl
        exact h ha
      obtain ⟨h1, h2, t, h3, h4⟩ := ih _ hn'
      refine ⟨h1, ?_, (r.1 ++ ' ' :: r.2) :: t, ?_, ?_⟩
      · intro s
        rw [h2 s]
        simp only [List.map_cons, List.mem_cons, List.mem_append, List.not_mem_nil, or_false]
        tauto
      · rw [h3]; simp
      · exact h4.cons_cons _

/-- **C567.** The names with labels are given once each, all of them, in the order of the metrics. -/
theorem nameLabels_spec (rows : List (Str × Str)) :
    (nameLabels rows).Nodup ∧ (∀ s, s ∈ nameLabels rows ↔ ∃ r ∈ rows, s = r.1 ++ ' ' :: r.2) ∧
      (nameLabels rows).Sublist (rows.map (fun r => r.1 ++ ' ' :: r.2)) := by
  obtain ⟨h1, h2, t, h3, h4⟩ := nameLabels_aux rows [] List.nodup_nil
  refine ⟨h1, ?_, ?_⟩
  · intro s
    have := h2 s
    simp only [List.not_mem_nil, false_or, List.mem_map] at this
    refine this.trans ⟨?_, ?_⟩
    · rintro ⟨r, hr, rfl⟩; exact ⟨r, hr, rfl⟩
    · rintro ⟨r, hr, rfl⟩; exact ⟨r, hr, rfl⟩
  · have : nameLabels rows = t := h3
    rw [this]
    exact h4

/-- **C567.** The first occurrences decide the order: the first row comes first. -/
theorem nameLabels_first (r : Str × Str) (rows : List (Str × Str)) : (nameLabels (r :: rows)).head? = some (r.1 ++ ' ' :: r.2) := by
  obtain ⟨_, _, t, h3, _⟩ := nameLabels_aux rows [r.1 ++ ' ' :: r.2] (by simp)
  have : nameLabels (r :: rows) = [r.1 ++ ' ' :: r.2] ++ t := by
    rw [← h3]; rfl
  rw [this]
  rfl

example : nameLabels [(['b'], ['x']), (['a'], ['y']), (['b'], ['x'])] = ["b x".toList, "a y".toList] := by decide

/-! ## Offsets -/

theorem fold_dmags (dmags : List (String × ℝ)) (mag : ℝ) : dmags.foldl (fun m d => m + d.2) mag = mag + (dmags.map Prod.snd).sum := by
  induction dmags generalizing mag with
  | nil => simp
  | cons d ds ih => rw [List.foldl_cons, ih, List.map_cons, List.sum_cons]; ring

/-- **C568.** The error of a star is that of its magnitude with all the offsets before: the logarithm
of one plus a fifth of the flux at the limit over its own. -/
theorem snr_spec (mag m5 : ℝ) (dmags : List (String × ℝ)) :
    snrErr mag m5 dmags = 2.5 * (Real.log (1 + 1 / (5 * (10 : ℝ) ^ (0.4 * (m5 - (mag + (dmags.map Prod.snd).sum))))) / Real.log 10) := by
  unfold snrErr Selfcal.magErr
  rw [fold_dmags, (Astro.m52snr_default _ _).1]

/-- **C568.** The order of the offsets before does not matter. -/
theorem snr_perm (mag m5 : ℝ) (a b : List (String × ℝ)) (h : a.Perm b) : snrErr mag m5 a = snrErr mag m5 b := by
  rw [snr_spec, snr_spec, (h.map Prod.snd).sum_eq]

/-- **C568.** An offset that dims the star gives a larger error. -/
theorem snr_dims (mag m5 : ℝ) (dmags : List (String × ℝ)) (k : String) (x : ℝ) (hx : 0 < x) :
    snrErr mag m5 dmags < snrErr mag m5 (dmags ++ [(k, x)]) := by
  rw [snr_spec, snr_spec]
  have h10 : (0 : ℝ) < Real.log 10 := Real.log_pos (by norm_num)
  have hlt : (10 : ℝ) ^ (0.4 * (m5 - (mag + ((dmags ++ [(k, x)]).map Prod.snd).sum))) < (10 : ℝ) ^ (0.4 * (m5 - (mag + (dmags.map Prod.snd).sum))) := by
    apply Real.rpow_lt_rpow_of_exponent_lt (by norm_num)
    simp
    linarith
  have hp : (0 : ℝ) < (10 : ℝ) ^ (0.4 * (m5 - (mag + ((dmags ++ [(k, x)]).map Prod.snd).sum))) := by positivity
  have hp' : (0 : ℝ) < (10 : ℝ) ^ (0.4 * (m5 - (mag + (dmags.map Prod.snd).sum))) := by positivity
  have : Real.log (1 + 1 / (5 * (10 : ℝ) ^ (0.4 * (m5 - (mag + (dmags.map Prod.snd).sum))))) <
      Real.log (1 + 1 / (5 * (10 : ℝ) ^ (0.4 * (m5 - (mag + ((dmags ++ [(k, x)]).map Prod.snd).sum))))) := by
    apply Real.log_lt_log (by positivity)
    have := one_div_lt_one_div_of_lt (by positivity) (mul_lt_mul_of_pos_left hlt (show (0 : ℝ) < 5 by norm_num))
    linarith
  have := div_lt_div_of_pos_right this h10
  linarith

example : snrErr 20 24 [("a", 1), ("b", 2)] = snrErr 20 24 [("b", 2), ("a", 1)] := snr_perm _ _ _ _ (List.Perm.swap _ _ _)

/-- **C569, what holds.** Under a clear sky there are no offsets by clouds, one zero for each star. -/
theorem clouds_clear_partial (n : ℕ) : ∃ l, clouds 0 n = .val l ∧ l.length = n ∧ ∀ x ∈ l, x = 0 := by
  refine ⟨List.replicate n 0, by simp [clouds], by simp, ?_⟩
  intro x hx
  exact (List.mem_replicate.1 hx).2

/-- **C569.** Under any clouds the call raises. -/
theorem clouds_raises (t : ℝ) (ht : t ≠ 0) (n : ℕ) : clouds t n = .error "AttributeError" := by simp [clouds, ht]

/-- **C569 is false as stated**: offsets under clouds cannot be had. -/
theorem clouds_false : ¬ ∀ (t : ℝ) (n : ℕ), ∃ l, clouds t n = .val l ∧ l.length = n := by
  intro h
  obtain ⟨l, h1, _⟩ := h 1 1
  rw [clouds_raises 1 (by norm_num)] at h1
  cases h1

/-! ## Galaxies and binaries -/

/-- **C570.** Every call of the metric raises a TypeError, with any visits and any point. -/
theorem galaxyCounts_raises {D P R : Type} (coadd : D → P → R) (count : R → R) (data : D) (point : P) :
    galaxyCounts coadd count data point = .error "TypeError" := by
  rfl

/-- **C570 is false as stated**: the number of galaxies at the depth behind the dust is never given. -/
theorem galaxyCounts_false {D P R : Type} (coadd : D → P → R) (count : R → R) :
    ¬ ∃ (data : D) (point : P), galaxyCounts coadd count data point = .ok (count (coadd data point)) := by
  rintro ⟨d, p, h⟩
  rw [galaxyCounts_raises] at h
  cases h

/-- A draw as `choice` and `uniform` give it. -/
def Draw (d : ℝ × ℝ) : Prop := d.1 ∈ catalogPorb ∧ 0.5 ≤ d.2 ∧ d.2 < 1.5

/-- **C571.** One dictionary for each period, at the same place; its r magnitude is that of Casares for
this period, and the colours are always the same. -/
theorem lmxb_spec (draws : List (ℝ × ℝ)) : (lmxb draws).1.length = draws.length ∧ (lmxb draws).2.length = draws.length ∧
    ∀ (k : ℕ) (m : Ugrizy) (p : ℝ), (lmxb draws).1[k]? = some m → (lmxb draws).2[k]? = some p →
      m.r = 4.64 - 3.69 * (Real.log p / Real.log 10) ∧ m.u - m.g = 0.9 ∧ m.g - m.r = 3.24 ∧ m.r - m.i = -0.33 ∧ m.i - m.z = -0.72 ∧ m.z - m.y = -1.31 := by
  refine ⟨by simp [lmxb], by simp [lmxb], ?_⟩
  intro k m p hm hp
  simp only [lmxb, List.getElem?_map] at hm hp
  cases hd : draws[k]? with
  | none => simp [hd] at hm
  | some d =>
    simp only [hd, Option.map_some, Option.some.injEq] at hm hp
    subst hm
    subst hp
    refine ⟨rfl, ?_, ?_, ?_, ?_, ?_⟩ <;> simp only <;> norm_num

/-- **C571.** The periods are between half the smallest and one and a half of the largest of the
catalogue. -/
theorem lmxb_periods (draws : List (ℝ × ℝ)) (hd : ∀ d ∈ draws, Draw d) (p : ℝ) (hp : p ∈ (lmxb draws).2) : 0.0503 ≤ p ∧ p < 50.775 := by
  simp only [lmxb, List.mem_map] at hp
  obtain ⟨d, hm, rfl⟩ := hp
  obtain ⟨h1, h2, h3⟩ := hd d hm
  have hb : 0.1006 ≤ d.1 ∧ d.1 ≤ 33.85 := by
    simp only [catalogPorb, List.mem_cons, List.not_mem_nil, or_false] at h1
    rcases h1 with h | h | h | h | h | h | h | h | h | h | h | h | h | h | h | h | h <;> rw [h] <;> norm_num
  constructor
  · nlinarith [hb.1, hb.2]
  · nlinarith [hb.1, hb.2]

/-- **C571.** Each period is between half and one and a half of the one that was drawn from the catalogue for it. -/
theorem lmxb_near (draws : List (ℝ × ℝ)) (k : ℕ) (d : ℝ × ℝ) (p : ℝ) (hk : draws[k]? = some d) (hd : Draw d) (hp : (lmxb draws).2[k]? = some p) :
    0.5 * d.1 ≤ p ∧ p < 1.5 * d.1 := by
  simp only [lmxb, List.getElem?_map, hk, Option.map_some, Option.some.injEq] at hp
  subst hp
  obtain ⟨h1, h2, h3⟩ := hd
  have hb : 0 < d.1 := by
    simp only [catalogPorb, List.mem_cons, List.not_mem_nil, or_false] at h1
    rcases h1 with h | h | h | h | h | h | h | h | h | h | h | h | h | h | h | h | h <;> rw [h] <;> norm_num
  constructor <;> nlinarith

/-- **C571.** A longer period is a brighter star, in every band. -/
theorem lmxb_brighter (draws : List (ℝ × ℝ)) (j k : ℕ) (m m' : Ugrizy) (p p' : ℝ) (h1 : (lmxb draws).1[j]? = some m) (h2 : (lmxb draws).2[j]? = some p)
    (h3 : (lmxb draws).1[k]? = some m') (h4 : (lmxb draws).2[k]? = some p') (hp : 0 < p) (h : p < p') :
    m'.u < m.u ∧ m'.g < m.g ∧ m'.r < m.r ∧ m'.i < m.i ∧ m'.z < m.z ∧ m'.y < m.y := by
  obtain ⟨_, _, hs⟩ := lmxb_spec draws
  obtain ⟨a1, a2, a3, a4, a5, a6⟩ := hs j m p h1 h2
  obtain ⟨b1, b2, b3, b4, b5, b6⟩ := hs k m' p' h3 h4
  have hl := Real.log_lt_log hp h
  have h10 : (0 : ℝ) < Real.log 10 := Real.log_pos (by norm_num)
  have := div_lt_div_of_pos_right hl h10
  refine ⟨?_, ?_, ?_, ?_, ?_, ?_⟩ <;> linarith

example : (lmxb [(33.85, 1), (0.1006, 1)]).2 = [33.85, 0.1006] := by simp [lmxb]

end Verif.Odds
