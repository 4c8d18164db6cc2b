import Mathlib.Data.List.Dedup
import Mathlib.Data.List.Nodup
import Mathlib.Tactic.Common
import Verif.Model.BundleSet
import Verif.Props.Names
import Verif.Props.BaseMetric
import Verif.Props.ResultsDb

/-!
# Properties of the setting up, labelling, writing and plotting of bundles

C485-C494.
-/

namespace Verif.BunSet

/-! ## Dictionaries -/

section
variable {V : Type*}

private theorem lookup_put : ∀ (m : List (String × V)) (k : String) (v : V) (x : String), (put m k v).lookup x = if x = k then some v else m.lookup x
  | [], k, v, x => by
    by_cases h : x = k
    · simp [put, h]
    · have : (x == k) = false := by simpa using h
      simp [put, h, List.lookup_cons, this]
  | (k', v') :: l, k, v, x => by
    unfold put
    by_cases hk : k' = k
    · rw [if_pos hk]
      subst hk
      by_cases h : x = k'
      · simp [h]
      · have : (x == k') = false := by simpa using h
        simp [h, List.lookup_cons, this]
    · rw [if_neg hk, List.lookup_cons, List.lookup_cons, lookup_put l k v x]
      by_cases h : x = k'
      · subst h
        simp [hk]
      · have : (x == k') = false := by simpa using h
        simp [this]

private theorem lookup_update (e : List (String × V)) : ∀ (d : List (String × V)) (x : String), (update d e).lookup x = (e.reverse.lookup x).or (d.lookup x) := by
  unfold update
  induction e with
  | nil => simp
  | cons p l ih =>
    intro d x
    rw [List.foldl_cons, ih, lookup_put, List.reverse_cons, List.lookup_append]
    obtain ⟨k, v⟩ := p
    simp only
    by_cases h : x = k
    · subst h
      cases l.reverse.lookup x <;> simp
    · have : (x == k) = false := by simpa using h
      cases l.reverse.lookup x <;> simp [h, List.lookup_cons, this]

private theorem lookup_del (d : List (String × V)) (k x : String) : (del d k).lookup x = if x = k then none else d.lookup x := by
  induction d with
  | nil => simp [del]
  | cons p d ih =>
    obtain ⟨k', v⟩ := p
    unfold del at ih ⊢
    by_cases hk : k' = k
    · rw [List.filter_cons_of_neg (by simpa using hk), ih]
      subst hk
      by_cases h : x = k'
      · simp [h]
      · have : (x == k') = false := by simpa using h
        simp [h, List.lookup_cons, this]
    · rw [List.filter_cons_of_pos (by simpa using hk), List.lookup_cons, List.lookup_cons, ih]
      by_cases h : x = k'
      · subst h; simp [hk]
      · have : (x == k') = false := by simpa using h
        simp [this]

private theorem lookup_updateOpt (d : List (String × V)) (e : Option (List (String × V))) (x : String) :
    (updateOpt d e).lookup x = ((e.getD []).reverse.lookup x).or (d.lookup x) := by
  cases e with
  | none => simp [updateOpt]
  | some e => simp [updateOpt, lookup_update]

private theorem lookup_drop (bad : V → Bool) (k : String) (d : List (String × V)) (x : String) :
    (dropIf bad k d).lookup x = (d.lookup x).filter (fun v => !(x == k && bad v)) := by
  unfold dropIf
  by_cases hx : x = k
  · subst hx
    cases hz : d.lookup x with
    | none => simp [hz]
    | some z =>
      simp only
      cases hb : bad z with
      | true => rw [if_pos rfl, lookup_del, if_pos rfl, Option.filter_some]; simp [hb]
      | false => rw [if_neg (by simp), hz, Option.filter_some]; simp [hb]
  · have hx' : (x == k) = false := by simpa using hx
    have e : (d.lookup x).filter (fun v => !(x == k && bad v)) = d.lookup x := by
      cases d.lookup x <;> simp [hx']
    rw [e]
    cases d.lookup k with
    | none => rfl
    | some z =>
      simp only
      split
      · rw [lookup_del, if_neg hx]
      · rfl

end

/-! ## C485: arguments of the constructor -/

section
variable {α : Type*}

/-- The objects of a list. -/
def objs (l : List (Item α)) : List α := l.filterMap (fun i => match i with
  | .obj a => some a
  | _ => none)

private theorem stackerLoop_eq [DecidableEq α] : ∀ (l : List (Item α)) (acc : List α),
    stackerLoop l acc = if Item.bad ∈ l then .error .value else .ok (acc ++ objs l)
  | [], acc => by simp [stackerLoop, objs]
  | .none :: l, acc => by simp [stackerLoop, stackerLoop_eq l, objs]
  | .bad :: l, acc => by simp [stackerLoop]
  | .obj s :: l, acc => by simp [stackerLoop, stackerLoop_eq l, objs]

private theorem objLoop_eq [DecidableEq α] : ∀ (l : List (Item α)) (acc : List α),
    objLoop l acc = if Item.bad ∈ l ∨ Item.none ∈ l then .error .value else .ok (acc ++ objs l)
  | [], acc => by simp [objLoop, objs]
  | .none :: l, acc => by simp [objLoop]
  | .bad :: l, acc => by simp [objLoop]
  | .obj s :: l, acc => by simp [objLoop, objLoop_eq l, objs]

/-- **C485 (part).** One stacker or a list of stackers, in which `None` counts as nothing; anything else in it is a ValueError. -/
theorem stackers_spec [DecidableEq α] (a : Arg α) :
    stackerList a = match a with
      | .none => .ok []
      | .one s => .ok [s]
      | .many l => if Item.bad ∈ l then .error .value else .ok (objs l) := by
  cases a with
  | none => rfl
  | one s => rfl
  | many l => simp [stackerList, stackerLoop_eq]

/-- One summary metric or a list; without any, the value itself for the slicer that has one slice, and nothing for others. -/
theorem summary_spec [DecidableEq α] (identity : α) (slicerName : String) (a : Arg α) :
    summaryMetrics identity slicerName a = match a with
      | .none => .ok (if slicerName = "UniSlicer" then [identity] else [])
      | .one s => .ok [s]
      | .many l => if Item.bad ∈ l ∨ Item.none ∈ l then .error .value else .ok (objs l) := by
  cases a with
  | none => simp only [summaryMetrics]; split <;> rfl
  | one s => rfl
  | many l => simp [summaryMetrics, objLoop_eq]

/-- A list of plotters, or those of the slicer. -/
theorem plotters_partial [DecidableEq α] (slicers : List α) (a : Arg α) (h : ∀ p, a ≠ .one p) :
    plotFuncs slicers a = match a with
      | .none => .ok slicers
      | .one _ => .error .type
      | .many l => if Item.bad ∈ l ∨ Item.none ∈ l then .error .value else .ok (objs l) := by
  cases a with
  | none => rfl
  | one s => exact absurd rfl (h s)
  | many l => simp [plotFuncs, objLoop_eq]

end

/-- One plotter, which the documentation allows, is refused. -/
theorem plotters_false : ¬ ∀ (slicers : List ℕ) (p : ℕ), plotFuncs slicers (.one p) = .ok [p] := by
  intro h
  exact absurd (h [] 0) (by simp [plotFuncs])

example : stackerList (.many [.obj 1, .none, .obj 2]) = .ok [1, 2] ∧ summaryMetrics 0 "UniSlicer" (.none : Arg ℕ) = .ok [0] ∧
    plotFuncs [7] (.many [.obj 1, .none]) = .error .value := ⟨rfl, rfl, rfl⟩

/-! ## C486: plot dictionary -/

section
variable {V : Type*}

/-- **C486 (part).** An entry is the new one or else the one there was; but a zero point that is not finite and a norm that is zero are left out. -/
theorem setPlot_spec (inf zero : V → Bool) (d : List (String × V)) (new : Option (List (String × V))) (k : String) :
    (setPlot inf zero d new).lookup k =
      (((new.getD []).reverse.lookup k).or (d.lookup k)).filter (fun v => !((k == "zp" && inf v) || (k == "norm_val" && zero v))) := by
  rw [setPlot, lookup_drop, lookup_drop, lookup_updateOpt]
  generalize (((new.getD []).reverse.lookup k).or (d.lookup k)) = o
  cases o with
  | none => rfl
  | some v =>
    have hf : ∀ (p : V → Bool), (some v).filter p = if p v = true then some v else none := fun p => Option.filter_some
    rw [hf, hf]
    by_cases h1 : (k == "zp" && inf v) = true
    · rw [if_neg (by rw [h1]; decide), if_neg (by rw [h1, Bool.true_or]; decide)]
      rfl
    · rw [Bool.not_eq_true] at h1
      rw [if_pos (by rw [h1]; decide), hf, h1, Bool.false_or]

/-- After any calls there is no such zero point or norm. -/
theorem setPlot_good (inf zero : V → Bool) (d : List (String × V)) (news : List (Option (List (String × V)))) (h : news ≠ []) (v : V) :
    ((news.foldl (setPlot inf zero) d).lookup "zp" = some v → inf v = false) ∧
      ((news.foldl (setPlot inf zero) d).lookup "norm_val" = some v → zero v = false) := by
  obtain ⟨l, n, rfl⟩ : ∃ l n, news = l ++ [n] := ⟨news.dropLast, news.getLast h, (List.dropLast_append_getLast h).symm⟩
  rw [List.foldl_append, List.foldl_cons, List.foldl_nil, setPlot_spec, setPlot_spec]
  rw [Option.filter_eq_some_iff, Option.filter_eq_some_iff]
  constructor
  · rintro ⟨_, h⟩
    simpa using h
  · rintro ⟨_, h⟩
    simpa using h

private theorem copy_lookup (parent : List (String × V)) : ∀ (d : List (String × V)) (x : String),
    (parent.foldl (fun d p => if (d.lookup p.1).isSome then d else put d p.1 p.2) d).lookup x = (d.lookup x).or (parent.lookup x) := by
  induction parent with
  | nil => simp
  | cons p l ih =>
    intro d x
    obtain ⟨k, v⟩ := p
    rw [List.foldl_cons, ih]
    simp only
    by_cases hs : (d.lookup k).isSome = true
    · rw [if_pos hs]
      by_cases hx : x = k
      · subst hx
        obtain ⟨w, hw⟩ := Option.isSome_iff_exists.mp hs
        simp [hw]
      · have : (x == k) = false := by simpa using hx
        simp [List.lookup_cons, this]
    · rw [if_neg hs, lookup_put]
      have hn : d.lookup k = none := by
        cases hd : d.lookup k with
        | none => rfl
        | some w => exact absurd (by rw [hd]; rfl) hs
      by_cases hx : x = k
      · subst hx
        simp [hn]
      · have : (x == k) = false := by simpa using hx
        simp [List.lookup_cons, this, hx]

/-- A reduced bundle has the entries of its parent, all of them, unless others are given. -/
theorem reducedPlot_spec (inf zero : V → Bool) (parent : List (String × V)) (given : Option (List (String × V))) (k : String) :
    (reducedPlot inf zero parent given).lookup k =
      (((given.getD []).reverse.lookup k).or (parent.lookup k)).filter (fun v => !((k == "zp" && inf v) || (k == "norm_val" && zero v))) := by
  unfold reducedPlot
  rw [setPlot_spec, copy_lookup, setPlot_spec]
  simp

end

/-- Titles and labels of axes too, which the comment in the code excludes. -/
theorem reducedPlot_title_false : ¬ ∀ (parent : List (String × ℕ)), (reducedPlot (fun _ => false) (fun _ => false) parent none).lookup "title" = none := by
  intro h
  exact absurd (h [("title", 1)]) (by decide)

example : setPlot (fun v => decide (v = 9)) (fun v => decide (v = 0)) [("zp", 1), ("norm_val", 2), ("a", 3)] (some [("zp", 9), ("a", 4)]) =
    [("norm_val", 2), ("a", 4)] := by decide

/-! ## C487: display dictionary and caption -/

section
variable {A : Type*}

/-- The default of an entry. -/
def defaultOf (zero : A) (k : String) : Option (Option A) :=
  if k = "group" ∨ k = "subgroup" ∨ k = "caption" then some none else if k = "order" then some (some zero) else none

private theorem defaults_lookup (zero : A) (k : String) : (defaults zero).lookup k = defaultOf zero k := by
  unfold defaults defaultOf
  by_cases h1 : k = "group"
  · subst h1; rfl
  · by_cases h2 : k = "subgroup"
    · subst h2; rfl
    · by_cases h3 : k = "order"
      · subst h3; rfl
      · by_cases h4 : k = "caption"
        · subst h4; rfl
        · have e1 : (k == "group") = false := by simpa using h1
          have e2 : (k == "subgroup") = false := by simpa using h2
          have e3 : (k == "order") = false := by simpa using h3
          have e4 : (k == "caption") = false := by simpa using h4
          simp [List.lookup_cons, e1, e2, e3, e4, h1, h2, h3, h4]

/-- **C487 (part).** An entry is the new one, else the one there was, else the default. -/
theorem display_entry (zero : A) (auto : Except PyErr A) (d d' : List (String × Option A)) (new : Option (List (String × Option A)))
    (h : setDisplay zero auto d new = .ok d') (k : String) (hk : k ≠ "caption") :
    d'.lookup k = ((((new.getD []).reverse.lookup k).or (d.reverse.lookup k)).or (defaultOf zero k)) := by
  have hu : ∀ x, (updateOpt (update (defaults zero) d) new).lookup x =
      (((new.getD []).reverse.lookup x).or (d.reverse.lookup x)).or (defaultOf zero x) := by
    intro x
    rw [← defaults_lookup, lookup_updateOpt, lookup_update, Option.or_assoc]
  unfold setDisplay fillCaption at h
  generalize updateOpt (update (defaults zero) d) new = tmp at hu h
  rw [← hu k]
  split at h
  · cases h; rfl
  · cases auto with
    | error e => cases h
    | ok c =>
      simp only [Except.ok.injEq] at h
      rw [← h, lookup_put, if_neg hk]

/-- The caption is the new one or else the one there was, and if that is `None` it is made now; it fails exactly if that does. -/
theorem display_caption (zero : A) (auto : Except PyErr A) (d : List (String × Option A)) (new : Option (List (String × Option A))) :
    (∀ c, (((new.getD []).reverse.lookup "caption").or (d.reverse.lookup "caption")) = some (some c) → ∃ d', setDisplay zero auto d new = .ok d' ∧ d'.lookup "caption" = some (some c)) ∧
      ((((new.getD []).reverse.lookup "caption").or (d.reverse.lookup "caption")) = none ∨ (((new.getD []).reverse.lookup "caption").or (d.reverse.lookup "caption")) = some none →
        (∀ e, auto = .error e → setDisplay zero auto d new = .error e) ∧
        (∀ c, auto = .ok c → ∃ d', setDisplay zero auto d new = .ok d' ∧ d'.lookup "caption" = some (some c))) := by
  have hu : ∀ x, (updateOpt (update (defaults zero) d) new).lookup x =
      (((new.getD []).reverse.lookup x).or (d.reverse.lookup x)).or (defaultOf zero x) := by
    intro x
    rw [← defaults_lookup, lookup_updateOpt, lookup_update, Option.or_assoc]
  unfold setDisplay fillCaption
  generalize updateOpt (update (defaults zero) d) new = tmp at hu
  have hc := hu "caption"
  have hd : defaultOf zero "caption" = some none := rfl
  rw [hd] at hc
  constructor
  · intro c h
    rw [h] at hc
    simp only [Option.or_some, Option.some_or] at hc
    rw [hc]
    exact ⟨tmp, rfl, hc⟩
  · intro h
    have hc' : tmp.lookup "caption" = some none := by
      rcases h with h | h <;> rw [h] at hc <;> simpa using hc
    rw [hc']
    constructor
    · rintro e rfl; rfl
    · rintro c rfl
      exact ⟨_, rfl, by rw [lookup_put, if_pos rfl]⟩

/-- After any calls that succeed there are all four entries and a caption. -/
theorem displays_keys (zero : A) (l : List (Except PyErr A × Option (List (String × Option A)))) (d d' : List (String × Option A)) (hl : l ≠ [])
    (h : displays zero l d = .ok d') : (∀ k ∈ ["group", "subgroup", "order"], (d'.lookup k).isSome = true) ∧ ∃ c, d'.lookup "caption" = some (some c) := by
  induction l generalizing d with
  | nil => exact absurd rfl hl
  | cons p l ih =>
    obtain ⟨auto, new⟩ := p
    rw [displays] at h
    cases hs : setDisplay zero auto d new with
    | error e => rw [hs] at h; cases h
    | ok d1 =>
      rw [hs] at h
      simp only at h
      by_cases hl' : l = []
      · subst hl'
        simp only [displays, Except.ok.injEq] at h
        subst h
        constructor
        · intro k hk
          have hne : k ≠ "caption" := by
            rintro rfl
            revert hk; decide
          rw [display_entry zero auto d d1 new hs k hne]
          have : (defaultOf zero k).isSome = true := by
            simp only [List.mem_cons, List.not_mem_nil, or_false] at hk
            rcases hk with rfl | rfl | rfl <;> rfl
          rw [Option.isSome_or, this, Bool.or_true]
        · obtain ⟨h1, h2⟩ := display_caption zero auto d new
          cases hv : (((new.getD []).reverse.lookup "caption").or (d.reverse.lookup "caption")) with
          | none =>
            obtain ⟨e1, e2⟩ := h2 (Or.inl hv)
            cases auto with
            | error e => rw [e1 e rfl] at hs; cases hs
            | ok c =>
              obtain ⟨x, hx, hc⟩ := e2 c rfl
              rw [hs] at hx; cases hx
              exact ⟨c, hc⟩
          | some o =>
            cases o with
            | none =>
              obtain ⟨e1, e2⟩ := h2 (Or.inr hv)
              cases auto with
              | error e => rw [e1 e rfl] at hs; cases hs
              | ok c =>
                obtain ⟨x, hx, hc⟩ := e2 c rfl
                rw [hs] at hx; cases hx
                exact ⟨c, hc⟩
            | some c =>
              obtain ⟨x, hx, hc⟩ := h1 c hv
              rw [hs] at hx; cases hx
              exact ⟨c, hc⟩
      · exact ih d1 hl' h

end

/-- **C487.** A caption that is made is the comment, or the name, slicer and constraint if there is one, with the zero point and norm of the plots if there are. -/
theorem caption_spec (a : About) (zp norm : Option String) :
    caption a (zp.map some) (norm.map some) = .ok
      ((match a.comment with
        | some c => c
        | none => a.name ++ " calculated on a " ++ a.slicer ++ " basis" ++
            (if a.constraint = "" then "." else " using a subset of data selected via " ++ a.constraint ++ ".")) ++
        (match zp with
          | none => ""
          | some z => " Values plotted with a zeropoint of " ++ z ++ ".") ++
        (match norm with
          | none => ""
          | some n => " Values plotted with a normalization value of " ++ n ++ ".")) := by
  unfold caption
  have hc : (if a.constraint ≠ "" then " using a subset of data selected via " ++ a.constraint ++ "." else ".") =
      (if a.constraint = "" then "." else " using a subset of data selected via " ++ a.constraint ++ ".") := by
    by_cases h : a.constraint = "" <;> simp [h]
  rw [hc]
  cases a.comment <;> cases zp <;> cases norm <;> rfl

/-- A zero point or norm of `None` is a TypeError. -/
theorem caption_none (a : About) (x : Option (Option String)) : caption a (some none) x = .error .type := rfl

/-- So a bundle cannot be made with a zero point of `None`, which `set_plot_dict` allows for, unless a caption is given. -/
theorem display_none_false : ¬ ∀ (a : About) (zp : Option (Option String)), ∃ d, setDisplay "0" (caption a zp none) [] none = .ok d := by
  intro h
  obtain ⟨d, hd⟩ := h ⟨none, "n", "s", ""⟩ (some none)
  cases hd

/-- The caption does not follow the plot dictionary: one that was made before the zero point was set does not tell it. -/
theorem caption_stale_false : ¬ ∀ (a : About) (zp : String) (d : List (String × Option String)),
    displays "0" [(caption a none none, none), (caption a (some (some zp)) none, none)] [] = .ok d →
      d.lookup "caption" = some (some (a.name ++ " calculated on a " ++ a.slicer ++ " basis." ++ " Values plotted with a zeropoint of " ++ zp ++ ".")) := by
  intro h
  have := h ⟨none, "n", "s", ""⟩ "1" [("group", none), ("subgroup", none), ("order", some "0"), ("caption", some "n calculated on a s basis.")] (by rfl)
  exact absurd this (by decide)

/-- A reduced bundle has the caption of its parent, and the order of its function, unless others are given. -/
theorem reduced_display {A : Type*} (zero : A) (auto auto' : Except PyErr A) (parent d : List (String × Option A)) (order : A) (given : Option (List (String × Option A)))
    (c : A) (hp : parent.reverse.lookup "caption" = some (some c)) (h : reducedDisplay zero auto auto' parent order given = .ok d) :
    d.lookup "order" = ((given.getD []).reverse.lookup "order").or (some (some order)) ∧
      ((given.getD []).reverse.lookup "caption" = none → d.lookup "caption" = some (some c)) := by
  unfold reducedDisplay at h
  cases h0 : setDisplay zero auto [] none with
  | error e => rw [h0] at h; cases h
  | ok d0 =>
    rw [h0] at h
    simp only at h
    cases h1 : setDisplay zero auto' d0 (some parent) with
    | error e => rw [h1] at h; cases h
    | ok d1 =>
      rw [h1] at h
      simp only at h
      have hrev : ∀ (m : List (String × Option A)) (k : String), (m.map Prod.fst).Nodup → m.reverse.lookup k = m.lookup k := by
        intro m k hm
        induction m with
        | nil => rfl
        | cons p m ih =>
          obtain ⟨k', v⟩ := p
          rw [List.map_cons, List.nodup_cons] at hm
          rw [List.reverse_cons, List.lookup_append, ih hm.2, List.lookup_cons]
          by_cases hk : k = k'
          · subst hk
            have : m.lookup k = none := by
              rw [List.lookup_eq_none_iff]
              intro p hp'
              rw [bne_iff_ne]
              rintro rfl
              exact hm.1 (List.mem_map.mpr ⟨p, hp', rfl⟩)
            simp [this]
          · have : (k == k') = false := by simpa using hk
            simp only [List.lookup_cons, this, List.lookup_nil]
            cases m.lookup k <;> rfl
      have hputnd : ∀ (m : List (String × Option A)) (k : String) (v : Option A), (m.map Prod.fst).Nodup → ((put m k v).map Prod.fst).Nodup := by
        intro m k v hm
        have hkeys : ∀ m : List (String × Option A), (put m k v).map Prod.fst = if k ∈ m.map Prod.fst then m.map Prod.fst else m.map Prod.fst ++ [k] := by
          intro m
          induction m with
          | nil => simp [put]
          | cons p m ih =>
            obtain ⟨k', v'⟩ := p
            unfold put
            by_cases hk : k' = k
            · simp [hk]
            · rw [if_neg hk]
              have hk' : ¬ k = k' := fun e => hk e.symm
              simp only [List.map_cons, ih, List.mem_cons]
              by_cases hm : k ∈ m.map Prod.fst
              · simp [hm]
              · simp [hm, hk']
        rw [hkeys]
        split
        · exact hm
        · rename_i hnot
          rw [List.nodup_append]
          refine ⟨hm, by simp, ?_⟩
          intro a ha b hb
          rw [List.mem_singleton] at hb
          rintro rfl
          exact hnot (hb ▸ ha)
      have hupnd : ∀ (e m : List (String × Option A)), (m.map Prod.fst).Nodup → ((update m e).map Prod.fst).Nodup := by
        intro e
        induction e with
        | nil => intro m hm; exact hm
        | cons p e ih => intro m hm; exact ih _ (hputnd m p.1 p.2 hm)
      have hsnd : ∀ (au : Except PyErr A) (m m' : List (String × Option A)) (n : Option (List (String × Option A))), setDisplay zero au m n = .ok m' → (m'.map Prod.fst).Nodup := by
        intro au m m' n hs
        have hdef : ((defaults zero).map Prod.fst).Nodup := by
          show ["group", "subgroup", "order", "caption"].Nodup
          decide
        have htmp : ((updateOpt (update (defaults zero) m) n).map Prod.fst).Nodup := by
          cases n with
          | none => exact hupnd _ _ hdef
          | some e => exact hupnd _ _ (hupnd _ _ hdef)
        unfold setDisplay fillCaption at hs
        generalize updateOpt (update (defaults zero) m) n = tmp at hs htmp
        split at hs
        · cases hs; exact htmp
        · cases au with
          | error e => cases hs
          | ok c =>
            simp only [Except.ok.injEq] at hs
            rw [← hs]
            exact hputnd _ _ _ htmp
      have hd1 := hputnd d1 "order" (some order) (hsnd _ _ _ _ h1)
      constructor
      · rw [display_entry zero auto' _ d given h "order" (by decide), hrev _ _ hd1, lookup_put, if_pos rfl]
        cases ((given.getD []).reverse.lookup "order") <;> rfl
      · intro hg
        obtain ⟨x1, hx1, hc1⟩ := (display_caption zero auto' d0 (some parent)).1 c (by simp [hp])
        rw [h1] at hx1; cases hx1
        obtain ⟨x2, hx2, hc2⟩ := (display_caption zero auto' (put d1 "order" (some order)) given).1 c (by
          rw [hg, hrev _ _ hd1, lookup_put, if_neg (by decide), hc1]; rfl)
        rw [h] at hx2; cases hx2
        exact hc2

example : setDisplay 0 (.ok 5) [("order", some 3)] (some [("group", some 7)]) = .ok [("group", some 7), ("subgroup", none), ("order", some 3), ("caption", some 5)] := by rfl

/-! ## C488: label -/

private theorem remove_char (c : Char) (s : Str) : remove [c] s = s.filter (fun x => decide (x ≠ c)) := by
  unfold remove
  suffices h : ∀ n, s.length ≤ n → BaseM.removeAll [c] n s = s.filter (fun x => decide (x ≠ c)) from h _ (le_refl _)
  induction s with
  | nil => intro n _; cases n <;> rfl
  | cons x s ih =>
    intro n hn
    cases n with
    | zero => simp at hn
    | succ n =>
      have hn' : s.length ≤ n := by simpa using hn
      rw [BaseM.removeAll]
      by_cases hx : x = c
      · subst hx
        simp [List.isPrefixOf, ih n hn']
      · have : (c == x) = false := by simpa using fun e => hx e.symm
        simp [List.isPrefixOf, ih n hn', hx, this]

private theorem remove_mem (pat s : Str) (x : Char) (h : x ∈ remove pat s) : x ∈ s := by
  unfold remove at h
  suffices g : ∀ n (s : Str), x ∈ BaseM.removeAll pat n s → x ∈ s from g _ _ h
  intro n
  induction n with
  | zero => intro s h; cases s <;> exact h
  | succ n ih =>
    intro s h
    cases s with
    | nil => exact h
    | cons y s =>
      rw [BaseM.removeAll] at h
      split at h
      · exact List.mem_of_mem_drop (ih _ h)
      · rcases List.mem_cons.mp h with rfl | h
        · exact List.mem_cons_self
        · exact List.mem_cons_of_mem _ (ih _ h)

private theorem oneBlank_mem (x : Char) : ∀ (s : Str), x ∈ oneBlank s → x ∈ s := by
  intro s
  fun_induction oneBlank s with
  | case1 l ih =>
    intro h
    rcases List.mem_cons.mp h with rfl | h
    · exact List.mem_cons_self
    · exact List.mem_cons_of_mem _ (List.mem_cons_of_mem _ (ih h))
  | case2 c l _ ih =>
    intro h
    rcases List.mem_cons.mp h with rfl | h
    · exact List.mem_cons_self
    · exact List.mem_cons_of_mem _ (ih h)
  | case3 => exact id

private theorem strip_mem (x : Char) (s : Str) (h : x ∈ strip s) : x ∈ s := by
  unfold strip at h
  rw [List.mem_reverse] at h
  have h := (List.dropWhile_sublist _).subset h
  rw [List.mem_reverse] at h
  exact (List.dropWhile_sublist _).subset h

/-- **C488 (part).** A label that is given is the label; the old keyword counts only if the new one is not there. -/
theorem label_given (constraint : Str) (info metadata : Option Str) (l : Str) :
    (info = some l → buildLabel constraint info metadata = l) ∧ (info = none → metadata = some l → buildLabel constraint info metadata = l) := by
  constructor
  · rintro rfl; rfl
  · rintro rfl rfl; rfl

/-- Otherwise it has no equal signs nor quotes, no other characters than the constraint, and no blanks at its ends. -/
theorem label_chars (constraint : Str) : (∀ x ∈ buildLabel constraint none none, x ∈ constraint ∧ x ≠ '=' ∧ x ≠ '\'' ∧ x ≠ '"') ∧
    (buildLabel constraint none none).head? ≠ some ' ' ∧ (buildLabel constraint none none).getLast? ≠ some ' ' := by
  refine ⟨?_, ?_, ?_⟩
  · intro x hx
    have h := oneBlank_mem x _ (strip_mem x _ hx)
    rw [remove_char, List.mem_filter] at h
    obtain ⟨h, hq⟩ := h
    have h := remove_mem _ _ _ h
    rw [remove_char, List.mem_filter] at h
    obtain ⟨h, hs⟩ := h
    have h := remove_mem _ _ _ h
    rw [remove_char, List.mem_filter] at h
    exact ⟨h.1, by simpa using h.2, by simpa using hs, by simpa using hq⟩
  · have hh : ∀ (u : Str), (strip u).head? ≠ some ' ' := by
      intro u hu
      unfold strip at hu
      have h1 : (u.dropWhile (fun c => decide (c = ' '))).head? ≠ some ' ' := by
        intro e
        have := List.head?_dropWhile_not (fun c : Char => decide (c = ' ')) u
        rw [e] at this
        simp at this
      obtain ⟨t, ht⟩ := List.dropWhile_suffix (fun c : Char => decide (c = ' ')) (l := (u.dropWhile (fun c => decide (c = ' '))).reverse)
      have e := congrArg List.reverse ht
      rw [List.reverse_append, List.reverse_reverse] at e
      rw [← e, List.head?_append, hu] at h1
      exact h1 rfl
    exact hh _
  · have hl : ∀ (u : Str), (strip u).getLast? ≠ some ' ' := by
      intro u hu
      unfold strip at hu
      rw [List.getLast?_reverse] at hu
      have := List.head?_dropWhile_not (fun c : Char => decide (c = ' ')) (u.dropWhile (fun c => decide (c = ' '))).reverse
      rw [hu] at this
      simp at this
    exact hl _

private theorem infix_sep (pat a b : Str) (c : Char) (hc : c ∉ pat) (h : pat <:+: a ++ c :: b) : pat <:+: a ∨ pat <:+: b := by
  obtain ⟨s, t, h⟩ := h
  rw [List.append_eq_append_iff] at h
  rcases h with ⟨a', ha, _⟩ | ⟨c', hs, hb⟩
  · exact Or.inl ⟨s, a', ha.symm⟩
  · cases c' with
    | nil =>
      rw [List.append_nil] at hs
      exact Or.inl ⟨s, [], by rw [hs, List.append_nil]⟩
    | cons d c'' =>
      rw [List.cons_append, List.cons.injEq] at hb
      obtain ⟨rfl, hb⟩ := hb
      rw [List.append_eq_append_iff] at hs
      rcases hs with ⟨a', _, hp⟩ | ⟨e, _, hp⟩
      · exact absurd (by rw [hp]; simp) hc
      · cases e with
        | nil =>
          rw [List.nil_append] at hp
          exact absurd (by rw [← hp]; simp) hc
        | cons f e =>
          rw [List.cons_append, List.cons.injEq] at hp
          exact Or.inr ⟨e, t, by rw [hb, hp.2]⟩

private theorem remove_id (pat s : Str) (h : ¬ pat <:+: s) : remove pat s = s := BaseM.removeAll_none pat s _ h

private theorem remove_front (pat s : Str) (hp : pat ≠ []) (h : ¬ pat <:+: s) : remove pat (pat ++ s) = s := by
  unfold remove
  cases pat with
  | nil => exact absurd rfl hp
  | cons p ps =>
    rw [List.cons_append, List.length_cons, BaseM.removeAll, if_pos]
    · rw [← List.cons_append, List.drop_left]
      exact BaseM.removeAll_none _ _ _ h
    · rw [← List.cons_append]; exact List.isPrefixOf_iff_prefix.mpr (List.prefix_append _ _)

private theorem filter_ne_id (c : Char) (x : Str) (h : c ∉ x) : x.filter (fun y => decide (y ≠ c)) = x := by
  rw [List.filter_eq_self]
  intro a ha
  simpa using fun e : a = c => h (e ▸ ha)

private theorem oneBlank_id : ∀ (x : Str), ' ' ∉ x → oneBlank x = x := by
  intro x
  fun_induction oneBlank x with
  | case1 l ih => intro h; exact absurd List.mem_cons_self h
  | case2 c l _ ih => intro h; rw [ih (fun m => h (List.mem_cons_of_mem _ m))]
  | case3 => intro _; rfl

private theorem strip_id (x : Str) (h : ' ' ∉ x) : strip (' ' :: x) = x := by
  have hd : ∀ y : Str, ' ' ∉ y → y.dropWhile (fun c => decide (c = ' ')) = y := by
    intro y hy
    cases y with
    | nil => rfl
    | cons c y =>
      rw [List.dropWhile_cons_of_neg]
      simpa using fun e : c = ' ' => hy (e ▸ List.mem_cons_self)
  unfold strip
  rw [List.dropWhile_cons_of_pos (by simp), hd x h, hd _ (by simpa using h), List.reverse_reverse]

/-- The label for the selection of a band is the band, in the old and the new name of the column. -/
theorem label_band (x : Str) (h : ∀ c ∈ x, c ≠ '=' ∧ c ≠ '\'' ∧ c ≠ '"' ∧ c ≠ ' ') (hf : ¬ "filter".toList <:+: x) (hb : ¬ "band".toList <:+: x) :
    buildLabel ("filter = '".toList ++ x ++ ['\'']) none none = x ∧ buildLabel ("band = '".toList ++ x ++ ['\'']) none none = x := by
  have h1 : '=' ∉ x := fun m => (h _ m).1 rfl
  have h2 : '\'' ∉ x := fun m => (h _ m).2.1 rfl
  have h3 : '"' ∉ x := fun m => (h _ m).2.2.1 rfl
  have h4 : ' ' ∉ x := fun m => (h _ m).2.2.2 rfl
  have hxb : ∀ pat : Str, pat ≠ [] → '\'' ∉ pat → ' ' ∉ pat → ¬ pat <:+: x → ¬ pat <:+: ' ' :: ' ' :: '\'' :: (x ++ ['\'']) := by
    intro pat hne hq hbl hx hin
    have hnil : ¬ pat <:+: ([] : Str) := by simpa using hne
    rcases infix_sep pat [] (' ' :: '\'' :: (x ++ ['\''])) ' ' hbl hin with e | e
    · exact hnil e
    · rcases infix_sep pat [] ('\'' :: (x ++ ['\''])) ' ' hbl e with e | e
      · exact hnil e
      · rcases infix_sep pat [] (x ++ ['\'']) '\'' hq e with e | e
        · exact hnil e
        · rcases infix_sep pat x [] '\'' hq e with e | e
          · exact hx e
          · exact hnil e
  have hxc : ∀ pat : Str, pat ≠ [] → ' ' ∉ pat → ¬ pat <:+: x → ¬ pat <:+: ' ' :: ' ' :: x := by
    intro pat hne hbl hx hin
    have hnil : ¬ pat <:+: ([] : Str) := by simpa using hne
    rcases infix_sep pat [] (' ' :: x) ' ' hbl hin with e | e
    · exact hnil e
    · rcases infix_sep pat [] x ' ' hbl e with e | e
      · exact hnil e
      · exact hx e
  have hlast : ∀ y : Str, y = ' ' :: ' ' :: x → strip (oneBlank (remove ['"'] y)) = x := by
    rintro y rfl
    rw [remove_char, List.filter_cons_of_pos (by decide), List.filter_cons_of_pos (by decide), filter_ne_id _ _ h3, oneBlank, oneBlank_id _ h4, strip_id _ h4]
  have hq : ∀ p : Str, '\'' ∉ p → remove ['\''] (p ++ '\'' :: (x ++ ['\''])) = p ++ x := by
    intro p hp
    rw [remove_char, List.filter_append, filter_ne_id _ _ hp, List.filter_cons_of_neg (by decide), List.filter_append, filter_ne_id _ _ h2]
    simp
  have heq : ∀ p : Str, '=' ∉ p → remove ['='] (p ++ " = '".toList ++ x ++ ['\'']) = p ++ (' ' :: ' ' :: '\'' :: (x ++ ['\''])) := by
    intro p hp
    rw [remove_char, List.filter_append, List.filter_append, List.filter_append, filter_ne_id _ _ hp, filter_ne_id _ _ h1]
    have e1 : (" = '".toList).filter (fun y => decide (y ≠ '=')) = [' ', ' ', '\''] := by decide
    have e2 : ['\''].filter (fun y => decide (y ≠ '=')) = ['\''] := by decide
    rw [e1, e2]
    simp
  constructor
  · have e0 : "filter = '".toList = "filter".toList ++ " = '".toList := by decide
    unfold buildLabel
    simp only [Option.or_none]
    rw [e0, heq _ (by decide), remove_front _ _ (by decide) (hxb _ (by decide) (by decide) (by decide) hf)]
    rw [show (' ' :: ' ' :: '\'' :: (x ++ ['\''])) = [' ', ' '] ++ '\'' :: (x ++ ['\'']) from rfl, hq _ (by decide)]
    rw [show [' ', ' '] ++ x = ' ' :: ' ' :: x from rfl, remove_id "band".toList _ (hxc _ (by decide) (by decide) hb)]
    exact hlast _ rfl
  · have e0 : "band = '".toList = "band".toList ++ " = '".toList := by decide
    unfold buildLabel
    simp only [Option.or_none]
    rw [e0, heq _ (by decide)]
    rw [remove_id "filter".toList]
    · rw [show "band".toList ++ (' ' :: ' ' :: '\'' :: (x ++ ['\''])) = ("band".toList ++ [' ', ' ']) ++ '\'' :: (x ++ ['\'']) by simp, hq _ (by decide),
        List.append_assoc, show [' ', ' '] ++ x = ' ' :: ' ' :: x from rfl, remove_front "band".toList _ (by decide) (hxc _ (by decide) (by decide) hb)]
      exact hlast _ rfl
    · intro hin
      rcases infix_sep "filter".toList "band".toList (' ' :: '\'' :: (x ++ ['\''])) ' ' (by decide) hin with e | e
      · exact absurd e (by decide)
      · exact hxb _ (by decide) (by decide) (by decide) hf (List.IsInfix.trans e (List.infix_cons (List.infix_refl _)))

/-- An equal sign anywhere makes no difference. -/
theorem label_equals (a b : Str) : buildLabel (a ++ '=' :: b) none none = buildLabel (a ++ b) none none := by
  have : remove ['='] (a ++ '=' :: b) = remove ['='] (a ++ b) := by
    rw [remove_char, remove_char, List.filter_append, List.filter_append, List.filter_cons_of_neg (by decide)]
  unfold buildLabel
  simp only [Option.or_none]
  rw [this]

/-- So bundles whose constraints select different visits have the same files. -/
theorem label_collides_false : ¬ ∀ (run metric slicer c c' : Str),
    BaseM.fileRoot run metric (buildLabel c none none) slicer = BaseM.fileRoot run metric (buildLabel c' none none) slicer → c = c' := by
  intro h
  have := h [] [] [] ("night <".toList ++ '=' :: " 5".toList) ("night <".toList ++ " 5".toList) (by rw [label_equals])
  exact absurd this (by decide)

/-- Only pairs of blanks are made one. -/
theorem label_blanks_false : ¬ ∀ c : Str, ¬ [' ', ' '] <:+: buildLabel c none none := by
  intro h
  exact h "a    b".toList (by decide)

example : buildLabel "filter = 'r' and night < 5".toList none none = "r and night < 5".toList := by decide

/-! ## C489: files -/

section
variable {P S V : Type*}

/-- **C489 (part).** What is written is read: names, constraint, values, summary, and the label with the comment. -/
theorem round_trip (str : P → Str) (inf zero : P → Bool) (z : P) (auto : Except PyErr P) (b : Bun P S V) (comment : Str) (suffix : Option Str)
    (c : P) (hc : b.display.reverse.lookup "caption" = some (some c)) :
    ∃ r, read str inf zero z auto (write b comment suffix).1 (write b comment suffix).2 = .ok r ∧ r.metric = b.metric ∧ r.run = b.run ∧ r.constraint = b.constraint ∧
      r.label = b.label ++ comment ∧ r.summary = b.summary ∧ r.values = b.values ∧
      (∀ k, r.plot.lookup k = (b.plot.reverse.lookup k).filter (fun v => !((k == "zp" && inf v) || (k == "norm_val" && zero v)))) ∧
      (∀ k v, b.display.reverse.lookup k = some v → r.display.lookup k = some v) := by
  obtain ⟨d, hd, hcap⟩ := (display_caption z auto [] (some b.display)).1 c (by simp [hc])
  have hd' : setDisplay z auto [] (some (write b comment suffix).2.display) = .ok d := hd
  unfold read
  rw [hd']
  refine ⟨_, rfl, rfl, rfl, rfl, rfl, rfl, rfl, ?_, ?_⟩
  · intro k
    show (setPlot inf zero [] (some b.plot)).lookup k = _
    rw [setPlot_spec]
    simp
  · intro k v hv
    by_cases hk : k = "caption"
    · subst hk
      rw [hc] at hv
      cases hv
      exact hcap
    · rw [display_entry z auto [] d (some b.display) hd k hk]
      simp [hv]

private theorem remove_end (root : Str) (h : '.' ∉ root) : remove ".npz".toList (root ++ ".npz".toList) = root := by
  unfold remove
  suffices g : ∀ n, root.length + 1 ≤ n → BaseM.removeAll ".npz".toList n (root ++ ".npz".toList) = root by
    apply g
    rw [List.length_append]
    exact Nat.add_le_add_left (by decide) _
  induction root with
  | nil =>
    intro n hn
    obtain ⟨n, rfl⟩ : ∃ m, n = m + 1 := ⟨n - 1, by simp at hn; omega⟩
    cases n <;> rfl
  | cons c l ih =>
    intro n hn
    obtain ⟨n, rfl⟩ : ∃ m, n = m + 1 := ⟨n - 1, by simp at hn; omega⟩
    rw [List.cons_append, BaseM.removeAll, if_neg, ih (fun m => h (List.mem_cons_of_mem _ m)) n (by simp at hn; omega)]
    intro hp
    rw [List.isPrefixOf_iff_prefix] at hp
    obtain ⟨t, ht⟩ := hp
    have : '.' = c := by
      have := congrArg List.head? ht
      simpa using this
    exact h (this ▸ List.mem_cons_self)

/-- The root of the name of the file is read back, which is so for every name that was made, as those have no dots. -/
theorem round_root (str : P → Str) (inf zero : P → Bool) (z : P) (auto : Except PyErr P) (b r : Bun P S V) (comment : Str) (suffix : Option Str)
    (h : '.' ∉ b.root) (hs : '.' ∉ suffix.getD []) (hr : read str inf zero z auto (write b comment suffix).1 (write b comment suffix).2 = .ok r) :
    r.root = b.root ++ (suffix.elim [] (fun x => '_' :: x)) := by
  unfold read at hr
  simp only at hr
  split at hr
  · cases hr
  · simp only [Except.ok.injEq] at hr
    rw [← hr]
    cases suffix with
    | none =>
      rw [Option.elim_none, List.append_nil]
      exact remove_end _ h
    | some x =>
      have hs : '.' ∉ x := hs
      have e := remove_end (b.root ++ ['_'] ++ x) (by simp [h, hs])
      have e2 : b.root ++ (some x).elim [] (fun x => '_' :: x) = b.root ++ ['_'] ++ x := by simp
      rw [e2]
      exact e

/-- A root that was made has no dots. -/
theorem made_root (run metric info slicer : Str) : '.' ∉ BaseM.fileRoot run metric info slicer := by
  intro h
  exact (Names.sanitize_safe _).1 _ h (by decide)

/-- The units are those of the plot dictionary, or none. -/
theorem round_units (str : P → Str) (inf zero : P → Bool) (z : P) (auto : Except PyErr P) (b r : Bun P S V) (comment : Str) (suffix : Option Str)
    (hr : read str inf zero z auto (write b comment suffix).1 (write b comment suffix).2 = .ok r) :
    r.units = ((b.plot.lookup "units").map str).getD [] := by
  unfold read at hr
  simp only at hr
  split at hr
  · cases hr
  · simp only [Except.ok.injEq] at hr
    rw [← hr]
    show (match b.plot.lookup "units" with | some u => str u | none => []) = _
    cases b.plot.lookup "units" <;> rfl

end

/-- So those of the metric are lost. -/
theorem round_units_false : ¬ ∀ (b r : Bun ℕ ℕ ℕ), read (fun _ => []) (fun _ => false) (fun _ => false) 0 (.ok 1) (write b [] none).1 (write b [] none).2 = .ok r → r.units = b.units := by
  intro h
  have := h ⟨['m'], "mag".toList, [], [], [], [], [("caption", some 1)], none, 0, ['r']⟩
    ⟨['m'], [], [], [], [], [], [("group", none), ("subgroup", none), ("order", some 0), ("caption", some 1)], none, 0, ['r']⟩ (by rfl)
  exact absurd this (by decide)

/-! ## C490: database -/

section
variable {K : Type*}

/-- **C490 (part).** Without a suffix, and if there was no row, the new row names the file that was written. -/
theorem db_file_partial (db : Db.DB K) (a : Db.MetricArgs) (root : Str) (h : ∀ r ∈ db.metrics, r.key ≠ a.key) :
    ∃ id, (writeDb db a root none).2.metrics = db.metrics ++ [⟨id, a.key, String.ofList (writeDb db a root none).1⟩] := by
  unfold writeDb
  simp only
  unfold Db.updateMetric
  have : db.metrics.find? (fun r => decide (r.key = Db.MetricArgs.key { a with datafile := some (String.ofList (outfile root none)) })) = none := by
    rw [List.find?_eq_none]
    intro r hr
    rw [decide_eq_true_iff]
    exact h r hr
  rw [this]
  exact ⟨_, rfl⟩

/-- If there was a row of the same metric, it stays, whatever it names. -/
theorem db_row_stays (db : Db.DB K) (a : Db.MetricArgs) (root : Str) (suffix : Option Str) (h : ∃ r ∈ db.metrics, r.key = a.key) :
    (writeDb db a root suffix).2.metrics = db.metrics := by
  unfold writeDb
  simp only
  unfold Db.updateMetric
  cases hf : db.metrics.find? (fun r => decide (r.key = Db.MetricArgs.key { a with datafile := some (String.ofList (outfile root none)) })) with
  | none =>
    rw [List.find?_eq_none] at hf
    obtain ⟨r, hr, hk⟩ := h
    exact absurd (decide_eq_true hk) (hf r hr)
  | some r => rfl

end

/-- With a suffix the row names another file. -/
theorem db_suffix_false : ¬ ∀ (a : Db.MetricArgs) (root suffix : Str), ∃ id, (writeDb (Db.DB.empty : Db.DB ℕ) a root (some suffix)).2.metrics =
    [⟨id, a.key, String.ofList (writeDb (Db.DB.empty : Db.DB ℕ) a root (some suffix)).1⟩] := by
  intro h
  obtain ⟨id, hid⟩ := h ⟨"m", "s", none, none, none, none⟩ ['r'] ['x']
  have := congrArg (List.map Db.MetricRow.datafile) hid
  rw [show List.map Db.MetricRow.datafile [(⟨id, Db.MetricArgs.key ⟨"m", "s", none, none, none, none⟩,
    String.ofList (writeDb (Db.DB.empty : Db.DB ℕ) ⟨"m", "s", none, none, none, none⟩ ['r'] (some ['x'])).1⟩ : Db.MetricRow)] = ["r_x.npz"] by rfl] at this
  exact absurd this (by decide)

/-- After `set_display_dict` with the database, which makes the row, it names none. -/
theorem db_display_first (a : Db.MetricArgs) (root : Str) (suffix : Option Str) :
    ((writeDb (Db.updateMetric (Db.DB.empty : Db.DB ℕ) { a with datafile := none }).1 a root suffix).2.metrics).map Db.MetricRow.datafile = ["NULL"] := by
  rw [db_row_stays]
  · rfl
  · exact ⟨_, List.mem_singleton.mpr rfl, rfl⟩

/-! ## C491: plots of a bundle -/

/-- **C491.** There is a figure for each type of the plotters of the bundle, and it is that of the last plotter of the type. -/
theorem plot_spec {Fig α : Type*} (draw : α → Fig) (typ : α → String) (funcs : List α) :
    ∃ d, plot draw typ none funcs = .ok d ∧ ∀ k, d.lookup k = (funcs.reverse.find? (fun p => typ p == k)).map draw := by
  refine ⟨_, rfl, fun k => ?_⟩
  have h : ∀ (l : List α) (d : List (String × Fig)), (l.foldl (fun d p => put d (typ p) (draw p)) d).lookup k =
      ((l.reverse.find? (fun p => typ p == k)).map draw).or (d.lookup k) := by
    intro l
    induction l with
    | nil => simp
    | cons p l ih =>
      intro d
      rw [List.foldl_cons, ih, lookup_put, List.reverse_cons, List.find?_append]
      cases l.reverse.find? (fun p => typ p == k) with
      | some q => simp
      | none =>
        by_cases hk : k = typ p
        · simp [hk]
        · have : (typ p == k) = false := by simpa using fun e => hk e.symm
          simp [this, hk]
  rw [h]
  simp

/-- A plotter that is given is an AttributeError. -/
theorem plot_given {Fig α : Type*} (draw : α → Fig) (typ : α → String) (p : α) (funcs : List α) : plot draw typ (some p) funcs = .error .attribute := rfl

/-- The documentation says that it is used. -/
theorem plot_false : ¬ ∀ (p : ℕ), plot (fun n => n) (fun _ => "t") (some p) [] = .ok [("t", p)] := by
  intro h
  exact absurd (h 0) (by simp [plot])

example : plot (fun n => n * 2) (fun n => if n < 2 then "a" else "b") none [0, 1, 2] = .ok [("a", 2), ("b", 4)] := by rfl

/-! ## C492: groups -/

section
variable {B C : Type*} [DecidableEq C]

omit [DecidableEq C] in
/-- **C492 (part).** The current bundles are those with the constraint; no constraint is the empty one. -/
theorem current_spec (constraint : B → String) (d : List (String × B)) (c : Option String) (p : String × B) :
    p ∈ current constraint d c ↔ p ∈ d ∧ constraint p.2 = c.getD "" := by
  simp [current, List.mem_filter]

/-- The columns are those that a current bundle needs. -/
theorem cols_spec (cols : B → List C) (cur : List (String × B)) (x : C) : x ∈ dbCols cols cur ↔ ∃ p ∈ cur, x ∈ cols p.2 := by
  simp [dbCols, List.mem_dedup]

omit [DecidableEq C] in
/-- The constraints together have each bundle once. -/
theorem partition (constraint : B → String) (d : List (String × B)) (cs : List String) (hn : cs.Nodup) (h : ∀ p ∈ d, constraint p.2 ∈ cs) :
    (cs.flatMap (fun c => current constraint d (some c))).Perm d := by
  induction cs generalizing d with
  | nil =>
    have : d = [] := List.eq_nil_iff_forall_not_mem.mpr (fun p hp => by simpa using h p hp)
    subst this; rfl
  | cons c cs ih =>
    rw [List.nodup_cons] at hn
    rw [List.flatMap_cons]
    have hrest : cs.flatMap (fun x => current constraint d (some x)) =
        cs.flatMap (fun x => current constraint (d.filter (fun p => !decide (constraint p.2 = c))) (some x)) := by
      rw [List.flatMap_def, List.flatMap_def]
      congr 1
      apply List.map_congr_left
      intro x hx
      unfold current
      rw [List.filter_filter]
      apply List.filter_congr
      intro p _
      have : x ≠ c := fun e => hn.1 (e ▸ hx)
      by_cases hp : constraint p.2 = x
      · simp [hp, this]
      · simp [hp]
    rw [hrest]
    refine List.Perm.trans (List.Perm.append_left _ (ih _ hn.2 ?_)) (List.filter_append_perm _ d)
    intro p hp
    rw [List.mem_filter] at hp
    have := h p hp.1
    rcases List.mem_cons.mp this with e | e
    · simp [e] at hp
    · exact e

private theorem mem_put (P : String × B → Prop) (m : List (String × B)) (k : String) (v : B) (hm : ∀ p ∈ m, P p) (hk : P (k, v)) : ∀ p ∈ put m k v, P p := by
  induction m with
  | nil => intro p hp; rw [put, List.mem_singleton] at hp; exact hp ▸ hk
  | cons q m ih =>
    obtain ⟨k', v'⟩ := q
    intro p hp
    unfold put at hp
    split at hp
    · rcases List.mem_cons.mp hp with e | hp
      · exact e ▸ hk
      · exact hm p (List.mem_cons_of_mem _ hp)
    · rcases List.mem_cons.mp hp with e | hp
      · exact e ▸ hm _ List.mem_cons_self
      · exact ih (fun p hp => hm p (List.mem_cons_of_mem _ hp)) p hp

private theorem mem_update (P : String × B → Prop) (e : List (String × B)) : ∀ (m : List (String × B)), (∀ p ∈ m, P p) → (∀ p ∈ e, P p) → ∀ p ∈ update m e, P p := by
  induction e with
  | nil => intro m hm _; exact hm
  | cons q e ih =>
    intro m hm he
    exact ih _ (mem_put P m q.1 q.2 hm (he q List.mem_cons_self)) (fun p hp => he p (List.mem_cons_of_mem _ hp))

private theorem filter_put (f : String → Bool) (m : List (String × B)) (k : String) (v : B) (hk : f k = true) :
    (put m k v).filter (fun p => !f p.1) = m.filter (fun p => !f p.1) := by
  induction m with
  | nil => simp [put, hk]
  | cons q m ih =>
    obtain ⟨k', v'⟩ := q
    unfold put
    split
    · rename_i h
      subst h
      simp [hk]
    · by_cases h : f k' = true
      · rw [List.filter_cons_of_neg (by simp [h]), List.filter_cons_of_neg (by simp [h]), ih]
      · rw [List.filter_cons_of_pos (by simp [h]), List.filter_cons_of_pos (by simp [h]), ih]

private theorem filter_update (f : String → Bool) (e : List (String × B)) : ∀ (m : List (String × B)), (∀ p ∈ e, f p.1 = true) →
    (update m e).filter (fun p => !f p.1) = m.filter (fun p => !f p.1) := by
  induction e with
  | nil => intro m _; rfl
  | cons q e ih =>
    intro m he
    rw [show update m (q :: e) = update (put m q.1 q.2) e from rfl, ih _ (fun p hp => he p (List.mem_cons_of_mem _ hp)), filter_put f m _ _ (he q List.mem_cons_self)]

/-- When all is run, each bundle is run once, and the new ones, made on the way, are not: their names (or roots) are not among the keys of the group, and they have the
constraint of the bundle that they are from. -/
theorem runAll_once (constraint : B → String) (reduce : B → List (String × String × B)) (cs : List String) (d : List (String × B)) (hn : cs.Nodup)
    (h : ∀ p ∈ d, constraint p.2 ∈ cs) (new : String → Bool) (hd : ∀ p ∈ d, new p.1 = false)
    (hr : ∀ b, ∀ r ∈ reduce b, new r.1 = true ∧ new r.2.1 = true ∧ constraint r.2.2 = constraint b) :
    (runAll constraint reduce cs d).1.flatten.Perm d := by
  have key : ∀ (cs : List String) (d : List (String × B)), cs.Nodup → (∀ p ∈ d, new p.1 = true → constraint p.2 ∉ cs) →
      (runAll constraint reduce cs d).1 = cs.map (fun c => current constraint (d.filter (fun p => !new p.1)) (some c)) := by
    intro cs
    induction cs with
    | nil => intro d _ _; rfl
    | cons c cs ih =>
      intro d hn hinv
      rw [List.nodup_cons] at hn
      have hcur : current constraint d (some c) = current constraint (d.filter (fun p => !new p.1)) (some c) := by
        unfold current
        rw [List.filter_filter]
        apply List.filter_congr
        intro p hp
        by_cases hc : constraint p.2 = c
        · have : new p.1 = false := by
            cases hnew : new p.1 with
            | false => rfl
            | true => exact absurd (hc ▸ List.mem_cons_self) (hinv p hp hnew)
          simp [hc, this]
        · simp [hc]
      have hred : ∀ p ∈ reducedDict (d.map Prod.fst) ((current constraint d (some c)).flatMap (fun p => reduce p.2)), new p.1 = true ∧ constraint p.2 = c := by
        have hall : ∀ r ∈ (current constraint d (some c)).flatMap (fun p => reduce p.2), new r.1 = true ∧ new r.2.1 = true ∧ constraint r.2.2 = c := by
          intro r hr'
          obtain ⟨q, hq, hrq⟩ := List.mem_flatMap.mp hr'
          obtain ⟨h1, h2, h3⟩ := hr q.2 r hrq
          exact ⟨h1, h2, h3.trans ((current_spec constraint d (some c) q).mp hq).2⟩
        have hfold : ∀ (l : List (String × String × B)) (m : List (String × B)), (∀ r ∈ l, new r.1 = true ∧ new r.2.1 = true ∧ constraint r.2.2 = c) →
            (∀ p ∈ m, new p.1 = true ∧ constraint p.2 = c) →
            ∀ p ∈ l.foldl (fun m r => put m (if r.1 ∈ d.map Prod.fst then r.2.1 else r.1) r.2.2) m, new p.1 = true ∧ constraint p.2 = c := by
          intro l
          induction l with
          | nil => intro m _ hm; exact hm
          | cons r l ih2 =>
            intro m hl hm
            obtain ⟨h1, h2, h3⟩ := hl r List.mem_cons_self
            refine ih2 _ (fun x hx => hl x (List.mem_cons_of_mem _ hx)) (mem_put _ m _ _ hm ⟨?_, h3⟩)
            split <;> assumption
        exact hfold _ [] hall (by simp)
      rw [List.map_cons, ← hcur]
      show current constraint d (some c) :: (runAll constraint reduce cs (reduceCurrent reduce d (current constraint d (some c))).1).1 = _
      rw [ih _ hn.2]
      · congr 2
        funext c'
        congr 1
        exact filter_update new _ d (fun p hp => (hred p hp).1)
      · refine mem_update _ _ _ ?_ ?_
        · intro p hp hnew hmem
          exact hinv p hp hnew (List.mem_cons_of_mem _ hmem)
        · intro p hp _ hmem
          exact hn.1 ((hred p hp).2 ▸ hmem)
  rw [key cs d hn (fun p hp hnew => absurd hnew (by rw [hd p hp]; decide))]
  have : d.filter (fun p => !new p.1) = d := by
    rw [List.filter_eq_self]
    intro p hp
    rw [hd p hp]; rfl
  rw [this, ← List.flatMap_def]
  exact partition constraint d cs hn h

end

example : (runAll (fun b : String × ℕ => b.1) (fun b => if b.2 = 0 then [("m_a", "f", (b.1, 9))] else []) ["", "x"] [("p", ("x", 0)), ("q", ("", 0)), ("r", ("x", 1))]).1 =
    [[("q", ("", 0))], [("p", ("x", 0)), ("r", ("x", 1))]] := by decide

/-! ## C493: reduced bundles -/

section
variable {B : Type*}

/-- **C493 (part).** If the names of the reduced bundles are new and different, each is in the group, as are all that were. -/
theorem reduced_partial (reduce : B → List (String × String × B)) (d cur : List (String × B))
    (hnew : ∀ r ∈ cur.flatMap (fun p => reduce p.2), r.1 ∉ d.map Prod.fst) (hdist : ((cur.flatMap (fun p => reduce p.2)).map Prod.fst).Nodup) :
    (∀ r ∈ cur.flatMap (fun p => reduce p.2), (reduceCurrent reduce d cur).1.lookup r.1 = some r.2.2 ∧ (reduceCurrent reduce d cur).2.lookup r.1 = some r.2.2) ∧
      ∀ k ∈ d.map Prod.fst, (reduceCurrent reduce d cur).1.lookup k = d.lookup k := by
  have hred : ∀ (l : List (String × String × B)) (m : List (String × B)), (∀ r ∈ l, r.1 ∉ d.map Prod.fst) →
      l.foldl (fun d' r => put d' (if r.1 ∈ d.map Prod.fst then r.2.1 else r.1) r.2.2) m = update m (l.map (fun r => (r.1, r.2.2))) := by
    intro l
    induction l with
    | nil => intro m _; rfl
    | cons r l ih =>
      intro m h
      rw [List.foldl_cons, ih _ (fun r hr => h r (List.mem_cons_of_mem _ hr)), if_neg (h r List.mem_cons_self)]
      rfl
  generalize hl : cur.flatMap (fun p => reduce p.2) = l at hnew hdist
  have hnd : (reducedDict (d.map Prod.fst) l) = update [] (l.map (fun r => (r.1, r.2.2))) := hred l [] hnew
  have look : ∀ (l : List (String × String × B)) (r : String × String × B), (l.map Prod.fst).Nodup → r ∈ l → (l.map (fun r => (r.1, r.2.2))).lookup r.1 = some r.2.2 := by
    intro l r
    induction l with
    | nil => intro _ h; exact absurd h (by simp)
    | cons q l ih =>
      intro hn hr
      rw [List.map_cons, List.nodup_cons] at hn
      rw [List.map_cons, List.lookup_cons]
      rcases List.mem_cons.mp hr with rfl | hr
      · simp
      · have : r.1 ≠ q.1 := fun e => hn.1 (e ▸ List.mem_map.mpr ⟨r, hr, rfl⟩)
        have : (r.1 == q.1) = false := by simpa using this
        simp only [this]
        exact ih hn.2 hr
  have lookr : ∀ r ∈ l, (update ([] : List (String × B)) (l.map (fun r => (r.1, r.2.2)))).lookup r.1 = some r.2.2 := by
    intro r hr
    rw [lookup_update, ← List.map_reverse, look l.reverse r (by rw [List.map_reverse]; exact List.nodup_reverse.mpr hdist) (List.mem_reverse.mpr hr)]
    rfl
  have nodupKeys : ∀ (e m : List (String × B)) (k : String), k ∈ (update m e).map Prod.fst → k ∈ m.map Prod.fst ∨ k ∈ e.map Prod.fst := by
    intro e m k hk
    by_contra hcon
    push Not at hcon
    obtain ⟨p, hp, rfl⟩ := List.mem_map.mp hk
    have h1 : (update m e).lookup p.1 = none := by
      rw [lookup_update]
      have hn : ∀ x : List (String × B), p.1 ∉ x.map Prod.fst → x.lookup p.1 = none := by
        intro x hx
        rw [List.lookup_eq_none_iff]
        intro q hq
        rw [bne_iff_ne]
        intro e'
        exact hx (List.mem_map.mpr ⟨q, hq, e'.symm⟩)
      rw [hn _ hcon.1, hn e.reverse (by rw [List.map_reverse, List.mem_reverse]; exact hcon.2)]
      rfl
    rw [List.lookup_eq_none_iff] at h1
    have := h1 p hp
    simp at this
  have keysNodup : ∀ (e m : List (String × B)), (m.map Prod.fst).Nodup → ((update m e).map Prod.fst).Nodup := by
    have hkeys : ∀ (k : String) (v : B) (m : List (String × B)), (put m k v).map Prod.fst = if k ∈ m.map Prod.fst then m.map Prod.fst else m.map Prod.fst ++ [k] := by
      intro k v m
      induction m with
      | nil => simp [put]
      | cons p m ih =>
        obtain ⟨k', v'⟩ := p
        unfold put
        by_cases hk : k' = k
        · simp [hk]
        · rw [if_neg hk]
          have hk' : ¬ k = k' := fun e => hk e.symm
          simp only [List.map_cons, ih, List.mem_cons]
          by_cases hm : k ∈ m.map Prod.fst
          · simp [hm]
          · simp [hm, hk']
    intro e
    induction e with
    | nil => intro m hm; exact hm
    | cons p e ih =>
      intro m hm
      refine ih _ ?_
      rw [hkeys]
      split
      · exact hm
      · rename_i hnot
        rw [List.nodup_append]
        refine ⟨hm, by simp, ?_⟩
        intro a ha b hb
        rw [List.mem_singleton] at hb
        rintro rfl
        exact hnot (hb ▸ ha)
  have hrev : ∀ (m : List (String × B)) (k : String), (m.map Prod.fst).Nodup → m.reverse.lookup k = m.lookup k := by
    intro m k hm
    induction m with
    | nil => rfl
    | cons p m ih =>
      obtain ⟨k', v⟩ := p
      rw [List.map_cons, List.nodup_cons] at hm
      rw [List.reverse_cons, List.lookup_append, ih hm.2, List.lookup_cons]
      by_cases hk : k = k'
      · subst hk
        have : m.lookup k = none := by
          rw [List.lookup_eq_none_iff]
          intro p hp'
          rw [bne_iff_ne]
          rintro rfl
          exact hm.1 (List.mem_map.mpr ⟨p, hp', rfl⟩)
        simp [this]
      · have : (k == k') = false := by simpa using hk
        simp only [List.lookup_cons, this, List.lookup_nil]
        cases m.lookup k <;> rfl
  unfold reduceCurrent
  simp only
  rw [hl, hnd]
  have hnd' := keysNodup (l.map (fun r => (r.1, r.2.2))) [] (by simp)
  constructor
  · intro r hr
    constructor
    · rw [lookup_update, hrev _ _ hnd', lookr r hr]; rfl
    · rw [lookup_update, hrev _ _ hnd', lookr r hr]; rfl
  · intro k hk
    rw [lookup_update, hrev _ _ hnd']
    have : (update ([] : List (String × B)) (l.map (fun r => (r.1, r.2.2)))).lookup k = none := by
      rw [List.lookup_eq_none_iff]
      intro p hp
      rw [bne_iff_ne]
      rintro rfl
      rcases nodupKeys _ _ _ (List.mem_map.mpr ⟨p, hp, rfl⟩) with e | e
      · simp at e
      · rw [List.map_map] at e
        obtain ⟨r, hr, he⟩ := List.mem_map.mp e
        exact hnew r hr (by simpa [← he] using hk)
    rw [this]
    rfl

/-- Reduced bundles of bundles whose metrics have one name have one name too: only the last is kept, as the others are not in the group yet when its name is looked for. -/
theorem reduced_false : ¬ ∀ (reduce : ℕ → List (String × String × ℕ)) (d : List (String × ℕ)) (r : String × String × ℕ),
    r ∈ d.flatMap (fun p => reduce p.2) → r.2.2 ∈ (reduceCurrent reduce d d).1.map Prod.snd := by
  intro h
  have := h (fun n => [("m_a", if n = 0 then "f0" else "f1", n + 10)]) [("b0", 0), ("b1", 1)] ("m_a", "f0", 10) (by decide)
  exact absurd this (by decide)

/-- If a bundle of the group has the name already, the root of the file is the name. -/
theorem reduced_named (reduce : B → List (String × String × B)) (d : List (String × B)) (k : String) (b : B) (name root : String) (b' : B)
    (hr : reduce b = [(name, root, b')]) (hn : name ∈ d.map Prod.fst) : (reduceCurrent reduce d [(k, b)]).1.lookup root = some b' := by
  unfold reduceCurrent reducedDict
  simp [hr, lookup_update, put]
  have h : ∃ x, (name, x) ∈ d := by
    obtain ⟨p, hp, rfl⟩ := List.mem_map.mp hn
    exact ⟨p.2, hp⟩
  simp [h]

end

example : (reduceCurrent (fun n => if n = 0 then [("m_a", "f0", 10)] else []) [("b0", 0), ("b1", 1)] [("b0", 0)]).1 = [("b0", 0), ("b1", 1), ("m_a", 10)] := by decide

/-! ## C494: plots of a group -/

/-- **C494.** A ValueError of a bundle is a warning, and the others are plotted; any other error ends it. -/
theorem plots_spec {B : Type*} (result : B → Except PyErr Unit) (bs : List B) :
    (∀ b ∈ (plotCurrent result bs).1, result b = .ok ()) ∧ (∀ b ∈ (plotCurrent result bs).2.1, result b = .error .value) ∧
      ((∀ b ∈ bs, result b = .ok () ∨ result b = .error .value) →
        (plotCurrent result bs).2.2 = none ∧ (plotCurrent result bs).1 = bs.filter (fun b => (result b).isOk) ∧ (plotCurrent result bs).2.1 = bs.filter (fun b => !(result b).isOk)) := by
  induction bs with
  | nil => simp [plotCurrent]
  | cons b l ih =>
    obtain ⟨i1, i2, i3⟩ := ih
    unfold plotCurrent
    cases hb : result b with
    | ok u =>
      simp only
      refine ⟨?_, i2, ?_⟩
      · intro x hx
        rcases List.mem_cons.mp hx with rfl | hx
        · exact hb
        · exact i1 x hx
      · intro h
        obtain ⟨j1, j2, j3⟩ := i3 (fun x hx => h x (List.mem_cons_of_mem _ hx))
        refine ⟨j1, ?_, ?_⟩
        · rw [List.filter_cons_of_pos (by rw [hb]; rfl), j2]
        · rw [List.filter_cons_of_neg (by rw [hb]; simp [Except.isOk, Except.toBool]), j3]
    | error e =>
      cases e with
      | value =>
        simp only
        refine ⟨i1, ?_, ?_⟩
        · intro x hx
          rcases List.mem_cons.mp hx with rfl | hx
          · exact hb
          · exact i2 x hx
        · intro h
          obtain ⟨j1, j2, j3⟩ := i3 (fun x hx => h x (List.mem_cons_of_mem _ hx))
          refine ⟨j1, ?_, ?_⟩
          · rw [List.filter_cons_of_neg (by rw [hb]; simp [Except.isOk, Except.toBool]), j2]
          · rw [List.filter_cons_of_pos (by rw [hb]; rfl), j3]
      | _ =>
        simp only
        refine ⟨by simp, by simp, ?_⟩
        intro h
        rcases h b List.mem_cons_self with e | e <;> rw [hb] at e <;> cases e

/-- The bundles before another error are plotted, those after it are not. -/
theorem plots_stop {B : Type*} (result : B → Except PyErr Unit) (l l' : List B) (b : B) (e : PyErr) (he : e ≠ .value) (hb : result b = .error e)
    (hl : ∀ x ∈ l, result x = .ok () ∨ result x = .error .value) :
    plotCurrent result (l ++ b :: l') = (l.filter (fun b => (result b).isOk), l.filter (fun b => !(result b).isOk), some e) := by
  induction l with
  | nil =>
    rw [List.nil_append, plotCurrent]
    rw [hb]
    cases e <;> first | exact absurd rfl he | rfl
  | cons x l ih =>
    rw [List.cons_append, plotCurrent, ih (fun y hy => hl y (List.mem_cons_of_mem _ hy))]
    rcases hl x List.mem_cons_self with h | h
    · rw [List.filter_cons_of_pos (by rw [h]; rfl), List.filter_cons_of_neg (by rw [h]; simp [Except.isOk, Except.toBool]), h]
    · rw [List.filter_cons_of_neg (by rw [h]; simp [Except.isOk, Except.toBool]), List.filter_cons_of_pos (by rw [h]; rfl), h]

example : plotCurrent (fun n => if n = 1 then .error .value else if n = 3 then .error .type else .ok ()) [0, 1, 2, 3, 4] = ([0, 2], [1], some .type) := by decide

end Verif.BunSet
