import Verif.Model.Orbits
import Mathlib.Tactic.Linarith
import Mathlib.Tactic.NormNum
import Mathlib.Tactic.SplitIfs

/-!
# Properties of `Orbits`
-/

set_option linter.unusedSectionVars false

namespace Verif.Orbits

open Frame

variable {K : Type}

/-! ## Frames -/

/-- A frame as `pandas` has it: all columns have one value for each row, and no two columns have the
same name. -/
structure WF (f : Frame K) : Prop where
  fmt : ∀ l, f.fmt = some l → l.length = f.n
  ids : ∀ l, f.ids = some l → l.length = f.n
  sed : ∀ l, f.sed = some l → l.length = f.n
  num : ∀ p ∈ f.num, p.2.length = f.n
  names : (f.num.map Prod.fst).Nodup
  plain : ∀ p ∈ f.num, p.1 ≠ "FORMAT" ∧ p.1 ≠ "obj_id" ∧ p.1 ≠ "sed_filename"

theorem lookup_filter (l : List (String × List K)) (c d : String) (h : d ≠ c) :
    (l.filter fun p => p.1 ≠ c).lookup d = l.lookup d := by
  induction l with
  | nil => rfl
  | cons p l ih =>
    rw [List.filter_cons]
    by_cases hp : p.1 = c
    · have hd : (d == p.1) = false := by simp [hp, h]
      simp only [hp, ne_eq, not_true_eq_false, decide_false, Bool.false_eq_true, if_false]
      rw [ih, List.lookup_cons, hd]
    · simp only [ne_eq, hp, not_false_eq_true, decide_true, if_true]
      rw [List.lookup_cons, List.lookup_cons, ih]

theorem lookup_append (l m : List (String × List K)) (d : String) :
    (l ++ m).lookup d = (l.lookup d).or (m.lookup d) := by
  induction l with
  | nil => simp
  | cons p l ih =>
    rw [List.cons_append, List.lookup_cons, List.lookup_cons, ih]
    cases d == p.1 <;> simp

theorem lookup_map {L : Type} (l : List (String × L)) (g : L → L) (d : String) :
    (l.map fun p => (p.1, g p.2)).lookup d = (l.lookup d).map g := by
  induction l with
  | nil => rfl
  | cons p l ih =>
    rw [List.map_cons, List.lookup_cons, List.lookup_cons, ih]
    cases d == p.1 <;> simp

theorem lookup_mem (l : List (String × List K)) (d : String) (v : List K)
    (h : l.lookup d = some v) : (d, v) ∈ l := by
  induction l with
  | nil => simp at h
  | cons p l ih =>
    rw [List.lookup_cons] at h
    by_cases hd : d = p.1
    · simp [hd] at h
      rw [hd, ← h]
      simp
    · have : (d == p.1) = false := by simp [hd]
      rw [this] at h
      exact List.mem_cons_of_mem _ (ih h)

/-- Names that are columns of numbers. -/
def Plain (c : String) : Prop := c ≠ "FORMAT" ∧ c ≠ "obj_id" ∧ c ≠ "sed_filename"

instance (c : String) : Decidable (Plain c) := by unfold Plain; infer_instance

theorem has_plain (f : Frame K) (c : String) (h : Plain c) : f.has c = (f.col c).isSome := by
  simp [Frame.has, h.1, h.2.1, h.2.2]

theorem col_del (f : Frame K) (c d : String) (h : d ≠ c) : (f.del c).col d = f.col d :=
  lookup_filter _ _ _ h

theorem has_del (f : Frame K) (c d : String) (h : d ≠ c) : (f.del c).has d = f.has d := by
  unfold Frame.has
  rw [col_del _ _ _ h]
  rfl

theorem col_fill (f : Frame K) (c d : String) (x : K) (hc : Plain c) :
    (f.fill c x).col d = if d = c then some ((f.col c).getD (List.replicate f.n x)) else f.col d := by
  unfold Frame.fill
  rw [has_plain _ _ hc]
  by_cases hs : (f.col c).isSome
  · rw [if_pos hs]
    obtain ⟨v, hv⟩ := Option.isSome_iff_exists.1 hs
    split_ifs with h
    · rw [h, hv]; rfl
    · rfl
  · rw [if_neg hs]
    have hn : f.col c = none := by simpa using hs
    show (f.num ++ [(c, _)]).lookup d = _
    rw [lookup_append, List.lookup_cons, List.lookup_nil]
    split_ifs with h
    · subst h
      have : f.num.lookup d = none := hn
      simp [this, hn]
    · have : (d == c) = false := by simp [h]
      rw [this]
      show (f.num.lookup d).or none = _
      rw [Option.or_none]
      rfl

theorem fill_rest (f : Frame K) (c : String) (x : K) :
    (f.fill c x).n = f.n ∧ (f.fill c x).ids = f.ids ∧ (f.fill c x).sed = f.sed ∧
      (f.fill c x).fmt = f.fmt := by
  unfold Frame.fill
  split_ifs <;> simp

/-! ## C175: what is stored -/

/-- The format that a frame states or shows. -/
def HasFormat (f : Frame K) (s : String) : Prop :=
  match f.fmt with
  | some l => ∃ v, (∀ x ∈ l, x = v) ∧ l ≠ [] ∧ s = (if v = "CART" then "CAR" else v)
  | none => (s = "COM" ∧ f.has "q" = true) ∨ (s = "KEP" ∧ f.has "q" = false ∧ f.has "a" = true) ∨
      (s = "CAR" ∧ f.has "q" = false ∧ f.has "a" = false ∧ f.has "x" = true)

/-- The orbital elements of each format, with the epoch. -/
def Elements (s : String) : List String :=
  if s = "COM" then ["q", "e", "inc", "Omega", "argPeri", "tPeri", "epoch"]
  else if s = "KEP" then ["a", "e", "inc", "Omega", "argPeri", "meanAnomaly", "epoch"]
  else ["x", "y", "z", "xdot", "ydot", "zdot", "epoch"]

theorem has_ext (f g : Frame K) (c : String) (h1 : f.fmt.isSome = g.fmt.isSome)
    (h2 : f.ids.isSome = g.ids.isSome) (h3 : f.sed.isSome = g.sed.isSome)
    (h4 : (f.col c).isSome = (g.col c).isSome) : f.has c = g.has c := by
  simp [Frame.has, h1, h2, h3, h4]

theorem has_num (f g : Frame K) (c : String) (h : f.num = g.num) (hc : Plain c) :
    f.has c = g.has c := by
  rw [has_plain _ _ hc, has_plain _ _ hc, Frame.col, Frame.col, h]

/-- Formats that are known. -/
def Known (s : String) : Prop := s = "COM" ∨ s = "KEP" ∨ s = "CAR"

theorem elements_plain (s c : String) (h : c ∈ Elements s) : Plain c ∧ c ≠ "index" := by
  unfold Elements at h
  unfold Plain
  split_ifs at h <;> simp only [List.mem_cons, List.not_mem_nil, or_false] at h <;>
    rcases h with h | h | h | h | h | h | h <;> subst h <;> decide

theorem epoch_mem (s : String) : "epoch" ∈ Elements s := by
  unfold Elements; split_ifs <;> decide

theorem lacks_congr (s : String) (f g : Frame K) (h : f.num = g.num) : lacks s f = lacks s g := by
  unfold lacks
  rw [has_num f g "q" h (by decide), has_num f g "a" h (by decide), has_num f g "x" h (by decide)]

theorem readFormat_iff (f : Frame K) (hw : WF f) (hn : 0 < f.n) (s : String) :
    ((readFormat f).err = none ∧ (readFormat f).fmt = some s) ↔
      (HasFormat f s ∧ lacks s f = false) := by
  unfold readFormat HasFormat
  rcases hf : f.fmt with _ | l
  · simp only
    unfold guess lacks
    by_cases hq : f.has "q" <;> by_cases ha : f.has "a" <;> by_cases hx : f.has "x" <;>
      simp [hq, ha, hx] <;> constructor <;> intro h <;> (try subst h) <;> simp_all <;> tauto
  · have hl := hw.fmt l hf
    rcases l with _ | ⟨v, rest⟩
    · simp at hl; omega
    · simp only
      by_cases ha : rest.all (· = v)
      · rw [if_pos ha]
        have hall : ∀ x ∈ v :: rest, x = v := by
          intro x hx
          rcases List.mem_cons.1 hx with h | h
          · exact h
          · simpa using List.all_eq_true.1 ha x h
        rw [lacks_congr _ { f with fmt := none } f rfl]
        generalize hs' : (if v = "CART" then "CAR" else v) = s'
        constructor
        · intro h
          by_cases h1 : lacks s' f
          · simp [h1] at h
          · rw [if_neg h1] at h
            have hss : s' = s := by simpa using h
            subst hss
            exact ⟨⟨v, hall, by simp, hs'.symm⟩, by simpa using h1⟩
        · rintro ⟨⟨w, hw', _, hs⟩, h1⟩
          have hvw : v = w := hw' v (by simp)
          subst hvw
          have : s' = s := by rw [← hs', hs]
          subst this
          simp [h1]
      · rw [if_neg ha]
        simp only [reduceCtorEq, false_and, false_iff, not_and]
        rintro ⟨w, hw', _, _⟩
        exfalso
        apply ha
        rw [List.all_eq_true]
        intro x hx
        have h1 := hw' x (List.mem_cons_of_mem _ hx)
        have h2 := hw' v (by simp)
        simp [h1, h2]

theorem readFormat_frame (f : Frame K) (h : (readFormat f).err = none) (hf : f.fmt ≠ some []) :
    (readFormat f).frame = { f with fmt := none } ∧ ∃ s, (readFormat f).fmt = some s := by
  unfold readFormat at h ⊢
  rcases hl : f.fmt with _ | l
  · rw [hl] at h
    simp only at h ⊢
    rcases hg : guess f with _ | s
    · rw [hg] at h; simp at h
    · simp only [Option.some.injEq, exists_eq', and_true]
      cases f; simp_all
  · rcases l with _ | ⟨v, rest⟩
    · exact absurd hl hf
    · rw [hl] at h
      simp only at h ⊢
      by_cases ha : rest.all (· = v)
      · rw [if_pos ha] at h ⊢
        split_ifs at h with h1 <;> simp_all
      · rw [if_neg ha] at h
        simp at h

section Set

variable [Field K] [LinearOrder K]

/-- The frame with ids, `H` and `g`. -/
def base (f : Frame K) : Frame K := ((fillIds f).fill "H" 20).fill "g" (15 / 100)

theorem base_col (f : Frame K) (c : String) : (base f).col c =
    if c = "g" then some ((f.col "g").getD (List.replicate f.n (15 / 100)))
    else if c = "H" then some ((f.col "H").getD (List.replicate f.n 20)) else f.col c := by
  unfold base
  rw [col_fill _ _ _ _ (by decide), col_fill _ _ _ _ (by decide), col_fill _ _ _ _ (by decide)]
  have h1 : (fillIds f).col "g" = f.col "g" := rfl
  have h2 : (fillIds f).col "H" = f.col "H" := rfl
  have h3 : (fillIds f).col c = f.col c := rfl
  rw [if_neg (by decide : ¬ ("g" = "H")), h1, h2, h3, (fill_rest _ _ _).1]
  rfl

theorem base_rest (f : Frame K) : (base f).n = f.n ∧
    (base f).ids = some (f.ids.getD ((List.range f.n).map Int.ofNat)) ∧
    (base f).sed = f.sed ∧ (base f).fmt = f.fmt := by
  unfold base
  refine ⟨?_, ?_, ?_, ?_⟩
  · rw [(fill_rest _ _ _).1, (fill_rest _ _ _).1]; rfl
  · rw [(fill_rest _ _ _).2.1, (fill_rest _ _ _).2.1]; rfl
  · rw [(fill_rest _ _ _).2.2.1, (fill_rest _ _ _).2.2.1]; rfl
  · rw [(fill_rest _ _ _).2.2.2, (fill_rest _ _ _).2.2.2]; rfl

theorem base_has (f : Frame K) (c : String) (hc : Plain c) (hH : c ≠ "H") (hg : c ≠ "g") :
    (base f).has c = f.has c := by
  rw [has_plain _ _ hc, has_plain _ _ hc, base_col, if_neg hg, if_neg hH]

/-- The columns from which a semi-major axis can be found. -/
def Sedable (f : Frame K) : Prop :=
  f.has "a" = true ∨ (f.has "q" = true ∧ f.has "e" = true) ∨
    (f.has "q" = false ∧ f.has "x" = true ∧ f.has "y" = true ∧ f.has "z" = true)

theorem col_has (f : Frame K) (c : String) (hc : Plain c) : (∃ v, f.col c = some v) ↔ f.has c = true := by
  rw [has_plain _ _ hc, Option.isSome_iff_exists]

theorem assign_ok_iff (S : ℕ → ℕ → K) (N : K → K → K → K) (o : Obj K) (f : Frame K) (r : Option ℕ) :
    (∃ x, assignSed S N o f r = .ok x) ↔ Sedable f := by
  have he : f.has "e" = (f.col "e").isSome := has_plain _ _ (by decide)
  have hy : f.has "y" = (f.col "y").isSome := has_plain _ _ (by decide)
  have hz : f.has "z" = (f.col "z").isSome := has_plain _ _ (by decide)
  unfold assignSed Sedable
  simp only
  rw [he, hy, hz]
  by_cases ha : f.has "a"
  · simp [ha]
  · by_cases hq : f.has "q"
    · rcases f.col "e" with _ | e <;> simp [ha, hq]
    · by_cases hx : f.has "x"
      · rcases f.col "y" with _ | y <;> rcases f.col "z" with _ | z <;> simp [ha, hq, hx]
      · simp [ha, hq, hx]

theorem dataCols_known (s : String) (cols : List String) :
    dataCols s = some cols ↔ Known s ∧ cols = "obj_id" :: (Elements s ++ ["H", "g", "sed_filename"]) := by
  unfold dataCols Known Elements
  by_cases h1 : s = "COM"
  · subst h1; simp [eq_comm]
  · by_cases h2 : s = "KEP"
    · subst h2; simp [eq_comm]
    · by_cases h3 : s = "CAR"
      · subst h3; simp [eq_comm]
      · simp [h1, h2, h3]

theorem elements_ne (s c : String) (h : c ∈ Elements s) : c ≠ "H" ∧ c ≠ "g" := by
  unfold Elements at h
  split_ifs at h <;> simp only [List.mem_cons, List.not_mem_nil, or_false] at h <;>
    rcases h with h | h | h | h | h | h | h <;> subst h <;> decide

/-- All required columns are there once the optional ones have been added. -/
theorem all_has (f g : Frame K) (s : String) (hn : g.num = (base f).num) (hi : g.ids = (base f).ids)
    (hs : g.sed.isSome = true) :
    ("obj_id" :: (Elements s ++ ["H", "g", "sed_filename"])).all g.has = true ↔
      ∀ c ∈ Elements s, f.has c = true := by
  have hbase : ∀ c, g.col c = (base f).col c := fun c => by unfold Frame.col; rw [hn]
  have h1 : g.has "obj_id" = true := by
    show g.ids.isSome = true
    rw [hi, (base_rest f).2.1]; rfl
  have h2 : g.has "H" = true := by rw [has_plain _ _ (by decide), hbase, base_col]; rfl
  have h3 : g.has "g" = true := by rw [has_plain _ _ (by decide), hbase, base_col]; rfl
  have h4 : g.has "sed_filename" = true := hs
  rw [List.all_cons, List.all_append, h1]
  simp only [Bool.true_and, List.all_cons, List.all_nil, h2, h3, h4, Bool.and_true]
  rw [List.all_eq_true]
  refine forall₂_congr fun c hc => ?_
  have hp := elements_plain s c hc
  have hne := elements_ne s c hc
  rw [has_plain _ _ hp.1, hbase, ← has_plain _ _ hp.1, base_has f c hp.1 hne.1 hne.2]

/-- The names of the spectra when none are given. -/
noncomputable def names (S : ℕ → ℕ → K) (N : K → K → K → K) (o : Obj K) (f : Frame K) : List String :=
  match assignSed S N o f none with
  | .ok x => x.1
  | .error _ => []

theorem sedable_base (f : Frame K) : Sedable (base f) ↔ Sedable f := by
  unfold Sedable
  rw [base_has f "a" (by decide) (by decide) (by decide), base_has f "q" (by decide) (by decide) (by decide),
    base_has f "e" (by decide) (by decide) (by decide), base_has f "x" (by decide) (by decide) (by decide),
    base_has f "y" (by decide) (by decide) (by decide), base_has f "z" (by decide) (by decide) (by decide)]

theorem complete_spec (S : ℕ → ℕ → K) (N : K → K → K → K) (o : Obj K) (f : Frame K) (s : String)
    (ho : o.fmt = some s) :
    ((complete S N o f).2 = none ↔ Known s ∧ (∀ c ∈ Elements s, f.has c = true) ∧
      (f.sed.isSome = true ∨ Sedable f)) ∧
    (complete S N o f).1.fmt = o.fmt ∧
    ((complete S N o f).2 ≠ none → (complete S N o f).1.orbits = o.orbits) ∧
    ((complete S N o f).2 = none → (complete S N o f).1.orbits =
      some { base f with sed := some (f.sed.getD (names S N o (base f))) }) := by
  have hb : ((fillIds f).fill "H" 20).fill "g" (15 / 100) = base f := rfl
  unfold complete
  simp only [hb, ho, Option.bind_some, (base_rest f).2.2.1]
  rcases hs : f.sed with _ | l
  · simp only [Option.isSome_none, Bool.false_eq_true, false_or]
    unfold names
    rcases ha : assignSed S N o (base f) none with e | ⟨x, g⟩
    · have hns : ¬ Sedable f := by
        rw [← sedable_base, ← assign_ok_iff S N o (base f) none, ha]
        rintro ⟨y, hy⟩
        simp at hy
      simp [hns, ho]
    · have hss : Sedable f := by
        rw [← sedable_base, ← assign_ok_iff S N o (base f) none]
        exact ⟨_, ha⟩
      simp only [hss, and_true]
      rcases hd : dataCols s with _ | cols
      · have : ¬ Known s := fun hk => by
          have := (dataCols_known s _).2 ⟨hk, rfl⟩
          rw [hd] at this
          simp at this
        simp [this, ho]
      · obtain ⟨hk, hc⟩ := (dataCols_known s cols).1 hd
        have hall := all_has f { base f with sed := some x } s rfl rfl rfl
        rw [← hc] at hall
        dsimp only at hall
        by_cases h : cols.all (Frame.mk (base f).n (base f).fmt (base f).ids (some x) (base f).num).has = true
        · simp only [if_pos h]
          exact ⟨by simpa using ⟨hk, hall.1 h⟩, trivial, by simp, by simp⟩
        · simp only [if_neg h]
          have h' : ¬ ∀ c ∈ Elements s, f.has c = true := fun h' => h (hall.2 h')
          refine ⟨?_, trivial, by simp, by simp⟩
          simp only [reduceCtorEq, false_iff, not_and]
          exact fun _ => h'
  · simp only [Option.isSome_some, true_or, and_true]
    rcases hd : dataCols s with _ | cols
    · have : ¬ Known s := fun hk => by
        have := (dataCols_known s _).2 ⟨hk, rfl⟩
        rw [hd] at this
        simp at this
      simp [this, ho]
    · obtain ⟨hk, hc⟩ := (dataCols_known s cols).1 hd
      have hall := all_has f (base f) s rfl rfl (by rw [(base_rest f).2.2.1, hs]; rfl)
      rw [← hc] at hall
      by_cases h : cols.all (base f).has = true
      · simp only [if_pos h]
        have hb : base f = { base f with sed := some l } := by
          have := (base_rest f).2.2.1
          rw [hs] at this
          cases hbf : base f
          rw [hbf] at this
          simp_all
        refine ⟨by simpa using ⟨hk, hall.1 h⟩, trivial, by simp, fun _ => ?_⟩
        simp only [Option.getD_some]
        rw [← hb]
      · simp only [if_neg h]
        have h' : ¬ ∀ c ∈ Elements s, f.has c = true := fun h' => h (hall.2 h')
        refine ⟨?_, trivial, by simp, by simp⟩
        simp only [reduceCtorEq, false_iff, not_and]
        exact fun _ => h'

theorem WF.del {f : Frame K} (h : WF f) (c : String) : WF (f.del c) where
  fmt := h.fmt
  ids := h.ids
  sed := h.sed
  num := fun p hp => h.num p (List.mem_of_mem_filter hp)
  names := (h.names).sublist (List.Sublist.map _ List.filter_sublist)
  plain := fun p hp => h.plain p (List.mem_of_mem_filter hp)

theorem hasFormat_del (f : Frame K) (s : String) : HasFormat (f.del "index") s ↔ HasFormat f s := by
  unfold HasFormat
  rw [has_del f _ "q" (by decide), has_del f _ "a" (by decide), has_del f _ "x" (by decide)]
  rfl

/-- Whether the first row has an epoch between 1800 and 2200. -/
def FirstEpoch (f : Frame K) : Prop :=
  ∀ ep t, f.col "epoch" = some ep → ep.head? = some t → -21503 ≤ t ∧ t ≤ 124594

theorem oddEpoch_iff (ep : List K) :
    oddEpoch ep = false ↔ ∀ t, ep.head? = some t → -21503 ≤ t ∧ t ≤ 124594 := by
  unfold oddEpoch
  rcases ep with _ | ⟨t, l⟩
  · simp
  · simp [not_lt]

/-- A frame without `index` and `FORMAT`. -/
def bare (f : Frame K) : Frame K where
  n := f.n
  ids := f.ids
  sed := f.sed
  num := f.num.filter fun p => p.1 ≠ "index"

theorem bare_col (f : Frame K) (c : String) (h : c ≠ "index") : (bare f).col c = f.col c :=
  col_del f _ c h

theorem bare_has (f : Frame K) (c : String) (hc : Plain c) (h : c ≠ "index") :
    (bare f).has c = f.has c := by
  rw [has_plain _ _ hc, has_plain _ _ hc, bare_col _ _ h]

/-- The phases of `set_orbits`. -/
theorem set_cases (S : ℕ → ℕ → K) (N : K → K → K → K) (o : Obj K) (f : Frame K) (hw : WF f) :
    let r := setOrbits S N o f
    (f.n = 0 ∧ r.err ≠ none ∧ r.obj = o ∧ r.frame = f.del "index") ∨
    (0 < f.n ∧ r.err ≠ none ∧ r.obj.orbits = o.orbits ∧
      ¬ ((∃ s, HasFormat f s ∧ lacks s f = false) ∧ f.has "epoch" = true ∧ FirstEpoch f)) ∨
    (0 < f.n ∧ f.has "epoch" = true ∧ FirstEpoch f ∧ ∃ s, HasFormat f s ∧ lacks s f = false ∧
      r.frame = (bare f) ∧
      r.err = (complete S N { o with fmt := some s } (bare f)).2 ∧
      r.obj = (complete S N { o with fmt := some s } (bare f)).1) := by
  intro r
  have hr : r = setOrbits S N o f := rfl
  unfold setOrbits at hr
  simp only at hr
  have hdn : (f.del "index").n = f.n := rfl
  by_cases hn : f.n = 0
  · rw [if_pos (by rw [hdn]; exact hn)] at hr
    left
    simp [hr, hn]
  rw [if_neg (by rw [hdn]; exact hn)] at hr
  have hn' : 0 < f.n := Nat.pos_of_ne_zero hn
  right
  have hiff := fun s => readFormat_iff (f.del "index") (hw.del _) hn' s
  have hlk : ∀ s, lacks s (f.del "index") = lacks s f := by
    intro s
    unfold lacks
    rw [has_del f _ "q" (by decide), has_del f _ "a" (by decide), has_del f _ "x" (by decide)]
  have hep : (f.del "index").col "epoch" = f.col "epoch" := col_del _ _ _ (by decide)
  have hhep : f.has "epoch" = (f.col "epoch").isSome := has_plain _ _ (by decide)
  rcases he : (readFormat (f.del "index")).err with _ | e
  · obtain ⟨hfr, s, hs⟩ := readFormat_frame (f.del "index") he (by
      intro h
      have := hw.fmt [] h
      simp at this
      omega)
    have hsf := (hiff s).1 ⟨he, hs⟩
    rw [hasFormat_del, hlk] at hsf
    rw [he, hfr, hs] at hr
    simp only at hr
    have hcol : (Frame.mk (f.del "index").n none (f.del "index").ids (f.del "index").sed
      (f.del "index").num).col "epoch" = f.col "epoch" := hep
    rw [hcol] at hr
    rcases hc : f.col "epoch" with _ | ep
    · rw [hc] at hr
      left
      simp [hr, hn', hhep, hc]
    · rw [hc] at hr
      simp only at hr
      by_cases ho : oddEpoch ep = true
      · rw [if_pos ho] at hr
        left
        refine ⟨hn', by simp [hr], by simp [hr], ?_⟩
        rintro ⟨_, _, h⟩
        have := (oddEpoch_iff ep).2 (fun t ht => h ep t hc ht)
        rw [ho] at this
        simp at this
      · rw [if_neg ho] at hr
        right
        refine ⟨hn', by simp [hhep, hc], ?_, s, hsf.1, hsf.2, ?_, ?_, ?_⟩
        · intro ep' t he' ht
          rw [hc] at he'
          cases he'
          exact (oddEpoch_iff ep).1 (by simpa using ho) t ht
        all_goals (rw [hr]; rfl)
  · rw [he] at hr
    simp only at hr
    left
    refine ⟨hn', by simp [hr], by simp [hr], ?_⟩
    rintro ⟨⟨s, h1, h2⟩, _⟩
    have := (hiff s).2 ⟨(hasFormat_del f s).2 h1, by rw [hlk]; exact h2⟩
    rw [he] at this
    simp at this

/-- A frame can be set just if it is not empty, it has one of the three formats, the first epoch is
between 1800 and 2200, and all elements of the format are there. A perihelion distance without
eccentricity is an error when the spectra have to be assigned. -/
theorem set_ok_iff (S : ℕ → ℕ → K) (N : K → K → K → K) (o : Obj K) (f : Frame K) (hw : WF f) :
    (setOrbits S N o f).err = none ↔ 0 < f.n ∧ FirstEpoch f ∧
      (f.has "q" = true → f.has "e" = true ∨ f.has "a" = true ∨ f.sed.isSome = true) ∧
      ∃ s, HasFormat f s ∧ Known s ∧ ∀ c ∈ Elements s, f.has c = true := by
  have key : ∀ s, (complete S N { o with fmt := some s } (bare f)).2 = none ↔
      Known s ∧ (∀ c ∈ Elements s, f.has c = true) ∧ (f.sed.isSome = true ∨ Sedable f) := by
    intro s
    rw [(complete_spec S N { o with fmt := some s } (bare f) s rfl).1]
    have hh : ∀ c, Plain c → c ≠ "index" →
        Frame.has (bare f) c = f.has c := fun c hc hi => bare_has f c hc hi
    have h1 : (∀ c ∈ Elements s, Frame.has (bare f) c = true) ↔
        ∀ c ∈ Elements s, f.has c = true :=
      forall₂_congr fun c hc => by
        rw [hh c (elements_plain s c hc).1 (elements_plain s c hc).2]
    have h2 : Sedable (bare f) ↔ Sedable f := by
      unfold Sedable
      rw [hh "a" (by decide) (by decide), hh "q" (by decide) (by decide), hh "e" (by decide) (by decide),
        hh "x" (by decide) (by decide), hh "y" (by decide) (by decide), hh "z" (by decide) (by decide)]
    rw [h1, h2]
    rfl
  have hel : ∀ s, Known s → (∀ c ∈ Elements s, f.has c = true) → lacks s f = false ∧
      ((f.sed.isSome = true ∨ Sedable f) ↔
        (f.has "q" = true → f.has "e" = true ∨ f.has "a" = true ∨ f.sed.isSome = true)) := by
    intro s hk he
    unfold Sedable lacks
    rcases hk with rfl | rfl | rfl
    · have h1 := he "q" (by decide)
      have h2 := he "e" (by decide)
      simp [h1, h2]
    · have h1 := he "a" (by decide)
      simp [h1]
    · have h1 := he "x" (by decide)
      have h2 := he "y" (by decide)
      have h3 := he "z" (by decide)
      simp only [h1, h2, h3]
      cases f.has "q" <;> cases f.has "e" <;> cases f.has "a" <;> simp
  have huniq : ∀ s t, HasFormat f s → HasFormat f t → s = t := by
    intro s t h1 h2
    unfold HasFormat at h1 h2
    rcases hf : f.fmt with _ | l
    · rw [hf] at h1 h2
      simp only at h1 h2
      rcases h1 with h1 | h1 | h1 <;> rcases h2 with h2 | h2 | h2 <;> simp_all
    · rw [hf] at h1 h2
      obtain ⟨v, hv, hl, hs⟩ := h1
      obtain ⟨w, hw', _, ht⟩ := h2
      obtain ⟨x, hx⟩ := List.exists_mem_of_ne_nil _ hl
      rw [hs, ht, ← hv x hx, ← hw' x hx]
  rcases set_cases S N o f hw with ⟨h0, he, _⟩ | ⟨h0, he, _, hne⟩ | ⟨h0, hep, hfe, s, hs, hl, _, he, _⟩
  · constructor
    · intro h; exact absurd h he
    · rintro ⟨h, _⟩; omega
  · constructor
    · intro h; exact absurd h he
    · rintro ⟨_, h1, _, s, hs, hk, hel'⟩
      exact absurd ⟨⟨s, hs, (hel s hk hel').1⟩, hel' _ (epoch_mem s), h1⟩ hne
  · rw [he, key]
    constructor
    · rintro ⟨hk, h1, h2⟩
      exact ⟨h0, hfe, ((hel s hk h1).2).1 h2, s, hs, hk, h1⟩
    · rintro ⟨_, _, h3, t, ht, hk, h1⟩
      obtain rfl := huniq s t hs ht
      exact ⟨hk, h1, ((hel s hk h1).2).2 h3⟩

/-- What is stored: the columns that were given, with `H = 20`, `g = 0.15` and ids `0, 1, ...` where
they were not. -/
theorem set_stored (S : ℕ → ℕ → K) (N : K → K → K → K) (o : Obj K) (f : Frame K) (hw : WF f)
    (h : (setOrbits S N o f).err = none) :
    ∃ s g, HasFormat f s ∧ (setOrbits S N o f).obj.fmt = some s ∧
      (setOrbits S N o f).obj.orbits = some g ∧ g.n = f.n ∧ g.fmt = none ∧
      g.ids = some (f.ids.getD ((List.range f.n).map Int.ofNat)) ∧
      (∀ l, f.sed = some l → g.sed = some l) ∧
      ∀ c, c ≠ "index" → g.col c =
        if c = "g" then some ((f.col "g").getD (List.replicate f.n (15 / 100)))
        else if c = "H" then some ((f.col "H").getD (List.replicate f.n 20)) else f.col c := by
  rcases set_cases S N o f hw with ⟨_, he, _⟩ | ⟨_, he, _⟩ | ⟨h0, hep, hfe, s, hs, hl, _, he, hob⟩
  · exact absurd h he
  · exact absurd h he
  · rw [h] at he
    have hc := complete_spec S N { o with fmt := some s } (bare f) s rfl
    refine ⟨s, { base (bare f) with sed := some (f.sed.getD
      (names S N { o with fmt := some s } (base (bare f)))) }, hs, by rw [hob, hc.2.1],
      by rw [hob]; exact hc.2.2.2 he.symm, ?_⟩
    · have hb := base_rest (bare f)
      refine ⟨hb.1, hb.2.2.2, hb.2.1, ?_, ?_⟩
      · intro l hl
        show some (f.sed.getD _) = some l
        rw [hl]; rfl
      · intro c hci
        have hcol : ∀ d, d ≠ "index" → Frame.col (bare f) d = f.col d :=
          fun d hd => bare_col f d hd
        have := base_col (bare f) c
        rw [hcol "g" (by decide), hcol "H" (by decide), hcol c hci] at this
        exact this

/-- The epoch of the first orbit is between 1800 and 2200. -/
theorem set_epoch_partial (S : ℕ → ℕ → K) (N : K → K → K → K) (o : Obj K) (f : Frame K) (hw : WF f)
    (h : (setOrbits S N o f).err = none) (ep : List K) (t : K) (hep : f.col "epoch" = some ep)
    (ht : ep.head? = some t) : -21503 ≤ t ∧ t ≤ 124594 :=
  ((set_ok_iff S N o f hw).1 h).2.1 ep t hep ht

/-! ## C176: nothing else is changed -/

/-- When a frame is refused the orbits stay as they were. -/
theorem set_err_orbits_partial (S : ℕ → ℕ → K) (N : K → K → K → K) (o : Obj K) (f : Frame K) (hw : WF f)
    (h : (setOrbits S N o f).err ≠ none) : (setOrbits S N o f).obj.orbits = o.orbits := by
  rcases set_cases S N o f hw with ⟨_, _, ho, _⟩ | ⟨_, _, ho, _⟩ | ⟨h0, hep, hfe, s, hs, hl, _, he, hob⟩
  · rw [ho]
  · exact ho
  · rw [hob]
    rw [he] at h
    exact (complete_spec S N { o with fmt := some s } (bare f) s rfl).2.2.1 h

/-- The format of the object is lost when the frame has none. -/
theorem set_err_fmt (S : ℕ → ℕ → K) (N : K → K → K → K) (o : Obj K) (f : Frame K) (hw : WF f)
    (hn : 0 < f.n) (h : ∀ s, ¬ HasFormat f s) :
    (setOrbits S N o f).err = some .value ∧ (setOrbits S N o f).obj = { o with fmt := none } := by
  have hr : (readFormat (f.del "index")).fmt = none ∧ (readFormat (f.del "index")).err = some .value := by
    have h' : ∀ s, ¬ HasFormat (f.del "index") s := fun s hs => h s ((hasFormat_del f s).1 hs)
    unfold HasFormat at h'
    unfold readFormat
    have hfm : (f.del "index").fmt = f.fmt := rfl
    rcases hf : (f.del "index").fmt with _ | l
    · rw [hf] at h'
      simp only at h' ⊢
      unfold guess
      by_cases hq : (f.del "index").has "q" <;> by_cases ha : (f.del "index").has "a" <;>
        by_cases hx : (f.del "index").has "x" <;> simp [hq, ha, hx] at h' ⊢
    · rcases l with _ | ⟨s, rest⟩
      · have := hw.fmt [] (hfm ▸ hf)
        simp at this
        omega
      · rw [hf] at h'
        simp only at h' ⊢
        by_cases hall : rest.all (· = s)
        · exfalso
          simp only [List.all_eq_true, decide_eq_true_eq] at hall
          refine h' (if s = "CART" then "CAR" else s) ⟨s, fun x hx => ?_, by simp, rfl⟩
          rcases List.mem_cons.1 hx with hx | hx
          · exact hx
          · exact hall x hx
        · rw [if_neg hall]
          exact ⟨rfl, rfl⟩
  unfold setOrbits
  have hdn : ¬ (f.del "index").n = 0 := by
    show ¬ f.n = 0
    omega
  simp only [if_neg hdn]
  rw [hr.1, hr.2]
  exact ⟨rfl, rfl⟩

/-- The frame that was given is left without `index` and `FORMAT`. -/
theorem set_frame (S : ℕ → ℕ → K) (N : K → K → K → K) (o : Obj K) (f : Frame K) (hw : WF f)
    (h : (setOrbits S N o f).err = none) : (setOrbits S N o f).frame = bare f := by
  rcases set_cases S N o f hw with ⟨_, he, _⟩ | ⟨_, he, _⟩ | ⟨_, _, _, s, _, _, hfr, _⟩
  · exact absurd h he
  · exact absurd h he
  · exact hfr

theorem bare_bare (f : Frame K) : bare (bare f) = bare f := by
  unfold bare
  simp

theorem WF.bare {f : Frame K} (h : WF f) : WF (Orbits.bare f) where
  fmt := by simp [Orbits.bare]
  ids := h.ids
  sed := h.sed
  num := (h.del "index").num
  names := (h.del "index").names
  plain := (h.del "index").plain

theorem hasFormat_bare (f : Frame K) (s : String) :
    HasFormat (bare f) s ↔ HasFormat { f with fmt := none } s := by
  unfold HasFormat
  have hh : ∀ c, Plain c → c ≠ "index" → (bare f).has c = Frame.has { f with fmt := none } c := by
    intro c hc hi
    rw [has_plain _ _ hc, has_plain _ _ hc, bare_col _ _ hi]
    rfl
  have h1 : (bare f).fmt = none := rfl
  simp only [h1, hh "q" (by decide) (by decide), hh "a" (by decide) (by decide),
    hh "x" (by decide) (by decide)]

theorem hasFormat_unique (f : Frame K) (s t : String) (h1 : HasFormat f s) (h2 : HasFormat f t) :
    s = t := by
  unfold HasFormat at h1 h2
  rcases hf : f.fmt with _ | l
  · rw [hf] at h1 h2
    simp only at h1 h2
    rcases h1 with h1 | h1 | h1 <;> rcases h2 with h2 | h2 | h2 <;> simp_all
  · rw [hf] at h1 h2
    obtain ⟨v, hv, hl, hs⟩ := h1
    obtain ⟨w, hw', _, ht⟩ := h2
    obtain ⟨x, hx⟩ := List.exists_mem_of_ne_nil _ hl
    rw [hs, ht, ← hv x hx, ← hw' x hx]

/-- The object after success. -/
theorem set_obj (S : ℕ → ℕ → K) (N : K → K → K → K) (o : Obj K) (f : Frame K) (hw : WF f)
    (h : (setOrbits S N o f).err = none) (s : String) (hs : HasFormat f s) :
    (setOrbits S N o f).obj = (complete S N { o with fmt := some s } (bare f)).1 := by
  rcases set_cases S N o f hw with ⟨_, he, _⟩ | ⟨_, he, _⟩ | ⟨_, _, _, t, ht, _, _, _, ho⟩
  · exact absurd h he
  · exact absurd h he
  · rw [hasFormat_unique f s t hs ht, ho]

/-- A frame can be used again for another object, with the same outcome, if the format that it shows
is the one that it states. -/
theorem set_twice_partial (S : ℕ → ℕ → K) (N : K → K → K → K) (f : Frame K) (hw : WF f)
    (h : (setOrbits S N {} f).err = none) (s : String) (hs : HasFormat f s)
    (hs' : HasFormat { f with fmt := none } s) :
    (setOrbits S N {} (setOrbits S N {} f).frame).err = none ∧
      (setOrbits S N {} (setOrbits S N {} f).frame).obj = (setOrbits S N {} f).obj := by
  rw [set_frame S N {} f hw h]
  have hb : HasFormat (bare f) s := (hasFormat_bare f s).2 hs'
  have hok : (setOrbits S N {} (bare f)).err = none := by
    rw [set_ok_iff S N {} f hw] at h
    rw [set_ok_iff S N {} (bare f) hw.bare]
    obtain ⟨h1, h2, h3, t, ht, hk, he⟩ := h
    obtain rfl := hasFormat_unique f s t hs ht
    refine ⟨h1, ?_, ?_, s, hb, hk, fun c hc => ?_⟩
    · intro ep t hep
      rw [bare_col _ _ (by decide)] at hep
      exact h2 ep t hep
    · rw [bare_has f "q" (by decide) (by decide), bare_has f "e" (by decide) (by decide),
        bare_has f "a" (by decide) (by decide)]
      exact h3
    · rw [bare_has f c (elements_plain s c hc).1 (elements_plain s c hc).2]
      exact he c hc
  refine ⟨hok, ?_⟩
  rw [set_obj S N {} (bare f) hw.bare hok s hb, set_obj S N {} f hw h s hs, bare_bare]

end Set

/-- Keplerian elements of two orbits, one of them with a Julian date as epoch. -/
def twoOrbits : Frame ℚ where
  n := 2
  num := [("a", [5 / 2, 3]), ("e", [0, 0]), ("inc", [1, 2]), ("Omega", [3, 4]), ("argPeri", [5, 6]),
    ("meanAnomaly", [7, 8]), ("epoch", [59000, 2459000])]

/-- The epochs of the other orbits are not looked at. -/
theorem set_epoch_false : ¬ ∀ (S : ℕ → ℕ → ℚ) (N : ℚ → ℚ → ℚ → ℚ) (o : Obj ℚ) (f : Frame ℚ), WF f →
    (setOrbits S N o f).err = none → ∀ ep, f.col "epoch" = some ep →
    ∀ t ∈ ep, -21503 ≤ t ∧ t ≤ 124594 := by
  intro h
  have := h (fun _ _ => 1 / 2) (fun _ _ _ => 0) {} twoOrbits
    ⟨by decide, by decide, by decide, by decide +kernel, by decide +kernel, by decide +kernel⟩
    (by decide +kernel) [59000, 2459000] (by decide +kernel) 2459000 (by simp)
  exact absurd this.2 (by norm_num)

/-- Elements in one format, of one orbit. -/
def kepler (q : Bool) : Frame ℚ where
  n := 1
  fmt := some ["KEP"]
  num := [("a", [5 / 2]), ("e", [0]), ("inc", [1]), ("Omega", [3]), ("argPeri", [5]),
    ("meanAnomaly", [7]), ("epoch", [59000])] ++ (if q then [("q", [5 / 2])] else [])

theorem kepler_wf (q : Bool) : WF (kepler q) := by
  constructor <;> revert q <;> decide +kernel

/-- A stream and a norm for examples. -/
def S0 : ℕ → ℕ → ℚ := fun _ k => 1 / (k + 2)
def N0 : ℚ → ℚ → ℚ → ℚ := fun x _ _ => x

example : (setOrbits S0 N0 {} (kepler true)).err = none := by decide +kernel

/-- A failure can change the format of the object. -/
theorem set_err_false : ¬ ∀ (S : ℕ → ℕ → ℚ) (N : ℚ → ℚ → ℚ → ℚ) (o : Obj ℚ) (f : Frame ℚ), WF f →
    (setOrbits S N o f).err ≠ none → (setOrbits S N o f).obj = o := by
  intro h
  have := h S0 N0 (setOrbits S0 N0 {} (kepler false)).obj
    { n := 1, fmt := some ["COM"], num := [("epoch", [59000])] }
    ⟨by decide, by decide, by decide, by decide +kernel, by decide +kernel, by decide +kernel⟩
    (by decide +kernel)
  revert this
  decide +kernel

/-- The frame of the caller loses columns. -/
theorem set_frame_false : ¬ ∀ (S : ℕ → ℕ → ℚ) (N : ℚ → ℚ → ℚ → ℚ) (o : Obj ℚ) (f : Frame ℚ), WF f →
    (setOrbits S N o f).err = none → (setOrbits S N o f).frame = f := by
  intro h
  have := h S0 N0 {} (kepler false) (kepler_wf _) (by decide +kernel)
  revert this
  decide +kernel

/-- A frame that was accepted can be refused the next time. -/
theorem set_twice_false : ¬ ∀ (S : ℕ → ℕ → ℚ) (N : ℚ → ℚ → ℚ → ℚ) (f : Frame ℚ), WF f →
    (setOrbits S N {} f).err = none → (setOrbits S N {} (setOrbits S N {} f).frame).err = none := by
  intro h
  have := h S0 N0 (kepler true) (kepler_wf _) (by decide +kernel)
  revert this
  decide +kernel

/-- The same object does not give the same spectra when it is set twice. -/
theorem set_again_false : ¬ ∀ (S : ℕ → ℕ → ℚ) (N : ℚ → ℚ → ℚ → ℚ) (f : Frame ℚ), WF f →
    (setOrbits S N {} f).err = none →
    (setOrbits S N (setOrbits S N {} f).obj (bare f)).obj.orbits = (setOrbits S N {} f).obj.orbits := by
  intro h
  have := h (fun _ k => if k = 0 then 0 else 1) N0 (kepler false) (kepler_wf _) (by decide +kernel)
  revert this
  decide +kernel

/-! ## C177: comparison -/

/-- Two sets of orbits of one length are said to be equal when they have the same format and the
same ids. -/
theorem eq_spec {K : Type} [DecidableEq K] (o p : Obj K) (f g : Frame K) (a b : List ℤ) (s t : String)
    (ho : o.orbits = some f) (hp : p.orbits = some g) (hs : o.fmt = some s) (ht : p.fmt = some t)
    (hk : Known s) (ha : f.ids = some a) (hb : g.ids = some b) (hab : a.length = b.length) :
    eq o p = .ok (some (decide (s = t ∧ a = b))) := by
  unfold eq
  rw [hs, ht, ho, hp]
  by_cases h : s = t
  · subst h
    have hd := (dataCols_known s _).2 ⟨hk, rfl⟩
    simp only [Option.bind_some, hd, if_true]
    unfold eqLoop colEq allEq
    simp only [if_true, ha, hb, hab]
    by_cases h' : a = b <;> simp [h']
  · simp [h]

/-- The orbit of `kepler` with another inclination. -/
def tilted : Frame ℚ :=
  { kepler false with
    num := (kepler false).num.map fun p => if p.1 = "inc" then ("inc", [90]) else p }

/-- Orbits with different elements can be equal. -/
theorem eq_false : ¬ ∀ (S : ℕ → ℕ → ℚ) (N : ℚ → ℚ → ℚ → ℚ) (f g : Frame ℚ), WF f → WF g →
    (setOrbits S N {} f).err = none → (setOrbits S N {} g).err = none →
    eq (setOrbits S N {} f).obj (setOrbits S N {} g).obj = .ok (some true) →
    (setOrbits S N {} f).obj.orbits = (setOrbits S N {} g).obj.orbits := by
  intro h
  have := h S0 N0 (kepler false) tilted (kepler_wf _)
    ⟨by decide, by decide, by decide, by decide +kernel, by decide +kernel, by decide +kernel⟩
    (by decide +kernel) (by decide +kernel) (by decide +kernel)
  revert this
  decide +kernel

/-- Objects with the same orbits are equal. -/
theorem eq_refl_partial {K : Type} [DecidableEq K] (o p : Obj K) (f : Frame K) (a : List ℤ) (s : String)
    (ho : o.orbits = some f) (hp : p.orbits = some f) (hs : o.fmt = some s) (ht : p.fmt = some s)
    (hk : Known s) (ha : f.ids = some a) : eq o p = .ok (some true) := by
  rw [eq_spec o p f f a a s s ho hp hs ht hk ha ha rfl]
  simp

/-- New objects cannot be compared. -/
theorem eq_new (K : Type) [DecidableEq K] : eq ({} : Obj K) {} = .error .key := rfl

/-- One orbit is equal to many with its id. -/
theorem eq_many {K : Type} [DecidableEq K] (o p : Obj K) (f g : Frame K) (i : ℤ) (n : ℕ) (s : String)
    (ho : o.orbits = some f) (hp : p.orbits = some g) (hs : o.fmt = some s) (ht : p.fmt = some s)
    (hk : Known s) (ha : f.ids = some [i]) (hb : g.ids = some (List.replicate n i)) :
    eq o p = .ok (some true) := by
  unfold eq
  rw [hs, ht, ho, hp]
  have hd := (dataCols_known s _).2 ⟨hk, rfl⟩
  simp only [Option.bind_some, hd, if_true]
  unfold eqLoop colEq allEq
  simp only [if_true, ha, hb]
  by_cases h : n = 1
  · subst h; simp
  · have : ¬ 1 = n := fun h' => h h'.symm
    simp [this]

/-! ## C178: one orbit at a time -/

section Items

variable [Field K] [LinearOrder K]

/-- A frame with all optional columns. -/
structure Full (g : Frame K) : Prop where
  wf : WF g
  fmt : g.fmt = none
  ids : g.ids.isSome = true
  sed : g.sed.isSome = true
  hasH : (g.col "H").isSome = true
  hasG : (g.col "g").isSome = true
  index : ∀ p ∈ g.num, p.1 ≠ "index"

theorem bare_full (g : Frame K) (h : Full g) : bare g = g := by
  have h1 := h.fmt
  have h2 : g.num.filter (fun p => decide (p.1 ≠ "index")) = g.num :=
    List.filter_eq_self.2 fun p hp => by simpa using h.index p hp
  unfold bare
  rw [h2]
  cases g
  simp_all

theorem fill_has (f : Frame K) (c : String) (x : K) (h : f.has c = true) : f.fill c x = f := by
  unfold Frame.fill
  rw [if_pos h]

theorem base_full (g : Frame K) (h : Full g) : base g = g := by
  have h0 : fillIds g = g := by
    unfold fillIds
    obtain ⟨l, hl⟩ := Option.isSome_iff_exists.1 h.ids
    cases g
    simp_all
  unfold base
  rw [h0, fill_has g "H" 20 (by rw [has_plain _ _ (by decide)]; exact h.hasH),
    fill_has g "g" _ (by rw [has_plain _ _ (by decide)]; exact h.hasG)]

/-- A frame with all columns is stored as it is. -/
theorem set_full (S : ℕ → ℕ → K) (N : K → K → K → K) (o : Obj K) (g : Frame K) (h : Full g)
    (he : (setOrbits S N o g).err = none) : (setOrbits S N o g).obj.orbits = some g := by
  rcases set_cases S N o g h.wf with ⟨_, he', _⟩ | ⟨_, he', _⟩ | ⟨_, _, _, s, hs, hl, _, he', hob⟩
  · exact absurd he he'
  · exact absurd he he'
  · rw [he] at he'
    have hc := complete_spec S N { o with fmt := some s } (bare g) s rfl
    rw [hob, hc.2.2.2 he'.symm, bare_full g h, base_full g h]
    obtain ⟨l, hl⟩ := Option.isSome_iff_exists.1 h.sed
    rw [hl]
    cases g
    simp_all

theorem row_col (g : Frame K) (i : ℕ) (c : String) :
    (g.row i).col c = (g.col c).map fun l => (l.drop i).take 1 := 
  lookup_map g.num (fun l => (l.drop i).take 1) c

theorem row_has (g : Frame K) (i : ℕ) (c : String) : (g.row i).has c = g.has c := by
  refine has_ext _ _ _ ?_ ?_ ?_ ?_
  · show (g.fmt.map _).isSome = _; simp
  · show (g.ids.map _).isSome = _; simp
  · show (g.sed.map _).isSome = _; simp
  · rw [row_col]; simp

theorem take_len {V : Type} (l : List V) (n i : ℕ) (h : l.length = n) (hi : i < n) :
    ((l.drop i).take 1).length = 1 := by
  simp
  omega

theorem row_full (g : Frame K) (h : Full g) (i : ℕ) (hi : i < g.n) : Full (g.row i) where
  wf :=
    { fmt := by simp [Frame.row, h.fmt]
      ids := by
        intro l hl
        obtain ⟨m, hm, rfl⟩ := Option.map_eq_some_iff.1 hl
        exact take_len m _ i (h.wf.ids m hm) hi
      sed := by
        intro l hl
        obtain ⟨m, hm, rfl⟩ := Option.map_eq_some_iff.1 hl
        exact take_len m _ i (h.wf.sed m hm) hi
      num := by
        intro p hp
        obtain ⟨q, hq, rfl⟩ := List.mem_map.1 hp
        exact take_len q.2 _ i (h.wf.num q hq) hi
      names := by
        have : (g.row i).num.map Prod.fst = g.num.map Prod.fst := by
          simp [Frame.row, Function.comp_def]
        rw [this]
        exact h.wf.names
      plain := by
        intro p hp
        obtain ⟨q, hq, rfl⟩ := List.mem_map.1 hp
        exact h.wf.plain q hq }
  fmt := by simp [Frame.row, h.fmt]
  ids := by simpa [Frame.row] using h.ids
  sed := by simpa [Frame.row] using h.sed
  hasH := by rw [row_col]; simpa using h.hasH
  hasG := by rw [row_col]; simpa using h.hasG
  index := by
    intro p hp
    obtain ⟨q, hq, rfl⟩ := List.mem_map.1 hp
    exact h.index q hq

/-- An object that holds orbits which passed `set_orbits`. -/
structure Loaded (o : Obj K) (g : Frame K) (s : String) : Prop where
  orbits : o.orbits = some g
  fmt : o.fmt = some s
  full : Full g
  known : Known s
  elements : ∀ c ∈ Elements s, g.has c = true

theorem names_length (S : ℕ → ℕ → K) (N : K → K → K → K) (o : Obj K) (f : Frame K) (hw : WF f)
    (h : Sedable f) : (names S N o f).length = f.n := by
  have hlen : ∀ c v, f.col c = some v → v.length = f.n := fun c v hv =>
    hw.num (c, v) (lookup_mem _ _ _ hv)
  have hcol : ∀ c, Plain c → f.has c = true → ∃ v, f.col c = some v := fun c hc hh =>
    (col_has f c hc).2 hh
  unfold names assignSed
  by_cases ha : f.has "a"
  · obtain ⟨v, hv⟩ := hcol "a" (by decide) ha
    simp [ha, hv, hlen _ _ hv]
  · by_cases hq : f.has "q"
    · obtain ⟨v, hv⟩ := hcol "q" (by decide) hq
      have he : f.has "e" = true := by
        unfold Sedable at h
        simp only [ha, hq] at h
        simpa using h
      obtain ⟨w, hw'⟩ := hcol "e" (by decide) he
      simp [ha, hq, hv, hw', hlen _ _ hv, hlen _ _ hw']
    · unfold Sedable at h
      have h' : f.has "x" = true ∧ f.has "y" = true ∧ f.has "z" = true := by
        simpa [ha, hq] using h
      obtain ⟨x, hx⟩ := hcol "x" (by decide) h'.1
      obtain ⟨y, hy⟩ := hcol "y" (by decide) h'.2.1
      obtain ⟨z, hz⟩ := hcol "z" (by decide) h'.2.2
      simp [ha, hq, h'.1, hx, hy, hz, hlen _ _ hx, hlen _ _ hy, hlen _ _ hz]

theorem WF.fill {f : Frame K} (h : WF f) (c : String) (x : K) (hc : Plain c) : WF (f.fill c x) := by
  unfold Frame.fill
  by_cases hh : f.has c
  · rw [if_pos hh]; exact h
  · rw [if_neg hh]
    have hn : f.col c = none := by
      rw [has_plain _ _ hc] at hh
      simpa using hh
    refine ⟨h.fmt, h.ids, h.sed, ?_, ?_, ?_⟩
    · intro p hp
      rcases List.mem_append.1 hp with h1 | h1
      · exact h.num p h1
      · simp at h1; subst h1; simp
    · rw [List.map_append, List.nodup_append]
      refine ⟨h.names, by simp, ?_⟩
      intro a ha b hb hab
      simp at hb
      subst hab
      subst hb
      obtain ⟨p, hp, hpa⟩ := List.mem_map.1 ha
      have := List.lookup_eq_none_iff.1 hn p hp
      simp [hpa] at this
    · intro p hp
      rcases List.mem_append.1 hp with h1 | h1
      · exact h.plain p h1
      · simp at h1; subst h1; exact hc

theorem base_wf {f : Frame K} (h : WF f) : WF (base f) := by
  unfold base
  refine WF.fill (WF.fill ?_ _ _ (by decide)) _ _ (by decide)
  refine ⟨h.fmt, ?_, h.sed, h.num, h.names, h.plain⟩
  intro l hl
  have hl' : f.ids.getD ((List.range f.n).map Int.ofNat) = l := by simpa [fillIds] using hl
  rcases hi : f.ids with _ | m
  · rw [hi] at hl'
    rw [← hl']
    simp [fillIds]
  · rw [hi] at hl'
    rw [← hl']
    exact h.ids m hi

theorem base_index (f : Frame K) (h : ∀ p ∈ f.num, p.1 ≠ "index") : ∀ p ∈ (base f).num, p.1 ≠ "index" := by
  have hfill : ∀ (f : Frame K) (c : String) (x : K), c ≠ "index" → (∀ p ∈ f.num, p.1 ≠ "index") →
      ∀ p ∈ (f.fill c x).num, p.1 ≠ "index" := by
    intro f c x hc hf p hp
    unfold Frame.fill at hp
    split_ifs at hp
    · exact hf p hp
    · rcases List.mem_append.1 hp with h1 | h1
      · exact hf p h1
      · simp at h1; subst h1; exact hc
  exact hfill _ _ _ (by decide) (hfill _ _ _ (by decide) h)

/-- After success the object is loaded. -/
theorem set_loaded (S : ℕ → ℕ → K) (N : K → K → K → K) (o : Obj K) (f : Frame K) (hw : WF f)
    (h : (setOrbits S N o f).err = none) : ∃ g s, Loaded (setOrbits S N o f).obj g s := by
  rcases set_cases S N o f hw with ⟨_, he', _⟩ | ⟨_, he', _⟩ | ⟨_, _, _, s, hs, hl, _, he', hob⟩
  · exact absurd h he'
  · exact absurd h he'
  · rw [h] at he'
    have hc := complete_spec S N { o with fmt := some s } (bare f) s rfl
    obtain ⟨hk, hel, hsd⟩ := hc.1.1 he'.symm
    have hb := base_rest (bare f)
    have hbw := base_wf hw.bare
    refine ⟨_, s, ⟨by rw [hob]; exact hc.2.2.2 he'.symm, by rw [hob, hc.2.1], ?_, hk, ?_⟩⟩
    · refine ⟨⟨hbw.fmt, hbw.ids, ?_, hbw.num, hbw.names, hbw.plain⟩, hb.2.2.2, ?_, rfl, ?_, ?_, ?_⟩
      · intro l hl
        have hl' : (bare f).sed.getD (names S N { o with fmt := some s } (base (bare f))) = l := by
          simpa using hl
        rcases hsed : (bare f).sed with _ | m
        · rw [hsed] at hl' hsd
          rw [← hl']
          exact names_length S N _ _ hbw ((sedable_base _).2 (by simpa using hsd))
        · rw [hsed] at hl'
          rw [← hl']
          show m.length = (base (bare f)).n
          rw [hb.1]
          exact hw.bare.sed m hsed
      · show (base (bare f)).ids.isSome = true
        rw [hb.2.1]; rfl
      · show ((base (bare f)).col "H").isSome = true
        rw [base_col]; rfl
      · show ((base (bare f)).col "g").isSome = true
        rw [base_col]; rfl
      · exact base_index _ fun p hp => by simpa using (List.mem_filter.1 hp).2
    · intro c hcm
      have h1 := elements_plain s c hcm
      have h2 := elements_ne s c hcm
      rw [← hel c hcm, ← base_has (bare f) c h1.1 h2.1 h2.2]
      exact has_num _ _ c rfl h1.1

/-- Row `i` of an object, when the columns show the format: it can be taken just if its own epoch is
between 1800 and 2200, and then the new object has this row and the same format. -/
theorem getItem_partial (S : ℕ → ℕ → K) (N : K → K → K → K) (o : Obj K) (g : Frame K) (s : String)
    (h : Loaded o g s) (hs : HasFormat g s) (i : ℕ) (hi : i < g.n) :
    ((getItem S N o i).err = none ↔
      ∀ ep t, g.col "epoch" = some ep → ep[i]? = some t → -21503 ≤ t ∧ t ≤ 124594) ∧
    ((getItem S N o i).err = none →
      (getItem S N o i).obj.orbits = some (g.row i) ∧ (getItem S N o i).obj.fmt = o.fmt) := by
  have hr := row_full g h.full i hi
  have hf : HasFormat (g.row i) s := by
    unfold HasFormat at hs ⊢
    have h1 : (g.row i).fmt = none := hr.fmt
    rw [h.full.fmt] at hs
    rw [h1]
    simp only [row_has] at hs ⊢
    exact hs
  have hget : getItem S N o i = setOrbits S N {} (g.row i) := by
    unfold getItem
    rw [h.orbits]
    simp [hi]
  rw [hget]
  refine ⟨?_, fun he => ⟨set_full S N {} _ hr he, ?_⟩⟩
  · rw [set_ok_iff S N {} _ hr.wf]
    have hfe : FirstEpoch (g.row i) ↔
        ∀ ep t, g.col "epoch" = some ep → ep[i]? = some t → -21503 ≤ t ∧ t ≤ 124594 := by
      unfold FirstEpoch
      rw [row_col]
      constructor
      · intro h1 ep t hep ht
        refine h1 ((ep.drop i).take 1) t (by rw [hep]; rfl) ?_
        rw [List.head?_take]
        simpa using ht
      · intro h1 ep' t hep ht
        obtain ⟨ep, he, rfl⟩ := Option.map_eq_some_iff.1 hep
        refine h1 ep t he ?_
        rw [List.head?_take] at ht
        simpa using ht
    constructor
    · rintro ⟨_, h2, _⟩
      exact hfe.1 h2
    · intro h2
      exact ⟨Nat.one_pos, hfe.2 h2, fun _ => Or.inr (Or.inr hr.sed), s, hf, h.known,
        fun c hc => by rw [row_has]; exact h.elements c hc⟩
  · obtain ⟨t, _, ht, hfm, _⟩ := set_stored S N {} _ hr.wf he
    rw [hfm, h.fmt, hasFormat_unique _ _ _ ht hf]

/-- Iterating gives the items in their order. -/
theorem iter_items (S : ℕ → ℕ → K) (N : K → K → K → K) (o : Obj K) (g : Frame K)
    (h : o.orbits = some g) : iter S N o = (List.range g.n).map (getItem S N o) := by
  unfold iter
  rw [h]
  simp only
  refine List.map_congr_left fun i hi => ?_
  unfold getItem
  rw [h]
  simp [List.mem_range.1 hi]

theorem flatten_rows {V : Type} (l : List V) :
    (List.range l.length).flatMap (fun i => (l.drop i).take 1) = l := by
  induction l with
  | nil => rfl
  | cons x l ih =>
    rw [List.length_cons, List.range_succ_eq_map, List.flatMap_cons, List.flatMap_map]
    simp [ih]

/-- The items together have all rows: ids and columns of numbers. -/
theorem rows_all (g : Frame K) (h : Full g) :
    (∀ l, g.ids = some l → (List.range g.n).flatMap (fun i => ((g.row i).ids.getD [])) = l) ∧
    ∀ c l, g.col c = some l → (List.range g.n).flatMap (fun i => (((g.row i).col c).getD [])) = l := by
  constructor
  · intro l hl
    have := flatten_rows l
    rw [h.wf.ids l hl] at this
    simpa [Frame.row, hl] using this
  · intro c l hl
    have := flatten_rows l
    rw [h.wf.num (c, l) (lookup_mem _ _ _ hl)] at this
    simpa [row_col, hl] using this

end Items

/-- With a column for another format an orbit cannot be taken out. -/
theorem getItem_false : ¬ ∀ (S : ℕ → ℕ → ℚ) (N : ℚ → ℚ → ℚ → ℚ) (f : Frame ℚ), WF f →
    (setOrbits S N {} f).err = none → ∀ i < f.n, (getItem S N (setOrbits S N {} f).obj i).err = none := by
  intro h
  have := h S0 N0 (kepler true) (kepler_wf _) (by decide +kernel) 0 (by decide)
  revert this
  decide +kernel

end Verif.Orbits
