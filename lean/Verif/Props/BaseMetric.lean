import Verif.Model.BaseMetric
import Verif.Props.Names
import Mathlib.Data.List.Induction

/-!
# Registries and the base class of metrics

Theorems C263 to C267.
-/

namespace Verif.BaseM

theorem lookup_put {K V : Type} [DecidableEq K] [BEq K] [LawfulBEq K] (d : List (K × V)) (k k' : K) (v : V) : (put d k v).lookup k' = if k' = k then some v else d.lookup k' := by
  induction d with
  | nil =>
    by_cases h : k' = k
    · simp [put, h]
    · have : (k' == k) = false := by simpa using h
      simp [put, h, List.lookup_cons, this]
  | cons p d ih =>
    obtain ⟨a, b⟩ := p
    unfold put
    by_cases ha : k = a
    · rw [if_pos ha]
      subst ha
      by_cases h : k' = k
      · simp [h]
      · have : (k' == k) = false := by simpa using h
        simp [h, List.lookup_cons, this]
    · rw [if_neg ha, List.lookup_cons, List.lookup_cons, ih]
      by_cases h : k' = a
      · subst h
        simp [Ne.symm ha]
      · have : (k' == a) = false := by simpa using h
        rw [this]

/-! ## C263 -/

theorem fullName_inside (pkg : Str) (d : Def) (rest : Str) (h : d.mod = pkg ++ rest) : fullName pkg d = d.name := by
  unfold fullName
  rw [if_pos (by rw [h]; exact List.isPrefixOf_iff_prefix.mpr (List.prefix_append _ _))]

/-- Outside of the package: the name of the package of the module, and the name of the class. -/
theorem fullName_dotted (pkg : Str) (d : Def) (parts : List Str) (last : Str) (hp : parts ≠ []) (hd : ∀ s ∈ parts, '.' ∉ s) (hl : '.' ∉ last)
    (hm : d.mod = ['.'].intercalate (parts ++ [last])) (hpkg : ¬ pkg <+: d.mod) : fullName pkg d = ['.'].intercalate parts ++ '.' :: d.name := by
  unfold fullName
  rw [if_neg (fun h => hpkg (List.isPrefixOf_iff_prefix.mp h))]
  have : d.mod.splitOn '.' = parts ++ [last] := by
    rw [hm]
    apply List.splitOn_intercalate '.' _ (by simp)
    intro l hl'
    rcases List.mem_append.mp hl' with h | h
    · exact hd l h
    · rw [List.mem_singleton.mp h]
      exact hl
  have hlen : 0 < parts.length := List.length_pos_iff.mpr hp
  rw [this, if_pos (by simp; omega), List.dropLast_concat]
  simp

theorem fullName_single (pkg : Str) (d : Def) (hl : '.' ∉ d.mod) (hpkg : ¬ pkg <+: d.mod) : fullName pkg d = d.mod ++ '.' :: d.name := by
  unfold fullName
  rw [if_neg (fun h => hpkg (List.isPrefixOf_iff_prefix.mp h))]
  have : d.mod.splitOn '.' = [d.mod] := by
    have := List.splitOn_intercalate (ls := [d.mod]) '.' (by simpa using hl) (by simp)
    simpa [List.intercalate] using this
  rw [this, if_neg (by simp)]
  simp

/-- **C263.** A name gives the class that was defined last under it; the two base classes are left out. -/
theorem metric_spec (defs : List Def) (n : Str) : (defs.foldl addMetric []).lookup n =
    if n = "BaseMetric".toList ∨ n = "SimpleScalarMetric".toList then none
    else ((defs.filter (fun d => decide (fullName "rubin_sim.maf.metrics".toList d = n))).getLast?).map Def.cls := by
  induction defs using List.reverseRecOn with
  | nil =>
    show none = _
    split <;> rfl
  | append_singleton defs d ih =>
    rw [List.foldl_append, List.foldl_cons, List.foldl_nil]
    generalize defs.foldl addMetric [] = reg at ih
    unfold addMetric
    simp only
    generalize fullName "rubin_sim.maf.metrics".toList = fullName at *
    generalize "BaseMetric".toList = B1 at *
    generalize "SimpleScalarMetric".toList = B2 at *
    by_cases hx : fullName d ∈ [B1, B2]
    · rw [if_pos hx, ih]
      by_cases hn : n = B1 ∨ n = B2
      · rw [if_pos hn, if_pos hn]
      · rw [if_neg hn, if_neg hn, List.filter_append]
        have : fullName d ≠ n := by
          rintro rfl
          simp only [List.mem_cons, List.not_mem_nil, or_false] at hx
          exact hn hx
        simp [this]
    · rw [if_neg hx, lookup_put, ih]
      by_cases hd : n = fullName d
      · rw [if_pos hd, if_neg (by
          simp only [List.mem_cons, List.not_mem_nil, or_false] at hx
          rw [hd]
          exact hx), List.filter_append]
        simp [hd]
      · rw [if_neg hd, List.filter_append]
        simp [Ne.symm hd]

/-- What users rely on: each class is found under its name. -/
def Found : Prop := ∀ (defs : List Def) (d : Def), d ∈ defs → fullName "rubin_sim.maf.metrics".toList d ∉ ["BaseMetric".toList, "SimpleScalarMetric".toList] →
  (defs.foldl addMetric []).lookup (fullName "rubin_sim.maf.metrics".toList d) = some d.cls

/-- Two modules of one package with a class of the same name: the first class is lost. -/
theorem found_false : ¬ Found := by
  intro h
  have := h [⟨"mypkg.first".toList, "DepthMetric".toList, 1⟩, ⟨"mypkg.second".toList, "DepthMetric".toList, 2⟩] ⟨"mypkg.first".toList, "DepthMetric".toList, 1⟩ (by simp) (by decide)
  revert this
  decide

theorem found_partial (pre post : List Def) (d : Def) (hx : fullName "rubin_sim.maf.metrics".toList d ∉ ["BaseMetric".toList, "SimpleScalarMetric".toList])
    (hp : ∀ e ∈ post, fullName "rubin_sim.maf.metrics".toList e ≠ fullName "rubin_sim.maf.metrics".toList d) :
    ((pre ++ d :: post).foldl addMetric []).lookup (fullName "rubin_sim.maf.metrics".toList d) = some d.cls := by
  rw [metric_spec, if_neg (by
    intro hn
    apply hx
    rcases hn with hn | hn
    · rw [hn]; exact List.mem_cons_self
    · rw [hn]; exact List.mem_cons_of_mem _ List.mem_cons_self), List.filter_append, List.filter_cons, if_pos (by simp)]
  have : post.filter (fun e => decide (fullName "rubin_sim.maf.metrics".toList e = fullName "rubin_sim.maf.metrics".toList d)) = [] := by
    rw [List.filter_eq_nil_iff]
    intro e he
    rw [decide_eq_true_eq]
    exact hp e he
  rw [this, List.getLast?_append]
  rfl

theorem addAll_lookup (name : Def → Str) (skip : List Str) (n : Str) : ∀ (ds : List Def) (reg reg' : List (Str × ℕ)), addAll name skip ds reg = .ok reg' →
    reg'.lookup n = match reg.lookup n with
      | some v => some v
      | none => if n ∈ skip then none else (ds.find? (fun d => decide (name d = n))).map Def.cls := by
  intro ds
  induction ds with
  | nil =>
    intro reg reg' h
    simp only [addAll, Except.ok.injEq] at h
    subst h
    cases reg.lookup n <;> simp
  | cons d ds ih =>
    intro reg reg' h
    unfold addAll at h
    cases hd : addOnce name skip reg d with
    | error e => rw [hd] at h; cases h
    | ok r =>
      rw [hd] at h
      rw [ih r reg' h]
      unfold addOnce at hd
      by_cases h1 : (reg.lookup (name d)).isSome = true
      · rw [if_pos h1] at hd; cases hd
      · rw [if_neg h1] at hd
        have hnone : reg.lookup (name d) = none := by
          cases hx : reg.lookup (name d) with
          | none => rfl
          | some v => rw [hx] at h1; exact absurd rfl h1
        by_cases h2 : name d ∈ skip
        · rw [if_pos h2, Except.ok.injEq] at hd
          subst hd
          cases hl : reg.lookup n with
          | some v => rfl
          | none =>
            simp only
            by_cases hn : n ∈ skip
            · rw [if_pos hn, if_pos hn]
            · rw [if_neg hn, if_neg hn, List.find?_cons_of_neg]
              rw [decide_eq_true_eq]
              rintro rfl
              exact hn h2
        · rw [if_neg h2, Except.ok.injEq] at hd
          subst hd
          rw [lookup_put]
          by_cases hn : n = name d
          · rw [if_pos hn, hn, hnone]
            simp [h2]
          · rw [if_neg hn, List.find?_cons_of_neg (by rw [decide_eq_true_eq]; exact Ne.symm hn)]

/-- Maps, stackers and slicers: definitions succeed exactly if no two have the same name, but for the base classes. -/
theorem addAll_ok_iff (name : Def → Str) (skip : List Str) : ∀ (ds : List Def) (reg : List (Str × ℕ)),
    (∃ reg', addAll name skip ds reg = .ok reg') ↔ (∀ d ∈ ds, reg.lookup (name d) = none) ∧ ds.Pairwise (fun d e => name d = name e → name d ∈ skip) := by
  intro ds
  induction ds with
  | nil => simp [addAll]
  | cons d ds ih =>
    intro reg
    unfold addAll addOnce
    by_cases h1 : (reg.lookup (name d)).isSome = true
    · rw [if_pos h1]
      simp only [reduceCtorEq, exists_false, false_iff, not_and]
      intro h
      rw [h d List.mem_cons_self] at h1
      cases h1
    · rw [if_neg h1]
      have hnone : reg.lookup (name d) = none := by
          cases hx : reg.lookup (name d) with
          | none => rfl
          | some v => rw [hx] at h1; exact absurd rfl h1
      by_cases h2 : name d ∈ skip
      · rw [if_pos h2]
        simp only [ih reg, List.forall_mem_cons, hnone, true_and, List.pairwise_cons, h2, implies_true]
      · rw [if_neg h2]
        simp only [ih (put reg (name d) d.cls), List.forall_mem_cons, hnone, true_and, List.pairwise_cons, h2, imp_false, lookup_put]
        constructor
        · rintro ⟨h3, h4⟩
          refine ⟨?_, ?_, h4⟩
          · intro e he
            have := h3 e he
            by_cases hx : name e = name d
            · rw [if_pos hx] at this; cases this
            · rwa [if_neg hx] at this
          · intro e he hx
            have := h3 e he
            rw [if_pos hx.symm] at this
            cases this
        · rintro ⟨h3, h4, h5⟩
          refine ⟨?_, h5⟩
          intro e he
          rw [if_neg (Ne.symm (h4 e he))]
          exact h3 e he

theorem once_spec (name : Def → Str) (skip : List Str) (ds : List Def) (reg : List (Str × ℕ)) (h : addAll name skip ds [] = .ok reg) (d : Def) (hd : d ∈ ds) :
    reg.lookup (name d) = if name d ∈ skip then none else some d.cls := by
  rw [addAll_lookup name skip (name d) ds [] reg h]
  simp only [List.lookup_nil]
  have hp := ((addAll_ok_iff name skip ds []).mp ⟨reg, h⟩).2
  by_cases hs : name d ∈ skip
  · rw [if_pos hs, if_pos hs]
  · rw [if_neg hs, if_neg hs]
    clear h
    induction ds with
    | nil => cases hd
    | cons e ds ih =>
      rw [List.pairwise_cons] at hp
      rcases List.mem_cons.mp hd with rfl | hd
      · simp
      · rw [List.find?_cons_of_neg]
        · exact ih hd hp.2
        · rw [decide_eq_true_eq]
          intro he
          have := hp.1 d hd he
          rw [he] at this
          exact hs this

/-- Names of slicers outside of the package tell module and class. -/
theorem slicer_inj (pkg : Str) (d e : Def) (hd : ¬ pkg <+: d.mod ++ ['.']) (he : ¬ pkg <+: e.mod ++ ['.']) (h1 : '.' ∉ d.name) (h2 : '.' ∉ e.name) (h : slicerName pkg d = slicerName pkg e) :
    d.mod = e.mod ∧ d.name = e.name := by
  unfold slicerName at h
  rw [if_neg (fun h => hd (List.isPrefixOf_iff_prefix.mp h)), if_neg (fun h => he (List.isPrefixOf_iff_prefix.mp h))] at h
  have h3 := congrArg List.reverse h
  simp only [List.reverse_append, List.reverse_cons, List.reverse_nil, List.nil_append, List.append_assoc, List.singleton_append] at h3
  have h4 : d.name.reverse = e.name.reverse ∧ d.mod.reverse = e.mod.reverse := by
    have key : ∀ (a b x y : Str), '.' ∉ a → '.' ∉ b → a ++ '.' :: x = b ++ '.' :: y → a = b ∧ x = y := by
      intro a
      induction a with
      | nil =>
        intro b x y _ hb h
        cases b with
        | nil => simpa using h
        | cons c b =>
          simp only [List.nil_append, List.cons_append, List.cons.injEq] at h
          exact absurd (by rw [h.1]; exact List.mem_cons_self) hb
      | cons c a ih =>
        intro b x y ha hb h
        cases b with
        | nil =>
          simp only [List.nil_append, List.cons_append, List.cons.injEq] at h
          exact absurd (by rw [h.1]; exact List.mem_cons_self) ha
        | cons c' b =>
          simp only [List.cons_append, List.cons.injEq] at h
          obtain ⟨h5, h6⟩ := ih b x y (fun hx => ha (List.mem_cons_of_mem _ hx)) (fun hx => hb (List.mem_cons_of_mem _ hx)) h.2
          exact ⟨by rw [h.1, h5], h6⟩
    exact key _ _ _ _ (by simpa using h1) (by simpa using h2) h3
  exact ⟨by simpa using congrArg List.reverse h4.2, by simpa using congrArg List.reverse h4.1⟩

/-- What the code wants: the base classes are not in the registries. -/
def BaseLeftOut : Prop := ∀ ds reg cls, addMaps ds [] = .ok reg → ⟨"rubin_sim.maf.maps.base_map".toList, "BaseMap".toList, cls⟩ ∈ ds → reg.lookup "BaseMap".toList = none

theorem base_map_false : ¬ BaseLeftOut := by
  intro h
  have := h [⟨"rubin_sim.maf.maps.base_map".toList, "BaseMap".toList, 0⟩] [("BaseMap".toList, 0)] 0 (by rfl) (by simp)
  revert this
  decide

/-! ## C264 -/

theorem foldl_cols (cls : ℕ) (c : Str) : ∀ (l : List (Str × Option Str)) (st : List (Str × ℕ) × List (Str × Option Str)),
    (l.foldl (fun st cu => (put st.1 cu.1 cls, put st.2 cu.1 cu.2)) st).1.lookup c = (if c ∈ l.map Prod.fst then some cls else st.1.lookup c) ∧
    (l.foldl (fun st cu => (put st.1 cu.1 cls, put st.2 cu.1 cu.2)) st).2.lookup c = (((l.filter (fun cu => decide (cu.1 = c))).getLast?).map Prod.snd).or (st.2.lookup c) := by
  intro l
  induction l using List.reverseRecOn with
  | nil => intro st; simp
  | append_singleton l p ih =>
    intro st
    obtain ⟨h1, h2⟩ := ih st
    rw [List.foldl_append, List.foldl_cons, List.foldl_nil]
    simp only [lookup_put, h1, h2, List.filter_append, List.map_append, List.mem_append, List.map_cons, List.map_nil, List.mem_singleton]
    by_cases hp : c = p.1
    · simp [hp]
    · have h3 : (c ∈ l.map Prod.fst ∨ c = p.1) ↔ c ∈ l.map Prod.fst := or_iff_left hp
      simp only [h3, if_neg hp, true_and]
      simp [Ne.symm hp]

/-- **C264.** The source of a column is the last stacker of the registry that gives a unit for it, its unit is the last one given. -/
theorem colInfo_spec (known : List (Str × Option Str)) (reg : List Stacker) (c : Str) :
    (colInfo known reg).1.lookup c = ((reg.filter (fun s => decide (c ∈ (s.cols.zip s.units).map Prod.fst))).getLast?).map Stacker.cls ∧
    (colInfo known reg).2.lookup c = ((((reg.flatMap (fun s => s.cols.zip s.units)).filter (fun cu => decide (cu.1 = c))).getLast?).map Prod.snd).or (known.lookup c) := by
  unfold colInfo
  induction reg using List.reverseRecOn with
  | nil => simp
  | append_singleton reg s ih =>
    rw [List.foldl_append, List.foldl_cons, List.foldl_nil]
    obtain ⟨h1, h2⟩ := foldl_cols s.cls c (s.cols.zip s.units) (reg.foldl (fun st s => (s.cols.zip s.units).foldl (fun st cu => (put st.1 cu.1 s.cls, put st.2 cu.1 cu.2)) st) ([], known))
    rw [h1, h2, ih.1, ih.2, List.filter_append, List.flatMap_append, List.filter_append]
    constructor
    · by_cases hc : c ∈ (s.cols.zip s.units).map Prod.fst
      · rw [if_pos hc]
        simp only [List.filter_cons, List.filter_nil, decide_eq_true hc, if_true]
        simp
      · rw [if_neg hc]
        simp only [List.filter_cons, List.filter_nil, decide_eq_false hc, Bool.false_eq_true, if_false, List.append_nil]
    · simp only [List.flatMap_cons, List.flatMap_nil, List.append_nil, List.getLast?_append]
      cases ((s.cols.zip s.units).filter (fun cu => decide (cu.1 = c))).getLast? <;> simp

theorem mem_zip_fst {A B : Type} (l : List A) (m : List B) (h : l.length ≤ m.length) : (l.zip m).map Prod.fst = l := List.map_fst_zip h

/-- With units for all columns each column of a stacker has a stacker that adds it. -/
theorem source_partial (known : List (Str × Option Str)) (reg : List Stacker) (hu : ∀ s ∈ reg, s.cols.length ≤ s.units.length) (c : Str) :
    ((∃ s ∈ reg, c ∈ s.cols) ↔ ((colInfo known reg).1.lookup c).isSome) ∧ ∀ k, (colInfo known reg).1.lookup c = some k → ∃ s ∈ reg, s.cls = k ∧ c ∈ s.cols := by
  have hspec := (colInfo_spec known reg c).1
  constructor
  · rw [hspec]
    constructor
    · rintro ⟨s, hs, hc⟩
      have hne : reg.filter (fun s => decide (c ∈ (s.cols.zip s.units).map Prod.fst)) ≠ [] := by
        intro h
        have := List.filter_eq_nil_iff.mp h s hs
        rw [mem_zip_fst _ _ (hu s hs)] at this
        simp [hc] at this
      rw [List.getLast?_eq_some_getLast hne]
      rfl
    · intro h
      obtain ⟨k, hk⟩ := Option.isSome_iff_exists.mp h
      rw [Option.map_eq_some_iff] at hk
      obtain ⟨s, hs, _⟩ := hk
      have hm := List.mem_filter.mp (List.mem_of_getLast? hs)
      rw [decide_eq_true_eq, mem_zip_fst _ _ (hu s hm.1)] at hm
      exact ⟨s, hm.1, hm.2⟩
  · intro k hk
    rw [hspec, Option.map_eq_some_iff] at hk
    obtain ⟨s, hs, hsk⟩ := hk
    have hm := List.mem_filter.mp (List.mem_of_getLast? hs)
    rw [decide_eq_true_eq, mem_zip_fst _ _ (hu s hm.1)] at hm
    exact ⟨s, hm.1, hsk, hm.2⟩

/-- What metrics rely on: each column that a stacker adds has a stacker as its source. -/
def SourceKnown : Prop := ∀ (known : List (Str × Option Str)) (reg : List Stacker), ∀ s ∈ reg, ∀ c ∈ s.cols, ((colInfo known reg).1.lookup c).isSome

/-- `Dcr2Stacker` has four columns and two units. -/
theorem source_false : ¬ SourceKnown := by
  intro h
  have := h [] [⟨0, ["dcr_var".toList, "ra_dcr_var".toList, "dec_dcr_var".toList, "ra_dec_dcr_cov".toList], [some "arcsec".toList, some "arcsec".toList]⟩] _ List.mem_cons_self "dec_dcr_var".toList (by simp)
  revert this
  decide

theorem addCol_inv (source : Str → Option ℕ) (r : ColReg) (S : Str → Prop) (col : Option Str)
    (h : ∀ c, (c ∈ r.cols ↔ S c) ∧ (c ∈ r.db ↔ S c ∧ source c = none) ∧ ∀ s, r.stackers.lookup c = some s ↔ S c ∧ source c = some s) :
    ∀ c, (c ∈ (addCol source r col).cols ↔ S c ∨ col = some c) ∧ (c ∈ (addCol source r col).db ↔ (S c ∨ col = some c) ∧ source c = none) ∧
      ∀ s, (addCol source r col).stackers.lookup c = some s ↔ (S c ∨ col = some c) ∧ source c = some s := by
  intro c
  cases col with
  | none => simpa [addCol] using h c
  | some d =>
    obtain ⟨h1, h2, h3⟩ := h c
    have hcols : c ∈ (if d ∈ r.cols then r.cols else d :: r.cols) ↔ S c ∨ d = c := by
      by_cases hd : d ∈ r.cols
      · rw [if_pos hd, h1]
        constructor
        · exact Or.inl
        · rintro (hs | rfl)
          · exact hs
          · exact (h d).1.mp hd
      · rw [if_neg hd, List.mem_cons, h1]
        constructor
        · rintro (rfl | hs)
          · exact Or.inr rfl
          · exact Or.inl hs
        · rintro (hs | rfl)
          · exact Or.inr hs
          · exact Or.inl rfl
    cases hsrc : source d with
    | none =>
      simp only [addCol, hsrc, Option.some.injEq]
      refine ⟨hcols, ?_, ?_⟩
      · by_cases hd : d ∈ r.db
        · rw [if_pos hd, h2]
          constructor
          · exact fun hx => ⟨Or.inl hx.1, hx.2⟩
          · rintro ⟨hs | rfl, hn⟩
            · exact ⟨hs, hn⟩
            · exact (h d).2.1.mp hd
        · rw [if_neg hd, List.mem_cons, h2]
          constructor
          · rintro (rfl | hx)
            · exact ⟨Or.inr rfl, hsrc⟩
            · exact ⟨Or.inl hx.1, hx.2⟩
          · rintro ⟨hs | rfl, hn⟩
            · exact Or.inr ⟨hs, hn⟩
            · exact Or.inl rfl
      · intro s
        rw [h3]
        constructor
        · exact fun hx => ⟨Or.inl hx.1, hx.2⟩
        · rintro ⟨hs | rfl, hn⟩
          · exact ⟨hs, hn⟩
          · rw [hsrc] at hn; cases hn
    | some k =>
      simp only [addCol, hsrc, Option.some.injEq]
      refine ⟨hcols, ?_, ?_⟩
      · rw [h2]
        constructor
        · exact fun hx => ⟨Or.inl hx.1, hx.2⟩
        · rintro ⟨hs | rfl, hn⟩
          · exact ⟨hs, hn⟩
          · rw [hsrc] at hn; cases hn
      · intro s
        by_cases hd : (r.stackers.lookup d).isSome = true
        · rw [if_pos hd, h3]
          constructor
          · exact fun hx => ⟨Or.inl hx.1, hx.2⟩
          · rintro ⟨hs | rfl, hn⟩
            · exact ⟨hs, hn⟩
            · obtain ⟨k', hk'⟩ := Option.isSome_iff_exists.mp hd
              exact ⟨(((h d).2.2 k').mp hk').1, hn⟩
        · rw [if_neg hd, lookup_put]
          by_cases hc : c = d
          · rw [if_pos hc]
            subst hc
            rw [hsrc]
            simp
          · rw [if_neg hc, h3]
            simp [Ne.symm hc]

theorem addCols_inv (source : Str → Option ℕ) : ∀ (cols : List (Option Str)) (r : ColReg) (S : Str → Prop),
    (∀ c, (c ∈ r.cols ↔ S c) ∧ (c ∈ r.db ↔ S c ∧ source c = none) ∧ ∀ s, r.stackers.lookup c = some s ↔ S c ∧ source c = some s) →
    ∀ c, (c ∈ (cols.foldl (addCol source) r).cols ↔ S c ∨ some c ∈ cols) ∧ (c ∈ (cols.foldl (addCol source) r).db ↔ (S c ∨ some c ∈ cols) ∧ source c = none) ∧
      ∀ s, (cols.foldl (addCol source) r).stackers.lookup c = some s ↔ (S c ∨ some c ∈ cols) ∧ source c = some s := by
  intro cols
  induction cols with
  | nil => intro r S h; simpa using h
  | cons d cols ih =>
    intro r S h c
    have := ih (addCol source r d) (fun c => S c ∨ d = some c) (addCol_inv source r S d h) c
    rw [List.foldl_cons]
    simpa only [List.mem_cons, or_assoc, eq_comm (a := some c)] using this

/-- What was added after the last clearing. -/
def Added (ops : List RegOp) (c : Str) : Prop := ∃ pre cols post, ops = pre ++ .add cols :: post ∧ .clear ∉ post ∧ some c ∈ cols

/-- The registry holds exactly the columns added since it was cleared, each with its source. -/
theorem reg_spec (source : Str → Option ℕ) (ops : List RegOp) (c : Str) :
    (c ∈ (ops.foldl (regStep source) .empty).cols ↔ Added ops c) ∧ (c ∈ (ops.foldl (regStep source) .empty).db ↔ Added ops c ∧ source c = none) ∧
      ∀ s, (ops.foldl (regStep source) .empty).stackers.lookup c = some s ↔ Added ops c ∧ source c = some s := by
  induction ops using List.reverseRecOn generalizing c with
  | nil =>
    have : ¬ Added [] c := by
      rintro ⟨pre, cols, post, h, _⟩
      simp at h
    simp [ColReg.empty, this]
  | append_singleton ops op ih =>
    rw [List.foldl_append, List.foldl_cons, List.foldl_nil]
    cases op with
    | clear =>
      have : ¬ Added (ops ++ [RegOp.clear]) c := by
        rintro ⟨pre, cols, post, h, hc, _⟩
        rcases List.eq_nil_or_concat post with rfl | ⟨p, x, rfl⟩
        · have := congrArg List.getLast? h
          simp at this
        · have := congrArg List.getLast? h
          simp only [List.concat_eq_append] at this hc
          rw [List.getLast?_concat, show pre ++ RegOp.add cols :: (p ++ [x]) = (pre ++ RegOp.add cols :: p) ++ [x] by simp, List.getLast?_concat] at this
          simp only [Option.some.injEq] at this
          exact hc (by rw [← this]; simp)
      simp [regStep, ColReg.empty, this]
    | add cols =>
      have hA : Added (ops ++ [RegOp.add cols]) c ↔ Added ops c ∨ some c ∈ cols := by
        constructor
        · rintro ⟨pre, cols', post, h, hc, hm⟩
          rcases List.eq_nil_or_concat post with rfl | ⟨p, x, rfl⟩
          · have := congrArg List.getLast? h
            simp only [List.getLast?_concat, Option.some.injEq, RegOp.add.injEq] at this
            rw [this]
            exact Or.inr hm
          · left
            simp only [List.concat_eq_append] at h hc
            rw [show pre ++ RegOp.add cols' :: (p ++ [x]) = (pre ++ RegOp.add cols' :: p) ++ [x] by simp] at h
            exact ⟨pre, cols', p, (List.append_inj' h rfl).1, fun hx => hc (List.mem_append_left _ hx), hm⟩
        · rintro (⟨pre, cols', post, h, hc, hm⟩ | h)
          · exact ⟨pre, cols', post ++ [RegOp.add cols], by rw [h]; simp, by simpa using hc, hm⟩
          · exact ⟨ops, cols, [], rfl, by simp, h⟩
      have := addCols_inv source cols _ (Added ops) (fun c => ih c) c
      rw [hA]
      exact this

/-! ## C265 -/

theorem join_inj (a b x y : Str) (ha : ',' ∉ a) (hb : ',' ∉ b) (h : a ++ ',' :: x = b ++ ',' :: y) : a = b ∧ x = y := by
  induction a generalizing b with
  | nil =>
    cases b with
    | nil => simpa using h
    | cons c b =>
      simp only [List.nil_append, List.cons_append, List.cons.injEq] at h
      exact absurd (by rw [h.1]; exact List.mem_cons_self) hb
  | cons c a ih =>
    cases b with
    | nil =>
      simp only [List.nil_append, List.cons_append, List.cons.injEq] at h
      exact absurd (by rw [h.1]; exact List.mem_cons_self) ha
    | cons c' b =>
      simp only [List.cons_append, List.cons.injEq] at h
      obtain ⟨h5, h6⟩ := ih b (fun hx => ha (List.mem_cons_of_mem _ hx)) (fun hx => hb (List.mem_cons_of_mem _ hx)) h.2
      exact ⟨by rw [h.1, h5], h6⟩

theorem inter_cons (a b : Str) (l : List Str) : [',', ' '].intercalate (a :: b :: l) = a ++ ',' :: ' ' :: [',', ' '].intercalate (b :: l) := by
  simp [List.intercalate, List.intersperse]

theorem intercalate_inj : ∀ (l m : List Str), l ≠ [] → m ≠ [] → (∀ s ∈ l, ',' ∉ s) → (∀ s ∈ m, ',' ∉ s) → [',', ' '].intercalate l = [',', ' '].intercalate m → l = m := by
  intro l
  induction l with
  | nil => intro m h; exact absurd rfl h
  | cons a l ih =>
    intro m _ hm0 hl hm h
    cases m with
    | nil => exact absurd rfl hm0
    | cons b m =>
      have ha := hl a List.mem_cons_self
      have hb := hm b List.mem_cons_self
      cases l with
      | nil =>
        cases m with
        | nil => simpa [List.intercalate] using h
        | cons d m =>
          rw [inter_cons] at h
          have : ',' ∈ a := by
            have h1 : [',', ' '].intercalate [a] = a := by simp [List.intercalate]
            rw [h1] at h
            rw [h]
            simp
          exact absurd this ha
      | cons c l =>
        cases m with
        | nil =>
          rw [inter_cons] at h
          have : ',' ∈ b := by
            have h1 : [',', ' '].intercalate [b] = b := by simp [List.intercalate]
            rw [h1] at h
            rw [← h]
            simp
          exact absurd this hb
        | cons d m =>
          rw [inter_cons, inter_cons] at h
          obtain ⟨h1, h2⟩ := join_inj a b _ _ ha hb h
          rw [List.cons.injEq] at h2
          rw [h1, ih (d :: m) (by simp) (by simp) (fun s hs => hl s (List.mem_cons_of_mem _ hs)) (fun s hs => hm s (List.mem_cons_of_mem _ hs)) h2.2]

/-- **C265.** A given name is used; otherwise metrics of one class with columns of different names have different names. -/
theorem name_spec (given : Option Str) (cls : Str) (cols cols' : List (Option Str)) :
    (∀ n, given = some n → metricName given cls cols = n) ∧
    (cols ≠ [] → cols' ≠ [] → (∀ c ∈ cols, ∀ s, c = some s → ',' ∉ s) → (∀ c ∈ cols', ∀ s, c = some s → ',' ∉ s) → metricName none cls cols = metricName none cls cols' →
      cols.map colStr = cols'.map colStr) := by
  constructor
  · rintro n rfl
    rfl
  · intro h1 h2 h3 h4 h
    unfold metricName at h
    have hcomma : ∀ cs : List (Option Str), (∀ c ∈ cs, ∀ s, c = some s → ',' ∉ s) → ∀ s ∈ cs.map colStr, ',' ∉ s := by
      intro cs hcs s hs
      obtain ⟨c, hc, rfl⟩ := List.mem_map.mp hs
      cases c with
      | none => decide
      | some s => exact hcs _ hc s rfl
    exact intercalate_inj _ _ (by simpa using h1) (by simpa using h2) (hcomma cols h3) (hcomma cols' h4) (List.append_cancel_left h)

/-- A class with `Metric` at the end of its name, and nowhere before. -/
theorem removeFirst_suffix (pat pre : Str) (h : ∀ a b c, pre = a ++ b → b ≠ [] → b ++ pat ≠ pat ++ c) : removeFirst pat (pre ++ pat) = pre := by
  induction pre with
  | nil =>
    cases pat with
    | nil => rfl
    | cons c t =>
      have : (c :: t).isPrefixOf (c :: t) = true := List.isPrefixOf_iff_prefix.mpr (List.prefix_refl _)
      simp only [List.nil_append, removeFirst, this, if_true, List.drop_length]
  | cons c pre ih =>
    have : pat.isPrefixOf (c :: (pre ++ pat)) = false := by
      rw [Bool.eq_false_iff]
      intro hp
      obtain ⟨x, hx⟩ := List.isPrefixOf_iff_prefix.mp hp
      exact h [] (c :: pre) x rfl (by simp) hx.symm
    simp only [List.cons_append, removeFirst, this, Bool.false_eq_true, if_false]
    rw [ih (fun a b d hb hne => h (c :: a) b d (by rw [hb]; rfl) hne)]

/-- What the comment says: names of metrics are unique. -/
def Unique : Prop := ∀ (cls cls' : Str) (cols cols' : List (Option Str)), metricName none cls cols = metricName none cls' cols' → cls = cls' ∧ cols = cols'

theorem unique_false : ¬ Unique := by
  intro h
  have := (h "CountMetric".toList "MetricCount".toList [some "night".toList] [some "night".toList] (by decide)).1
  revert this
  decide

/-- The type: given, object with functions, float otherwise. -/
theorem dtype_spec (given : Option Str) (funcs : List (Str × Str)) :
    metricDtype given funcs = given.getD (if funcs = [] then "float".toList else "object".toList) := by
  unfold metricDtype
  cases given with
  | some t => rfl
  | none => cases funcs <;> simp

/-- Units: given, or those of the columns with a space between them. -/
theorem units_spec (info : List (Str × ℕ) × List (Str × Option Str)) (given : Option Str) (cols : List (Option Str)) (us : List Str) (hu : cols.map (getUnits info) = us.map some) :
    metricUnits info given cols = .ok (given.getD (if (∀ u ∈ us, ∀ c ∈ u, c = ' ') then [] else [' '].intercalate us)) := by
  unfold metricUnits
  cases given with
  | some u => rfl
  | none =>
    have hj : joinUnits (cols.map (getUnits info)) = .ok ([' '].intercalate us) := by
      rw [hu]
      unfold joinUnits
      cases us with
      | nil => rfl
      | cons u us =>
        simp only [List.map_cons]
        rw [if_neg (by simp)]
        simp [Function.comp_def]
    have hall : ∀ us : List Str, ([' '].intercalate us).all (fun c => c = ' ') = true ↔ ∀ u ∈ us, ∀ c ∈ u, c = ' ' := by
      intro us
      induction us with
      | nil => simp
      | cons u us ih =>
        cases us with
        | nil => simp [List.intercalate]
        | cons w us =>
          have e : [' '].intercalate (u :: w :: us) = u ++ ' ' :: [' '].intercalate (w :: us) := by simp [List.intercalate, List.intersperse]
          rw [e, List.all_append, List.all_cons, Bool.and_eq_true, Bool.and_eq_true, ih, List.forall_mem_cons (a := u)]
          simp
    rw [hj]
    simp only [Option.getD_none]
    by_cases hb : ∀ u ∈ us, ∀ c ∈ u, c = ' '
    · rw [if_pos ((hall us).mpr hb), if_pos hb]
    · rw [if_neg (fun h => hb ((hall us).mp h)), if_neg hb]

/-- A metric without a column, and a metric of a column that is not known, have no units. -/
theorem units_unknown (known : List (Str × Option Str)) (reg : List Stacker) (c : Str) (h : (colInfo known reg).2.lookup c = none) :
    metricUnits (colInfo known reg) none [none] = .ok [] ∧ metricUnits (colInfo known reg) none [some c] = .ok [] := by
  constructor
  · rw [units_spec _ _ _ [[]] (by simp [getUnits])]
    simp
  · rw [units_spec _ _ _ [[]] (by simp [getUnits, h])]
    simp

/-- What users rely on: a metric of any column can be made. -/
def UnitsMade : Prop := ∀ (known : List (Str × Option Str)) (reg : List Stacker) (cols : List (Option Str)), ∃ u, metricUnits (colInfo known reg) none cols = .ok u

/-- `ObservationStartDatetime64Stacker` has the unit `None`. -/
theorem units_false : ¬ UnitsMade := by
  intro h
  obtain ⟨u, hu⟩ := h [] [⟨0, ["observationStartDatetime64".toList], [none]⟩] [some "observationStartDatetime64".toList]
  revert hu
  simp [metricUnits, joinUnits, colInfo, getUnits, put]

/-! ## C266 -/

theorem removeFirst_prefix (pat t : Str) (h : pat ≠ []) : removeFirst pat (pat ++ t) = t := by
  cases pat with
  | nil => exact absurd rfl h
  | cons c p =>
    have : (c :: p).isPrefixOf (c :: (p ++ t)) = true := List.isPrefixOf_iff_prefix.mpr ⟨t, rfl⟩
    simp only [List.cons_append, removeFirst, this, if_true]
    exact List.drop_left (l₁ := c :: p)

theorem reduces_inv (k : Str) : ∀ (ms : List (ℕ × Str)), (∀ m ∈ ms, "reduce".toList <+: m.2 → "reduce_".toList <+: m.2) → (ms.map Prod.snd).Nodup →
    (∀ f, (reduces ms).1.lookup k = some f ↔ f ∈ ms.map Prod.snd ∧ f = "reduce_".toList ++ k) ∧
    (∀ i, (reduces ms).2.lookup k = some i ↔ (i, "reduce_".toList ++ k) ∈ ms) := by
  intro ms
  unfold reduces
  induction ms using List.reverseRecOn with
  | nil =>
    intro _ _
    constructor
    · intro f
      constructor
      · intro h
        cases h
      · intro h
        cases h.1
    · intro i
      constructor
      · intro h
        cases h
      · intro h
        cases h
  | append_singleton ms m ih =>
    intro h hn
    rw [List.map_append, List.nodup_append] at hn
    obtain ⟨ih1, ih2⟩ := ih (fun x hx => h x (List.mem_append_left _ hx)) hn.1
    rw [List.foldl_append, List.foldl_cons, List.foldl_nil]
    generalize ms.foldl (fun st m =>
      if "reduce".toList.isPrefixOf m.2 then
        let k := removeFirst "reduce_".toList m.2
        (put st.1 k m.2, put st.2 k m.1)
      else st) ([], []) = st at ih1 ih2
    have hpre : "reduce".toList <+: "reduce_".toList ++ k := ⟨'_' :: k, rfl⟩
    by_cases hr : "reduce".toList.isPrefixOf m.2 = true
    · rw [if_pos hr]
      obtain ⟨t, ht⟩ := h m (by simp) (List.isPrefixOf_iff_prefix.mp hr)
      have hk : removeFirst "reduce_".toList m.2 = t := by rw [← ht]; exact removeFirst_prefix _ _ (by decide)
      simp only [hk, lookup_put]
      by_cases hkt : k = t
      · subst hkt
        have hnot : "reduce_".toList ++ k ∉ ms.map Prod.snd := by
          intro hin
          exact hn.2.2 _ hin m.2 (by simp) ht
        constructor
        · intro f
          rw [if_pos rfl, Option.some.injEq, List.map_append, List.mem_append]
          constructor
          · rintro rfl
            exact ⟨Or.inr (by simp), ht.symm⟩
          · rintro ⟨_, hf⟩
            rw [hf, ht]
        · intro i
          rw [if_pos rfl, Option.some.injEq, List.mem_append, List.mem_singleton, ht]
          constructor
          · rintro rfl
            exact Or.inr rfl
          · rintro (hin | hin)
            · exact absurd (by rw [ht]; exact List.mem_map.mpr ⟨_, hin, rfl⟩) hnot
            · rw [← hin]
      · have hne : "reduce_".toList ++ k ≠ m.2 := by
          rw [← ht]
          intro hx
          exact hkt (List.append_cancel_left hx)
        constructor
        · intro f
          rw [if_neg hkt, ih1, List.map_append, List.mem_append]
          constructor
          · exact fun hx => ⟨Or.inl hx.1, hx.2⟩
          · rintro ⟨hx | hx, hf⟩
            · exact ⟨hx, hf⟩
            · simp only [List.map_cons, List.map_nil, List.mem_singleton] at hx
              exact absurd (by rw [← hx, hf]) hne
        · intro i
          rw [if_neg hkt, ih2, List.mem_append, List.mem_singleton]
          constructor
          · exact Or.inl
          · rintro (hx | hx)
            · exact hx
            · exact absurd (by rw [← hx]) hne
    · rw [if_neg hr]
      have hne : "reduce_".toList ++ k ≠ m.2 := by
        intro hx
        rw [← hx] at hr
        exact hr (List.isPrefixOf_iff_prefix.mpr hpre)
      constructor
      · intro f
        rw [ih1, List.map_append, List.mem_append]
        constructor
        · exact fun hx => ⟨Or.inl hx.1, hx.2⟩
        · rintro ⟨hx | hx, hf⟩
          · exact ⟨hx, hf⟩
          · simp only [List.map_cons, List.map_nil, List.mem_singleton] at hx
            exact absurd (by rw [← hx, hf]) hne
      · intro i
        rw [ih2, List.mem_append, List.mem_singleton]
        constructor
        · exact Or.inl
        · rintro (hx | hx)
          · exact hx
          · exact absurd (by rw [← hx]) hne

/-- **C266.** If the functions have names with `reduce_` in front, each is found under the rest of its name and has its place in the list of methods. -/
theorem reduces_partial (ms : List (ℕ × Str)) (h : ∀ m ∈ ms, "reduce".toList <+: m.2 → "reduce_".toList <+: m.2) (hn : (ms.map Prod.snd).Nodup) (k : Str) :
    (∀ f, (reduces ms).1.lookup k = some f ↔ f ∈ ms.map Prod.snd ∧ f = "reduce_".toList ++ k) ∧
    (∀ i, (reduces ms).2.lookup k = some i ↔ (i, "reduce_".toList ++ k) ∈ ms) := reduces_inv k ms h hn

/-- What users rely on: each function with `reduce` in front is used. -/
def AllReduced : Prop := ∀ ms : List (ℕ × Str), (ms.map Prod.snd).Nodup → ∀ m ∈ ms, "reduce".toList <+: m.2 → ∃ k, (reduces ms).1.lookup k = some m.2

theorem all_reduced_false : ¬ AllReduced := by
  intro h
  obtain ⟨k, hk⟩ := h [(0, "reduce_reducezlim".toList), (1, "reducezlim".toList)] (by decide) (0, "reduce_reducezlim".toList) (by simp) (by decide)
  have e : (reduces [(0, "reduce_reducezlim".toList), (1, "reducezlim".toList)]).1 = [("reducezlim".toList, "reducezlim".toList)] := by decide
  rw [e, List.lookup_cons] at hk
  cases hb : k == "reducezlim".toList with
  | true =>
    rw [hb] at hk
    have hk' : (some "reducezlim".toList : Option Str) = some "reduce_reducezlim".toList := hk
    revert hk'
    decide
  | false => rw [hb] at hk; cases hk

theorem removeAll_none (pat : Str) (t : Str) (n : ℕ) (h : ¬ pat <:+: t) : removeAll pat n t = t := by
  induction n generalizing t with
  | zero => rfl
  | succ n ih =>
    cases t with
    | nil => rfl
    | cons c t =>
      have h1 : pat.isPrefixOf (c :: t) = false := by
        rw [Bool.eq_false_iff]
        intro hp
        exact h (List.isPrefixOf_iff_prefix.mp hp).isInfix
      simp only [removeAll, h1, Bool.false_eq_true, if_false]
      rw [ih t (fun hi => h (hi.trans (List.suffix_cons c t).isInfix))]

/-- The bundle of a function has the name of the metric and of the function, and the place of the function. -/
theorem reduced_partial (ms : List (ℕ × Str)) (h : ∀ m ∈ ms, "reduce".toList <+: m.2 → "reduce_".toList <+: m.2) (hn : (ms.map Prod.snd).Nodup) (metric k : Str) (hk : ¬ "reduce_".toList <:+: k)
    (i : ℕ) (hi : (i, "reduce_".toList ++ k) ∈ ms) : reducedName metric k = metric ++ '_' :: k ∧ reducedOrder (reduces ms).2 k = .ok i := by
  unfold reducedName reducedOrder
  rw [removeAll_none _ _ _ hk, ((reduces_inv k ms h hn).2 i).mpr hi]
  simp

/-- What `reduce_all` needs: each function has a place. -/
def AllOrdered : Prop := ∀ (ms : List (ℕ × Str)) (k f : Str), (ms.map Prod.snd).Nodup → (reduces ms).1.lookup k = some f → ∃ i, reducedOrder (reduces ms).2 k = .ok i

theorem all_ordered_false : ¬ AllOrdered := by
  intro h
  obtain ⟨i, hi⟩ := h [(0, "reduce_n_reduce_m".toList)] "n_reduce_m".toList "reduce_n_reduce_m".toList (by decide) (by decide)
  have e : reducedOrder (reduces [(0, "reduce_n_reduce_m".toList)]).2 "n_reduce_m".toList = .error "KeyError" := by decide
  rw [e] at hi
  cases hi

/-! ## C267 -/

theorem squeeze_double (a b : List Char) : Names.squeeze (a ++ '_' :: '_' :: b) = Names.squeeze (a ++ '_' :: b) := by
  induction a with
  | nil => simp [Names.squeeze]
  | cons c a ih =>
    rw [List.cons_append, List.cons_append, Names.squeeze_cons, Names.squeeze_cons, ih]
    cases a <;> simp

/-- **C267.** The name of the file that is read is that of the file that was written. -/
theorem file_partial (b : Bun) (k : Str) (hk : ¬ "reduce".toList <:+: k) : b.root (readName b.metric ("reduce_".toList ++ k)) = b.root (reducedName b.metric k) := by
  have h1 : removeAll "reduce".toList ("reduce_".toList ++ k).length ("reduce_".toList ++ k) = '_' :: k := by
    have h2 : ¬ "reduce".toList <:+: '_' :: k := by
      intro hx
      rcases List.infix_cons_iff.mp hx with hp | hp
      · obtain ⟨x, hx⟩ := hp
        simp at hx
      · exact hk hp
    have e : ("reduce_".toList ++ k) = 'r' :: ("educe_".toList ++ k) := rfl
    have hl : ("reduce_".toList ++ k).length = (6 + k.length) + 1 := by simp; omega
    have hp : "reduce".toList.isPrefixOf ('r' :: ("educe_".toList ++ k)) = true := List.isPrefixOf_iff_prefix.mpr ⟨'_' :: k, rfl⟩
    rw [hl, e]
    simp only [removeAll, hp, if_true]
    exact removeAll_none _ _ _ h2
  have h3 : ¬ "reduce_".toList <:+: k := by
    rintro ⟨x, y, hxy⟩
    exact hk ⟨x, '_' :: y, by rw [← hxy]; simp⟩
  unfold readName reducedName Bun.root fileRoot
  rw [h1, removeAll_none _ _ _ h3, Names.sanitize_eq, Names.sanitize_eq]
  simp only [List.flatMap_append, List.flatMap_cons, List.flatMap_nil, List.append_nil]
  have e : Names.image '_' = ['_'] := by decide
  rw [e]
  simp only [List.append_assoc, List.singleton_append, List.cons_append, List.nil_append]
  have := squeeze_double (List.flatMap Names.image b.run ++ '_' :: List.flatMap Names.image b.metric)
    (List.flatMap Names.image k ++ '_' :: (List.flatMap Names.image b.info ++ '_' :: List.flatMap Names.image b.slicer))
  simpa only [List.append_assoc, List.cons_append] using this

/-- `SNNSNMetric` has functions without the underscore: other names. -/
theorem file_false : ¬ ∀ (b : Bun) (f : Str), "reduce".toList <+: f → b.root (readName b.metric f) = b.root (reducedName b.metric (removeFirst "reduce_".toList f)) := by
  intro h
  have := h ⟨"SN".toList, "run".toList, "all".toList, "HEAL".toList, []⟩ "reducezlim".toList (by decide)
  revert this
  decide

theorem readReduced_ok {D : Type} (files : Str → Option D) (b : Bun) : ∀ fs, (readReduced files b fs = .ok () ↔ ∀ f ∈ fs, files (b.root (readName b.metric f)) = none) ∧
    (readReduced files b fs = .ok () ∨ readReduced files b fs = .error "AttributeError") := by
  intro fs
  induction fs with
  | nil => simp [readReduced]
  | cons f fs ih =>
    unfold readReduced
    cases hf : files (b.root (readName b.metric f)) with
    | none => simpa [hf] using ih
    | some d => simp [hf]

/-- Reading succeeds exactly if no file of a reduced metric is there, and gives the other files that are there. -/
theorem readAll_spec {D : Type} (files : Str → Option D) : ∀ (bs : List (Str × Bun)),
    (∃ r, readAll files bs = .ok r) ↔ ∀ kb ∈ bs, ∀ f ∈ kb.2.funcs, files (kb.2.root (readName kb.2.metric f)) = none := by
  intro bs
  induction bs with
  | nil => simp [readAll]
  | cons kb bs ih =>
    obtain ⟨k, b⟩ := kb
    obtain ⟨h1, h2⟩ := readReduced_ok files b b.funcs
    rw [List.forall_mem_cons, ← ih, ← h1]
    simp only [readAll]
    rcases h2 with h2 | h2
    · simp only [h2, true_and]
      cases readAll files bs with
      | error e => simp
      | ok r =>
        cases files (b.root b.metric) <;> simp
    · simp [h2]

theorem readAll_values {D : Type} (files : Str → Option D) : ∀ (bs : List (Str × Bun)) (r : List (Str × D)), readAll files bs = .ok r →
    r = bs.filterMap (fun kb => (files (kb.2.root kb.2.metric)).map (fun d => (kb.1, d))) := by
  intro bs
  induction bs with
  | nil =>
    intro r h
    simp only [readAll, Except.ok.injEq] at h
    simp [← h]
  | cons kb bs ih =>
    obtain ⟨k, b⟩ := kb
    intro r h
    unfold readAll at h
    cases h1 : readReduced files b b.funcs with
    | error e => rw [h1] at h; cases h
    | ok u =>
      rw [h1] at h
      simp only at h
      cases h2 : readAll files bs with
      | error e => rw [h2] at h; cases h
      | ok r' =>
        rw [h2] at h
        simp only at h
        cases h3 : files (b.root b.metric) with
        | none =>
          rw [h3] at h
          simp only [Except.ok.injEq] at h
          rw [← h, ih r' h2]
          simp [h3]
        | some d =>
          rw [h3] at h
          simp only [Except.ok.injEq] at h
          rw [← h, ih r' h2]
          simp [h3]

/-- What users rely on: with all files of a group there, reading succeeds. -/
def ReadBack : Prop := ∀ (D : Type) (files : Str → Option D) (bs : List (Str × Bun)),
  (∀ kb ∈ bs, (files (kb.2.root kb.2.metric)).isSome ∧ ∀ k, "reduce_".toList ++ k ∈ kb.2.funcs → (files (kb.2.root (reducedName kb.2.metric k))).isSome) → ∃ r, readAll files bs = .ok r

theorem read_back_false : ¬ ReadBack := by
  intro h
  obtain ⟨r, hr⟩ := h ℕ (fun _ => some 1) [("m".toList, ⟨"SN".toList, "run".toList, "all".toList, "HEAL".toList, ["reduce_season".toList]⟩)] (by simp)
  have := (readAll_spec (fun _ => some 1) _).mp ⟨r, hr⟩ _ List.mem_cons_self "reduce_season".toList List.mem_cons_self
  cases this

theorem lookup_tau (pre : Str) : ∀ (taus : List Str) (n : ℕ) (order : List (Str × ℕ)) (k : Str), taus.Nodup →
    ((taus.zipIdx n).foldl (fun o t => put o (pre ++ t.1) t.2) order).lookup k =
      match (taus.zipIdx n).find? (fun t => decide (pre ++ t.1 = k)) with
      | some t => some t.2
      | none => order.lookup k := by
  intro taus
  induction taus with
  | nil => intro n order k _; simp
  | cons t taus ih =>
    intro n order k hn
    rw [List.nodup_cons] at hn
    rw [List.zipIdx_cons, List.foldl_cons, ih (n + 1) _ k hn.2]
    by_cases ht : pre ++ t = k
    · rw [List.find?_cons_of_pos (by simpa using ht)]
      have : (taus.zipIdx (n + 1)).find? (fun t => decide (pre ++ t.1 = k)) = none := by
        rw [List.find?_eq_none]
        rintro ⟨x, i⟩ hx
        rw [decide_eq_true_eq]
        intro he
        have : x = t := List.append_cancel_left (he.trans ht.symm)
        subst this
        exact hn.1 (List.fst_mem_of_mem_zipIdx hx)
      rw [this]
      simp [lookup_put, ht]
    · rw [List.find?_cons_of_neg (by simpa using ht)]
      cases (taus.zipIdx (n + 1)).find? (fun t => decide (pre ++ t.1 = k)) with
      | some x => rfl
      | none => simp [lookup_put, Ne.symm ht]

/-- The functions of the intervals of visits are in the order of the time scales. -/
theorem visit_order (order : List (Str × ℕ)) (taus : List Str) (hn : taus.Nodup) (i : ℕ) (t : Str) (ht : taus[i]? = some t) : (tauOrder preVisit order taus).lookup ("Tau_".toList ++ t) = some i := by
  unfold tauOrder
  rw [lookup_tau preVisit taus 0 order _ hn]
  have hp : preVisit = "Tau_".toList := by decide
  rw [hp]
  have hx : (taus.zipIdx 0).find? (fun x => decide ("Tau_".toList ++ x.1 = "Tau_".toList ++ t)) = some (t, i) := by
    obtain ⟨hi, hti⟩ := List.getElem?_eq_some_iff.mp ht
    have hmem : (t, i) ∈ taus.zipIdx 0 := by
      rw [List.mk_mem_zipIdx_iff_getElem?]
      exact ht
    cases hf : (taus.zipIdx 0).find? (fun x => decide ("Tau_".toList ++ x.1 = "Tau_".toList ++ t)) with
    | none =>
      have := List.find?_eq_none.mp hf _ hmem
      simp at this
    | some y =>
      obtain ⟨x, j⟩ := y
      have h1 := List.find?_some hf
      rw [decide_eq_true_eq] at h1
      have h2 : x = t := List.append_cancel_left h1
      subst h2
      have h3 := List.mem_of_find?_eq_some hf
      rw [List.mk_mem_zipIdx_iff_getElem?] at h3
      have : j = i := (List.getElem?_inj hi hn).mp (ht.trans h3.symm) |>.symm
      rw [this]
  rw [hx]

/-- What users see: the functions of the gaps between seasons in the order of the time scales. -/
def GapsOrdered : Prop := ∀ (ms : List (ℕ × Str)) (taus : List Str), taus.Nodup → (∀ t ∈ taus, "reduce_Tau_".toList ++ t ∈ ms.map Prod.snd) → (ms.map Prod.snd).Nodup →
  ∀ i t, taus[i]? = some t → (tauOrder preGaps (reduces ms).2 taus).lookup ("Tau_".toList ++ t) = some i

/-- The time scales of the default, in the alphabetical order of the methods. -/
theorem gaps_order_false : ¬ GapsOrdered := by
  intro h
  have := h [(0, "reduce_Tau_100_0".toList), (1, "reduce_Tau_10_0".toList), (2, "reduce_Tau_232_5".toList), (3, "reduce_Tau_25_0".toList), (4, "reduce_Tau_365_0".toList), (5, "reduce_Tau_55_0".toList)]
    ["10_0".toList, "25_0".toList, "55_0".toList, "100_0".toList, "232_5".toList, "365_0".toList] (by decide) (by decide) (by decide) 0 "10_0".toList rfl
  revert this
  decide

/-! ## Examples -/

example : fullName "rubin_sim.maf.metrics".toList ⟨"rubin_sim.maf.maf_contrib.kne_metrics".toList, "KNePopMetric".toList, 0⟩ = "rubin_sim.maf.maf_contrib.KNePopMetric".toList := by decide

example : metricName none "MeanMetric".toList [some "airmass".toList, some "night".toList] = "Mean airmass, night".toList := by decide

example : metricName none "MeanMetric".toList [none] = "Mean None".toList := by decide

example : (reduces [(3, "reduce_bandg".toList), (4, "reduce_bandu".toList), (7, "run".toList)]).2 = [("bandg".toList, 3), ("bandu".toList, 4)] := by decide

example : metricUnits ([], [("fiveSigmaDepth".toList, some "mag".toList)]) none [some "band".toList, some "fiveSigmaDepth".toList] = .ok " mag".toList := by rfl

end Verif.BaseM
