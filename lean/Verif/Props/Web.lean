import Verif.Model.Web
import Mathlib.Tactic.Tauto

/-!
# Pages of results: C290–C293
-/

namespace Verif.Web

theorem sortStr_perm (l : List Str) : (sortStr l).Perm l := List.perm_insertionSort _ _

theorem mem_uniq (l : List Str) (x : Str) : x ∈ uniq l ↔ x ∈ l := by
  unfold uniq
  rw [(sortStr_perm _).mem_iff, List.mem_dedup]

theorem uniq_nodup (l : List Str) : (uniq l).Nodup := (sortStr_perm _).nodup_iff.mpr (List.nodup_dedup _)

/-! ## C290: selection of metrics -/

/-- What is selected: each metric whose group and subgroup or whose id is asked for, once. -/
theorem select_spec (srt : List Metric → List Metric) (hs : ∀ l, (srt l).Perm l) (metrics : List Metric) (hid : (metrics.map Metric.id).Nodup) (gs : List Str) (ids : List ℕ) :
    (select srt metrics gs ids).Nodup ∧ ∀ m, m ∈ select srt metrics gs ids ↔
      m ∈ metrics ∧ ((∃ g ∈ gs, m.group = firstPart g ∧ m.subgroup = unplus (lastPart g)) ∨ m.id ∈ ids) := by
  have hnd : metrics.Nodup := List.Nodup.of_map _ hid
  have hinj : ∀ m ∈ metrics, ∀ n ∈ metrics, m.id = n.id → m = n := fun m hm n hn h => List.inj_on_of_nodup_map hid hm hn h
  unfold select
  dsimp only
  refine ⟨(hs _).nodup_iff.mpr (hnd.filter _), fun m => ?_⟩
  rw [(hs _).mem_iff, List.mem_filter, decide_eq_true_eq, List.mem_append, List.mem_flatMap]
  constructor
  · rintro ⟨hm, ⟨g, hg, h⟩ | h⟩
    · obtain ⟨n, hn, hmn⟩ := List.mem_map.mp h
      unfold inSubgroup at hn
      simp only [List.mem_filter, decide_eq_true_eq] at hn
      have := hinj n hn.1.1 m hm hmn
      subst this
      exact ⟨hm, Or.inl ⟨g, hg, hn.1.2, hn.2⟩⟩
    · exact ⟨hm, Or.inr h⟩
  · rintro ⟨hm, ⟨g, hg, h1, h2⟩ | h⟩
    · refine ⟨hm, Or.inl ⟨g, hg, List.mem_map.mpr ⟨m, ?_, rfl⟩⟩⟩
      unfold inSubgroup
      simp only [List.mem_filter, decide_eq_true_eq]
      exact ⟨⟨hm, h1⟩, h2⟩
    · exact ⟨hm, Or.inr h⟩

theorem takeWhile_stop (a b : Str) (h : '_' ∉ a) : (a ++ '_' :: b).takeWhile (fun c => c != '_') = a := by
  induction a with
  | nil => rfl
  | cons c a ih =>
    simp only [List.mem_cons, not_or] at h
    rw [List.cons_append, List.takeWhile_cons_of_pos (by simpa using fun e => h.1 e.symm), ih h.2]

/-- The form gives back its group and subgroup if they have no underscore and the subgroup no plus. -/
theorem form_partial (g s : Str) (hg : '_' ∉ g) (hs : '_' ∉ s) (hp : '+' ∉ s) : firstPart (formValue g s) = g ∧ unplus (lastPart (formValue g s)) = s := by
  constructor
  · exact takeWhile_stop g _ hg
  · have hl : lastPart (formValue g s) = s := by
      unfold lastPart formValue
      rw [show (g ++ '_' :: '_' :: s).reverse = s.reverse ++ '_' :: ('_' :: g.reverse) by simp, takeWhile_stop _ _ (by simpa using hs), List.reverse_reverse]
    rw [hl]
    unfold unplus
    conv_rhs => rw [← List.map_id s]
    apply List.map_congr_left
    intro c hc
    rw [if_neg]
    · rfl
    · rintro rfl; exact hp hc

/-- The form gives back its group and subgroup. -/
def FormClaim : Prop := ∀ g s : Str, firstPart (formValue g s) = g ∧ unplus (lastPart (formValue g s)) = s

/-- False for names with an underscore. -/
theorem form_false : ¬ FormClaim := by
  intro h
  have := (h "SRD".toList "a_b".toList).2
  revert this
  decide

/-- With the form for one group and subgroup exactly its metrics are selected. -/
theorem select_form (srt : List Metric → List Metric) (hs : ∀ l, (srt l).Perm l) (metrics : List Metric) (hid : (metrics.map Metric.id).Nodup) (g s : Str)
    (hg : '_' ∉ g) (hs' : '_' ∉ s) (hp : '+' ∉ s) (m : Metric) : m ∈ select srt metrics [formValue g s] [] ↔ m ∈ metrics ∧ m.group = g ∧ m.subgroup = s := by
  obtain ⟨h1, h2⟩ := form_partial g s hg hs' hp
  rw [(select_spec srt hs metrics hid _ _).2]
  simp [h1, h2]

example : select id [⟨1, "A".toList, "x".toList, []⟩, ⟨2, "A".toList, "y".toList, []⟩, ⟨3, "B".toList, "x".toList, []⟩] ["A__x".toList] [3] =
    [⟨1, "A".toList, "x".toList, []⟩, ⟨3, "B".toList, "x".toList, []⟩] := by decide

/-- The table of groups has each group and subgroup of the metrics, once. -/
theorem groups_spec (metrics : List Metric) : ((groups metrics).map Prod.fst).Nodup ∧ ∀ g s,
    (∃ l, (g, l) ∈ groups metrics ∧ l.Nodup ∧ s ∈ l) ↔ ∃ m ∈ metrics, m.group = g ∧ m.subgroup = s := by
  constructor
  · unfold groups
    rw [List.map_map]
    have : (Prod.fst ∘ fun g => (g, uniq ((metrics.filter (fun m => decide (m.group = g))).map Metric.subgroup))) = id := rfl
    rw [this, List.map_id]
    exact uniq_nodup _
  · intro g s
    unfold groups
    constructor
    · rintro ⟨l, hl, _, hs⟩
      obtain ⟨g', hg', he⟩ := List.mem_map.mp hl
      simp only [Prod.mk.injEq] at he
      obtain ⟨rfl, rfl⟩ := he
      rw [mem_uniq] at hs
      obtain ⟨m, hm, rfl⟩ := List.mem_map.mp hs
      rw [List.mem_filter, decide_eq_true_eq] at hm
      exact ⟨m, hm.1, hm.2, rfl⟩
    · rintro ⟨m, hm, rfl, rfl⟩
      refine ⟨_, List.mem_map.mpr ⟨m.group, (mem_uniq _ _).mpr (List.mem_map.mpr ⟨m, hm, rfl⟩), rfl⟩, uniq_nodup _, ?_⟩
      rw [mem_uniq]
      exact List.mem_map.mpr ⟨m, List.mem_filter.mpr ⟨hm, by simp⟩, rfl⟩

/-- Old and new names of a type of plot find each other. -/
def TypesClaim : Prop := ∀ t u : Str, u ∈ plotTypes t → t ∈ plotTypes u

/-- False: the new name is in lower case in the old one. -/
theorem types_false : ¬ TypesClaim := by
  intro h
  have := h "SkyMap".toList "skymapPlot".toList (by decide)
  revert this
  decide

/-- `unique_metric_names` keeps the order of the metrics, as documented. -/
def OrderClaim : Prop := ∀ metrics : List Metric, (uniqueNames metrics).Sublist (metrics.map Metric.base)

theorem order_false : ¬ OrderClaim := by
  intro h
  have := h [⟨1, [], [], ['b']⟩, ⟨2, [], [], ['a']⟩]
  revert this
  decide

/-- The columns of a blank row are those of a row. -/
def InfoClaim : Prop := ∀ withSlicer, infoKeys true withSlicer = infoKeys false withSlicer

theorem info_false : ¬ InfoClaim ∧ ∀ b, (infoKeys true b).length = (infoKeys false b).length := by
  constructor
  · intro h
    have := h true
    revert this
    decide
  · intro b; cases b <;> rfl

/-! ## C291: names of statistics, dictionaries of statistics and plots -/

/-- The names in the order of the page: all of them, once; first those with a place, in the order of places, then the others
in their own. -/
theorem orderNames_spec (order names : List Str) : (orderNames order names).Perm names ∧
    ∃ a b, orderNames order names = a ++ b ∧ a.Sublist order ∧ b.Sublist names ∧ (names.Nodup → ∀ x ∈ b, x ∉ order) := by
  induction order generalizing names with
  | nil => exact ⟨List.Perm.refl _, [], names, rfl, List.Sublist.refl _, List.Sublist.refl _, fun _ => by simp⟩
  | cons o order ih =>
    unfold orderNames
    split_ifs with h
    · obtain ⟨hp, a, b, he, ha, hb, hn⟩ := ih (names.erase o)
      refine ⟨(hp.cons o).trans (List.perm_cons_erase h).symm, o :: a, b, by rw [he]; rfl, ha.cons_cons o, hb.trans List.erase_sublist, fun hnd x hx => ?_⟩
      have h1 := hn (hnd.erase o) x hx
      have h2 : x ≠ o := by
        rintro rfl
        exact (List.Nodup.not_mem_erase hnd) (hb.subset hx)
      simp [h1, h2]
    · obtain ⟨hp, a, b, he, ha, hb, hn⟩ := ih names
      refine ⟨hp, a, b, he, ha.cons o, hb, fun hnd x hx => ?_⟩
      have h1 := hn hnd x hx
      have h2 : x ≠ o := by rintro rfl; exact h (hb.subset hx)
      simp [h1, h2]

example : orderNames ["Median".toList, "Mean".toList, "Max".toList] ["Area".toList, "Max".toList, "Median".toList] = ["Median".toList, "Max".toList, "Area".toList] := by decide

/-- Each statistic is in the dictionary once, with the first of its values. -/
theorem statDict_spec {V : Type} (order : List Str) (stats : List (Str × V)) : ((statDict order stats).map Prod.fst).Nodup ∧
    ∀ n v, (n, some v) ∈ statDict order stats ↔ ∃ a b, stats = a ++ (n, v) :: b ∧ ∀ e ∈ a, e.1 ≠ n := by
  have hp := (orderNames_spec order (uniq (stats.map Prod.fst))).1
  have hmem : ∀ n, n ∈ orderNames order (uniq (stats.map Prod.fst)) ↔ n ∈ stats.map Prod.fst := fun n => by rw [hp.mem_iff, mem_uniq]
  constructor
  · unfold statDict
    rw [List.map_map]
    have : (Prod.fst ∘ fun n => (n, ((stats.filter (fun s => decide (s.1 = n))).map Prod.snd).head?)) = id := rfl
    rw [this, List.map_id]
    exact hp.nodup_iff.mpr (uniq_nodup _)
  · intro n v
    have key : ((stats.filter (fun s => decide (s.1 = n))).map Prod.snd).head? = some v ↔ ∃ a b, stats = a ++ (n, v) :: b ∧ ∀ e ∈ a, e.1 ≠ n := by
      clear hp hmem
      induction stats with
      | nil => simp
      | cons e stats ih =>
        obtain ⟨m, w⟩ := e
        by_cases hm : m = n
        · subst hm
          rw [List.filter_cons_of_pos (by simp)]
          simp only [List.map_cons, List.head?_cons, Option.some.injEq]
          constructor
          · rintro rfl; exact ⟨[], stats, rfl, by simp⟩
          · rintro ⟨a, b, he, ha⟩
            cases a with
            | nil => simp at he; exact he.1
            | cons x a => simp at he; exact absurd (he.1 ▸ rfl) (ha x (by simp))
        · rw [List.filter_cons_of_neg (by simpa using hm), ih]
          constructor
          · rintro ⟨a, b, he, ha⟩
            exact ⟨(m, w) :: a, b, by rw [he]; rfl, by simpa [hm] using ha⟩
          · rintro ⟨a, b, he, ha⟩
            cases a with
            | nil => simp at he; exact absurd he.1.1 hm
            | cons x a => simp at he; exact ⟨a, b, he.2, fun e h => ha e (by simp [h])⟩
    unfold statDict
    rw [List.mem_map]
    constructor
    · rintro ⟨n', _, he⟩
      simp only [Prod.mk.injEq] at he
      obtain ⟨rfl, he⟩ := he
      exact key.mp he
    · intro h
      refine ⟨n, ?_, by rw [key.mpr h]⟩
      rw [hmem]
      obtain ⟨a, b, rfl, _⟩ := h
      simp

theorem flatMap_filter_perm (plots : List Plot) (types : List Str) (hn : types.Nodup) (hm : ∀ p ∈ plots, p.type ∈ types) :
    (types.flatMap (fun t => plots.filter (fun p => decide (p.type = t)))).Perm plots := by
  induction plots with
  | nil => simp
  | cons p plots ih =>
    have ih := ih (fun q hq => hm q (by simp [hq]))
    obtain ⟨a, b, he⟩ := List.append_of_mem (hm p (by simp))
    subst he
    have hpa : p.type ∉ a := fun h => by
      have := (List.nodup_append.mp hn).2.2 _ h _ (List.mem_cons_self)
      exact this rfl
    have hpb : p.type ∉ b := (List.nodup_cons.mp (List.nodup_append.mp hn).2.1).1
    have hcong : ∀ l : List Str, p.type ∉ l → l.flatMap (fun t => (p :: plots).filter (fun p => decide (p.type = t))) = l.flatMap (fun t => plots.filter (fun p => decide (p.type = t))) := by
      intro l hl
      apply List.flatMap_congr
      intro t ht
      rw [List.filter_cons_of_neg]
      simp only [decide_eq_true_eq]
      rintro rfl
      exact hl ht
    rw [List.flatMap_append, List.flatMap_cons] at ih ⊢
    rw [hcong a hpa, hcong b hpb, List.filter_cons_of_pos (by simp), List.cons_append]
    exact List.perm_middle.trans (ih.cons p)

/-- The dictionary has every plot once, at its type. -/
theorem plotDict_spec (order : List Str) (plots : List Plot) : ((plotDict order plots).flatMap Prod.snd).Perm plots ∧ ((plotDict order plots).map Prod.fst).Nodup ∧
    ∀ e ∈ plotDict order plots, e.2 ≠ [] ∧ ∀ p ∈ e.2, p.type = e.1 := by
  have hp := (orderNames_spec order (uniq (plots.map Plot.type))).1
  have hmem : ∀ n, n ∈ orderNames order (uniq (plots.map Plot.type)) ↔ n ∈ plots.map Plot.type := fun n => by rw [hp.mem_iff, mem_uniq]
  have hnd := hp.nodup_iff.mpr (uniq_nodup (plots.map Plot.type))
  unfold plotDict
  refine ⟨?_, ?_, ?_⟩
  · rw [List.flatMap_map]
    exact flatMap_filter_perm plots _ hnd (fun p hp => (hmem _).mpr (List.mem_map.mpr ⟨p, hp, rfl⟩))
  · rw [List.map_map]
    have : (Prod.fst ∘ fun t => (t, plots.filter (fun p => decide (p.type = t)))) = id := rfl
    rw [this, List.map_id]
    exact hnd
  · intro e he
    obtain ⟨t, ht, rfl⟩ := List.mem_map.mp he
    obtain ⟨p, hp, rfl⟩ := List.mem_map.mp ((hmem t).mp ht)
    refine ⟨List.ne_nil_of_mem (List.mem_filter.mpr ⟨hp, by simp⟩), fun q hq => by simpa using (List.mem_filter.mp hq).2⟩

theorem fixed_erase (l : List Str) (hn : l.Nodup) : ∀ x, x ∈ fixedFractions.foldl (fun fr x => if x ∈ fr then fr.erase x else fr) l ↔ x ∈ l ∧ x ∉ fixedFractions := by
  have step : ∀ (ys l : List Str), l.Nodup → (ys.foldl (fun fr x => if x ∈ fr then fr.erase x else fr) l).Nodup ∧
      ∀ x, x ∈ ys.foldl (fun fr x => if x ∈ fr then fr.erase x else fr) l ↔ x ∈ l ∧ x ∉ ys := by
    intro ys
    induction ys with
    | nil => intro l hl; exact ⟨hl, by simp⟩
    | cons y ys ih =>
      intro l hl
      have hl' : (if y ∈ l then l.erase y else l).Nodup := by split_ifs; exacts [hl.erase y, hl]
      have hx : ∀ x, x ∈ (if y ∈ l then l.erase y else l) ↔ x ∈ l ∧ x ≠ y := by
        intro x
        split_ifs with h
        · rw [hl.mem_erase_iff]; tauto
        · exact ⟨fun hx => ⟨hx, fun e => h (e ▸ hx)⟩, fun hx => hx.1⟩
      obtain ⟨i1, i2⟩ := ih _ hl'
      refine ⟨i1, fun x => ?_⟩
      rw [List.foldl_cons, i2, hx]
      simp only [List.mem_cons, not_or]
      tauto
  exact (step fixedFractions l hn).2

theorem fixed_erase_nodup (l : List Str) (hn : l.Nodup) : (fixedFractions.foldl (fun fr x => if x ∈ fr then fr.erase x else fr) l).Nodup := by
  have step : ∀ (ys l : List Str), l.Nodup → (ys.foldl (fun fr x => if x ∈ fr then fr.erase x else fr) l).Nodup := by
    intro ys
    induction ys with
    | nil => intro l hl; exact hl
    | cons y ys ih =>
      intro l hl
      rw [List.foldl_cons]
      apply ih
      split_ifs
      exacts [hl.erase y, hl]
  exact step _ _ hn

/-- The places of statistics are all different, and every table fraction that occurs has a place: the three special ones around
the others. -/
theorem statOrder_spec (base names : List Str) (hb : base.Nodup) (hbt : ∀ x ∈ base, ¬ "TableFraction".toList <+: x) : (statOrder base names).Nodup ∧
    (∀ x ∈ names, "TableFraction".toList <+: x → x ∈ statOrder base names) ∧ base <+: statOrder base names := by
  have hpre : ∀ x ∈ fixedFractions, "TableFraction".toList <+: x := by
    have : ∀ x ∈ fixedFractions, "TableFraction".toList.isPrefixOf x = true := by decide
    intro x hx; exact List.isPrefixOf_iff_prefix.mp (this x hx)
  have hnd : ((uniq names).filter (fun x => "TableFraction".toList.isPrefixOf x)).Nodup := (uniq_nodup _).filter _
  have hmem : ∀ x, x ∈ (uniq names).filter (fun x => "TableFraction".toList.isPrefixOf x) ↔ x ∈ names ∧ "TableFraction".toList <+: x := by
    intro x
    rw [List.mem_filter, mem_uniq, List.isPrefixOf_iff_prefix]
  unfold statOrder
  dsimp only
  split_ifs with h
  · refine ⟨hb, fun x hx ht => ?_, List.prefix_rfl⟩
    have := (hmem x).mpr ⟨hx, ht⟩
    rw [h] at this
    simp at this
  · have h1 := fixed_erase _ hnd
    have h2 := fixed_erase_nodup _ hnd
    generalize fixedFractions.foldl (fun fr x => if x ∈ fr then fr.erase x else fr) ((uniq names).filter (fun x => "TableFraction".toList.isPrefixOf x)) = rest at h1 h2
    have hs : ∀ x, x ∈ sortStr rest ↔ (x ∈ names ∧ "TableFraction".toList <+: x) ∧ x ∉ fixedFractions := fun x => by
      rw [(sortStr_perm _).mem_iff, h1, hmem]
    have hsn : (sortStr rest).Nodup := (sortStr_perm _).nodup_iff.mpr h2
    generalize sortStr rest = S at hs hsn
    have hfix : fixedFractions = ["TableFraction 0 == P".toList, "TableFraction 1 == P".toList, "TableFraction 1 < P".toList] := rfl
    have hfn : fixedFractions.Nodup := by decide
    rw [hfix] at hs hpre hfn
    generalize "TableFraction 0 == P".toList = A at *
    generalize "TableFraction 1 == P".toList = B at *
    generalize "TableFraction 1 < P".toList = C at *
    generalize "TableFraction".toList = T at *
    refine ⟨?_, ?_, List.prefix_append _ _⟩
    · have hS : ∀ x ∈ S, x ≠ A ∧ x ≠ B ∧ x ≠ C := fun x hx => by
        have := ((hs x).mp hx).2
        simpa using this
      simp only [List.nodup_cons, List.mem_cons, List.not_mem_nil, or_false, not_or, List.nodup_nil, and_true, not_false_eq_true] at hfn
      rw [List.nodup_append]
      refine ⟨hb, ?_, ?_⟩
      · rw [List.nodup_cons]
        refine ⟨?_, ?_⟩
        · simp only [List.mem_append, List.mem_cons, List.not_mem_nil, or_false, not_or]
          exact ⟨fun hA => (hS A hA).1 rfl, hfn.1.1, hfn.1.2⟩
        · rw [List.nodup_append]
          refine ⟨hsn, by simpa using hfn.2, ?_⟩
          intro x hx y hy hxy
          subst hxy
          simp only [List.mem_cons, List.not_mem_nil, or_false] at hy
          rcases hy with rfl | rfl
          · exact (hS _ hx).2.1 rfl
          · exact (hS _ hx).2.2 rfl
      · intro x hx y hy hxy
        subst hxy
        apply hbt x hx
        simp only [List.mem_cons, List.mem_append, List.not_mem_nil, or_false] at hy
        rcases hy with rfl | hy | rfl | rfl
        · exact hpre _ (by simp)
        · exact ((hs x).mp hy).1.2
        · exact hpre _ (by simp)
        · exact hpre _ (by simp)
    · intro x hx ht
      by_cases hf : x ∈ [A, B, C]
      · simp only [List.mem_cons, List.not_mem_nil, or_false] at hf
        simp only [List.mem_append, List.mem_cons, List.not_mem_nil, or_false]
        tauto
      · simp only [List.mem_append, List.mem_cons]
        exact Or.inr (Or.inr (Or.inl ((hs x).mpr ⟨⟨hx, ht⟩, hf⟩)))

/-! ## C292: layout of the maps -/

theorem pad_length (l : List Slot) : (pad l).length % 3 = 0 ∧ (pad l).length < l.length + 3 := by
  unfold pad
  rw [List.length_append, List.length_replicate]
  omega

/-- Rows of three, always. -/
theorem order_rows (metrics : List ℕ) (plots : List Plot) : (orderPlots metrics plots).length % 3 = 0 := by
  unfold orderPlots
  split_ifs
  · rfl
  · exact (pad_length _).1
  · exact (pad_length _).1

/-- Filters with one plot at most: the plot of each filter is at its place in `ugrizy`, with a gap if there is none. -/
theorem order_place (metrics : List ℕ) (plots : List Plot) (hne : plots ≠ []) (h : ∀ f ∈ filters, (plots.filter (hasFilter f)).length ≤ 1) (i : ℕ) (f : Char)
    (hf : filters[i]? = some f) : (orderPlots metrics plots)[i]? = some (match plots.filter (hasFilter f) with | [] => .blank | p :: _ => .plots [p]) := by
  have hany : ¬ (filters.any (fun f => decide (1 < (plots.filter (hasFilter f)).length)) = true) := by
    rw [List.any_eq_true]
    rintro ⟨g, hg, h1⟩
    have := h g hg
    simp only [decide_eq_true_eq] at h1
    omega
  have hi : i < filters.length := (List.getElem?_eq_some_iff.mp hf).1
  unfold orderPlots
  rw [if_neg hne, if_neg hany]
  unfold pad
  rw [List.append_assoc, List.getElem?_append_left (by simpa using hi), List.getElem?_map, hf, Option.map_some]
  congr 1
  have := h f (List.mem_of_getElem? hf)
  unfold slotOf
  match hp : plots.filter (hasFilter f), this with
  | [], _ => rfl
  | [p], _ => rfl
  | p :: q :: l, h => simp at h

/-- The plots on the page. -/
def shown (l : List Slot) : List Plot := l.flatMap (fun s => match s with | .blank => [] | .plots l => l)

theorem mem_shown_pad (l : List Slot) (p : Plot) : p ∈ shown (pad l) ↔ p ∈ shown l := by
  unfold pad shown
  rw [List.flatMap_append, List.mem_append]
  constructor
  · rintro (h | h)
    · exact h
    · obtain ⟨s, hs, hp⟩ := List.mem_flatMap.mp h
      rw [(List.mem_replicate.mp hs).2] at hp
      simp at hp
  · exact Or.inl

/-- Every plot is on the page and nothing else, if its metric is known. -/
theorem order_all (metrics : List ℕ) (plots : List Plot) (hm : ∀ p ∈ plots, p.metric ∈ metrics) (p : Plot) : p ∈ shown (orderPlots metrics plots) ↔ p ∈ plots := by
  unfold orderPlots
  split_ifs with h1 h2
  · subst h1; simp [shown]
  · rw [mem_shown_pad]
    unfold shown
    rw [List.mem_flatMap]
    constructor
    · rintro ⟨s, hs, hp⟩
      obtain ⟨m, _, rfl⟩ := List.mem_map.mp hs
      exact (List.mem_filter.mp hp).1
    · intro hp
      exact ⟨_, List.mem_map.mpr ⟨p.metric, List.mem_filter.mpr ⟨hm p hp, by simpa using ⟨p, hp, rfl⟩⟩, rfl⟩, List.mem_filter.mpr ⟨hp, by simp⟩⟩
  · rw [mem_shown_pad]
    unfold shown
    rw [List.flatMap_append, List.mem_append, List.mem_flatMap, List.mem_flatMap]
    constructor
    · rintro (⟨s, hs, hp⟩ | ⟨s, hs, hp⟩)
      · obtain ⟨f, _, rfl⟩ := List.mem_map.mp hs
        unfold slotOf at hp
        split_ifs at hp with h3
        · simp at hp
        · exact (List.mem_filter.mp hp).1
      · obtain ⟨q, hq, rfl⟩ := List.mem_map.mp hs
        simp only [List.mem_singleton] at hp
        subst hp
        exact (List.mem_filter.mp hq).1
    · intro hp
      by_cases hf : filters.any (fun f => hasFilter f p) = true
      · left
        obtain ⟨f, hf1, hf2⟩ := List.any_eq_true.mp hf
        refine ⟨_, List.mem_map.mpr ⟨f, hf1, rfl⟩, ?_⟩
        have hmem : p ∈ plots.filter (hasFilter f) := List.mem_filter.mpr ⟨hp, hf2⟩
        unfold slotOf
        rw [if_neg (List.ne_nil_of_mem hmem)]
        exact hmem
      · right
        exact ⟨_, List.mem_map.mpr ⟨p, List.mem_filter.mpr ⟨hp, by simpa using hf⟩, rfl⟩, by simp⟩

/-- With two plots in a filter: one place for each metric, in the order of display. -/
theorem order_many (metrics : List ℕ) (plots : List Plot) (f : Char) (hf : f ∈ filters) (h : 1 < (plots.filter (hasFilter f)).length) :
    ∃ k, orderPlots metrics plots = (metrics.filter (fun m => decide (m ∈ plots.map Plot.metric))).map (fun m => Slot.plots (plots.filter (fun p => decide (p.metric = m)))) ++
      List.replicate k .blank ∧ k < 3 := by
  have hne : plots ≠ [] := by rintro rfl; simp at h
  unfold orderPlots
  rw [if_neg hne, if_pos (List.any_eq_true.mpr ⟨f, hf, by simpa using h⟩)]
  exact ⟨_, rfl, Nat.mod_lt _ (by omega)⟩

theorem shown_pad (l : List Slot) : shown (pad l) = shown l := by
  unfold pad shown
  rw [List.flatMap_append]
  have : ∀ k, (List.replicate k Slot.blank).flatMap (fun s => match s with | .blank => [] | .plots l => l) = ([] : List Plot) := by
    intro k
    induction k with
    | zero => rfl
    | succ k ih => rw [List.replicate_succ, List.flatMap_cons, ih]; rfl
  rw [this, List.append_nil]

theorem shown_slotOf (l : List Plot) : (match slotOf l with | .blank => [] | .plots l => l) = l := by
  unfold slotOf
  split_ifs with h
  · exact h.symm
  · rfl

/-- Each plot is shown once, if it matches one filter at most. -/
theorem once_partial (metrics : List ℕ) (plots : List Plot) (hp : plots.Nodup) (hm : metrics.Nodup)
    (h1 : ∀ p ∈ plots, ∀ f ∈ filters, ∀ g ∈ filters, hasFilter f p = true → hasFilter g p = true → f = g) : (shown (orderPlots metrics plots)).Nodup := by
  unfold orderPlots
  split_ifs with h h2
  · simp [shown]
  · rw [shown_pad]
    unfold shown
    rw [List.flatMap_map]
    refine List.nodup_flatMap.mpr ⟨fun m _ => hp.filter _, ?_⟩
    refine List.Pairwise.imp ?_ (hm.filter _)
    intro m n hmn p hpm hpn
    apply hmn
    have a := (List.mem_filter.mp hpm).2
    have b := (List.mem_filter.mp hpn).2
    simp only [decide_eq_true_eq] at a b
    rw [← a, ← b]
  · rw [shown_pad]
    unfold shown
    rw [List.flatMap_append, List.flatMap_map, List.flatMap_map]
    simp only [shown_slotOf]
    rw [List.nodup_append]
    refine ⟨?_, ?_, ?_⟩
    · refine List.nodup_flatMap.mpr ⟨fun f _ => hp.filter _, ?_⟩
      have hf : filters.Nodup := by decide
      refine List.Pairwise.imp_of_mem ?_ hf
      intro f g hf hg hfg p hpf hpg
      exact hfg (h1 p (List.mem_filter.mp hpf).1 f hf g hg (List.mem_filter.mp hpf).2 (List.mem_filter.mp hpg).2)
    · rw [List.flatMap_singleton']
      exact hp.filter _
    · intro p h3 q h4 he
      subst he
      rw [List.flatMap_singleton'] at h4
      obtain ⟨f, hf, hpf⟩ := List.mem_flatMap.mp h3
      have a := (List.mem_filter.mp h4).2
      have : filters.any (fun f => hasFilter f p) = true := List.any_eq_true.mpr ⟨f, hf, (List.mem_filter.mp hpf).2⟩
      rw [this] at a
      simp at a

/-- Each plot once. -/
def OnceClaim : Prop := ∀ (metrics : List ℕ) (plots : List Plot), plots.Nodup → metrics.Nodup → (shown (orderPlots metrics plots)).Nodup

/-- False for a plot of two filters: it is at both places. -/
theorem once_false : ¬ OnceClaim := by
  intro h
  have := h [1] [⟨"SkyMap".toList, "run_Pairs_u_g_HEAL_SkyMap.pdf".toList, 1⟩] (by decide) (by decide)
  revert this
  decide

example : orderPlots [1, 2] [⟨[], "a_r_HEAL".toList, 1⟩, ⟨[], "joint".toList, 2⟩] =
    [.blank, .blank, .plots [⟨[], "a_r_HEAL".toList, 1⟩], .blank, .blank, .blank, .plots [⟨[], "joint".toList, 2⟩], .blank, .blank] := by decide

/-! ## C293: tracking of runs -/

section
variable {R : Type}

/-- A request: the reader of directories at that time, the database and the id. -/
structure Request (R : Type) where
  read : Str → Option Str → R
  disk : Disk
  id : ℕ

/-- States after a list of requests, from a start. -/
def after (s : Tracking R) : List (Request R) → Tracking R
  | [] => s
  | q :: qs => after (getRun q.read s q.disk q.id).1 qs

/-- What a reader gives for a row. -/
def page (read : Str → Option Str → R) (r : ℕ × Str × Str) : R := read r.2.1 (if r.2.2 = "NULL".toList then none else some r.2.2)

/-- Databases with the same time have the same rows. -/
def Stamped (ds : List Disk) : Prop := ∀ d ∈ ds, ∀ e ∈ ds, d.stamp = e.stamp → d.rows = e.rows

/-- Consistency of a state with a set of databases and readers: its rows are those of its time, and each page is from one of the readers and the row of
its id. -/
def Good (ds : List Disk) (reads : List (Str → Option Str → R)) (s : Tracking R) : Prop :=
  (∃ d ∈ ds, d.stamp = s.stamp ∧ d.rows = s.rows) ∧ ∀ id r, s.pages.lookup id = some r → ∃ row, s.rows.find? (fun r => r.1 == id) = some row ∧ ∃ read ∈ reads, r = page read row

theorem check_good (ds : List Disk) (reads : List (Str → Option Str → R)) (s : Tracking R) (h : Good ds reads s) (d : Disk) (hd : d ∈ ds) (hst : Stamped ds) :
    Good ds reads (checkDb s d) ∧ (checkDb s d).rows = d.rows ∧ (checkDb s d).stamp = d.stamp := by
  unfold checkDb
  split_ifs with hne
  · refine ⟨⟨⟨d, hd, by simp [initAt], rfl⟩, ?_⟩, rfl, by simp [initAt]⟩
    intro id r hr
    simp [initAt] at hr
  · have heq : d.stamp = s.stamp := by simpa using hne
    obtain ⟨⟨e, he, h1, h2⟩, h3⟩ := h
    refine ⟨⟨⟨e, he, h1, h2⟩, h3⟩, ?_, heq.symm⟩
    rw [← h2]
    exact hst e he d hd (by rw [h1, heq])

theorem getRun_good (ds : List Disk) (reads : List (Str → Option Str → R)) (s : Tracking R) (h : Good ds reads s) (q : Request R) (hd : q.disk ∈ ds) (hr : q.read ∈ reads) (hst : Stamped ds) :
    Good ds reads (getRun q.read s q.disk q.id).1 ∧
    ((getRun q.read s q.disk q.id).2 = .error "IndexError" ↔ q.disk.rows.find? (fun r => r.1 == q.id) = none) ∧
    (∀ row, q.disk.rows.find? (fun r => r.1 == q.id) = some row → ∃ read ∈ reads, (getRun q.read s q.disk q.id).2 = .ok (page read row)) := by
  obtain ⟨hg, hrows, hstamp⟩ := check_good ds reads s h q.disk hd hst
  unfold getRun
  dsimp only
  generalize checkDb s q.disk = t at hg hrows hstamp
  rw [← hrows]
  cases hp : t.pages.lookup q.id with
  | some r =>
    obtain ⟨row, h1, read, h2, h3⟩ := hg.2 q.id r hp
    refine ⟨hg, ?_, ?_⟩
    · rw [h1]; simp
    · intro row' h'
      rw [h1] at h'
      cases h'
      exact ⟨read, h2, by rw [h3]⟩
  | none =>
    dsimp only
    cases hf : t.rows.find? (fun r => r.1 == q.id) with
    | none => exact ⟨hg, by simp, by simp⟩
    | some row =>
      obtain ⟨i, dir, name⟩ := row
      refine ⟨⟨hg.1, ?_⟩, by simp, ?_⟩
      · intro id r hl
        rw [List.lookup_cons] at hl
        by_cases hid : id = q.id
        · subst hid
          simp at hl
          exact ⟨_, hf, q.read, hr, hl.symm⟩
        · rw [show (id == q.id) = false by simpa using hid] at hl
          exact hg.2 id r hl
      · intro row' h'
        cases h'
        exact ⟨q.read, hr, rfl⟩

/-- Over any requests, if the time of the database changes whenever its rows do: a request gives the results for the row of its
id in the present database, from a reading at this or an earlier request; an id that is not there is an exception. -/
theorem tracking_spec (d0 : Disk) (qs : List (Request R)) (q : Request R) (hst : Stamped (d0 :: (qs ++ [q]).map Request.disk)) :
    let s := after (initAt d0 d0 d0 : Tracking R) qs
    ((getRun q.read s q.disk q.id).2 = .error "IndexError" ↔ q.disk.rows.find? (fun r => r.1 == q.id) = none) ∧
    (∀ row, q.disk.rows.find? (fun r => r.1 == q.id) = some row → ∃ p ∈ qs ++ [q], (getRun q.read s q.disk q.id).2 = .ok (page p.read row)) := by
  intro s
  have inv : ∀ (rs : List (Request R)) (t : Tracking R), (∀ r ∈ rs, r ∈ qs ++ [q]) → Good (d0 :: (qs ++ [q]).map Request.disk) ((qs ++ [q]).map Request.read) t →
      Good (d0 :: (qs ++ [q]).map Request.disk) ((qs ++ [q]).map Request.read) (after t rs) := by
    intro rs
    induction rs with
    | nil => intro t _ h; exact h
    | cons r rs ih =>
      intro t hr h
      have hrm := hr r (by simp)
      exact ih _ (fun x hx => hr x (by simp [hx])) (getRun_good _ _ t h r (List.mem_cons_of_mem _ (List.mem_map.mpr ⟨r, hrm, rfl⟩)) (List.mem_map.mpr ⟨r, hrm, rfl⟩) hst).1
  have hs := inv qs (initAt d0 d0 d0) (fun r hr => by simp [hr]) ⟨⟨d0, by simp, by simp [initAt], rfl⟩, by intro id r h; simp [initAt] at h⟩
  have hq : q ∈ qs ++ [q] := by simp
  obtain ⟨_, h1, h2⟩ := getRun_good _ _ s hs q (List.mem_cons_of_mem _ (List.mem_map.mpr ⟨q, hq, rfl⟩)) (List.mem_map.mpr ⟨q, hq, rfl⟩) hst
  refine ⟨h1, fun row hrow => ?_⟩
  obtain ⟨read, hread, he⟩ := h2 row hrow
  obtain ⟨p, hp, rfl⟩ := List.mem_map.mp hread
  exact ⟨p, hp, he⟩

/-- The directory of a run is read once: a second request with the database unchanged gives the same results, whatever the
directory has now. -/
theorem read_once (s : Tracking R) (read read' : Str → Option Str → R) (d : Disk) (id : ℕ) (r : R) (h : (getRun read s d id).2 = .ok r) :
    getRun read' (getRun read s d id).1 d id = ((getRun read s d id).1, .ok r) := by
  have hc : ∀ t : Tracking R, t.stamp = d.stamp → checkDb t d = t := by
    intro t ht; unfold checkDb; rw [if_neg (by simp [ht])]
  have hstamp : (checkDb s d).stamp = d.stamp := by
    unfold checkDb
    split_ifs with h
    · simp [initAt]
    · simpa using (not_not.mp h).symm
  unfold getRun at h ⊢
  dsimp only at h ⊢
  generalize checkDb s d = t at h hstamp
  cases hp : t.pages.lookup id with
  | some r' =>
    rw [hp] at h
    dsimp only at h ⊢
    rw [hc t hstamp, hp]
    simpa using h
  | none =>
    rw [hp] at h
    dsimp only at h ⊢
    cases hf : t.rows.find? (fun r => r.1 == id) with
    | none => rw [hf] at h; simp at h
    | some row =>
      obtain ⟨i, dir, name⟩ := row
      rw [hf] at h
      dsimp only at h ⊢
      rw [hc { t with pages := (id, read dir (if name = "NULL".toList then none else some name)) :: t.pages } hstamp]
      simp only [Except.ok.injEq] at h
      rw [h]
      simp

end

/-- The rows are those of the database with the time that is kept. -/
def FreshClaim : Prop := ∀ a b c : Disk, (a = b ∨ b = c) → (a.stamp = c.stamp → a = c) → (initAt a b c : Tracking ℕ).rows = c.rows

/-- False if the database changes between the reading and the sorting: the old rows are kept with the new time ... -/
theorem fresh_false : ¬ FreshClaim := by
  intro h
  have := h ⟨1, []⟩ ⟨1, []⟩ ⟨2, [(1, [], [])]⟩ (Or.inl rfl) (by simp)
  simp [initAt] at this

/-- ... and are not read again at any later check of that database. -/
theorem stale_stays {R : Type} (a c : Disk) (h : c.stamp ≠ a.stamp) : checkDb (initAt a a c : Tracking R) c = initAt a a c ∧ (initAt a a c : Tracking R).rows = a.rows := by
  constructor
  · unfold checkDb initAt
    simp [h]
  · rfl

end Verif.Web
