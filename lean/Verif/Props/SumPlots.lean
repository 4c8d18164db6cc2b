import Mathlib.Tactic.Linarith
import Mathlib.Tactic.NormNum
import Mathlib.Tactic.Ring
import Mathlib.Algebra.Order.Field.Rat
import Verif.Props.Comparison
import Verif.Model.SumPlots

/-! # C585–C588: plots of summaries of runs -/

namespace Verif.SumPlots

/-! ## C585: mesh -/

/-- **C585.** A table and its transpose give the same plot, if the names of the axes say which is which. -/
theorem mesh_T {K : Type*} (norm : Frame K → Frame K) (baseline : Bool) (subset : Option (List (String × Bool))) (rl ml : Option (List (String × String))) (f : Frame K)
    (h1 : ∀ n ∈ f.colName, n ∉ ["run", "OpsimRun", "run_name"]) (h2 : ∀ n ∈ f.indexName, n ≠ "metric")
    (h3 : f.colName = some "metric" ∨ ∃ n ∈ ["run", "OpsimRun", "run_name"], f.indexName = some n) :
    mesh norm baseline subset rl ml f.T = mesh norm baseline subset rl ml f := by
  have e1 : orient f = f := by
    unfold orient
    rw [if_neg]
    simp only [Bool.or_eq_true, Option.any_eq_true, not_or, not_exists, not_and, runNames, metricNames, List.contains_iff_mem]
    exact ⟨fun n hn => h1 n hn, fun n hn => by simpa using h2 n hn⟩
  have e2 : orient f.T = f := by
    unfold orient
    rw [if_pos]
    · rfl
    simp only [Bool.or_eq_true, Option.any_eq_true, runNames, metricNames, List.contains_iff_mem, Frame.T]
    rcases h3 with h | ⟨n, hn, h⟩
    · exact Or.inr ⟨"metric", h, by simp⟩
    · exact Or.inl ⟨n, h, hn⟩
  unfold mesh
  rw [e1, e2]

private theorem mapM_some {α β : Type*} (g : α → Option β) (l : List α) (r : List β) (h : l.mapM g = some r) :
    r.length = l.length ∧ ∀ (i : Nat) (a : α), l[i]? = some a → ∃ b, g a = some b ∧ r[i]? = some b := by
  induction l generalizing r with
  | nil =>
    simp at h
    subst h
    simp
  | cons x l ih =>
    rw [List.mapM_cons] at h
    cases hx : g x with
    | none => simp [hx] at h
    | some b =>
      cases hl : l.mapM g with
      | none => simp [hx, hl] at h
      | some r' =>
        simp [hx, hl] at h
        subst h
        obtain ⟨h1, h2⟩ := ih r' hl
        refine ⟨by simp [h1], ?_⟩
        intro i a ha
        cases i with
        | zero =>
          simp at ha
          subst ha
          exact ⟨b, hx, by simp⟩
        | succ i => exact h2 i a (by simpa using ha)

private theorem mem_inverted (baseline : Bool) (subset : Option (List (String × Bool))) (m : String) :
    (inverted baseline subset).contains m = true ↔ baseline = true ∧ ∃ s, subset = some s ∧ (m, true) ∈ s := by
  unfold inverted
  cases baseline <;> cases subset <;> simp

open Classical in
/-- **C585.** Each run has a column and each metric a row, in the order of the table (normalised if there is a baseline), each with its label; the cell where they meet has the value of
the metric of the run. A label says that the metric is inverted exactly if there is a baseline and the table of metrics says so. -/
theorem mesh_cells {K : Type*} (norm : Frame K → Frame K) (baseline : Bool) (subset : Option (List (String × Bool))) (rl ml : Option (List (String × String))) (f g : Frame K) (p : Mesh K)
    (hg : g = if baseline then norm (orient f) else orient f) (h : mesh norm baseline subset rl ml f = some p) :
    p.xlabels.length = g.index.length ∧ p.ylabels.length = g.columns.length ∧ (∀ x y, p.cell x y = g.value x y) ∧
      (∀ (x : Nat) r, g.index[x]? = some r → ∃ t, (∀ l ∈ rl, l.lookup r = some t) ∧ (rl = none → t = r) ∧ p.xlabels[x]? = some t) ∧
      (∀ (y : Nat) m, g.columns[y]? = some m → ∃ t, (∀ l ∈ ml, l.lookup m = some t) ∧ (ml = none → t = m) ∧
        p.ylabels[y]? = some (if ml.isSome ∧ baseline = true ∧ ∃ s, subset = some s ∧ (m, true) ∈ s then "1/" ++ t else t)) := by
  unfold mesh at h
  rw [← hg] at h
  dsimp only at h
  split at h
  · cases h
  rename_i yl hyl
  split at h
  · cases h
  rename_i xl hxl
  have hp := Option.some.inj h
  subst hp
  dsimp only
  have hx : xl.length = g.index.length ∧ ∀ (x : Nat) r, g.index[x]? = some r → ∃ t, (∀ l ∈ rl, l.lookup r = some t) ∧ (rl = none → t = r) ∧ xl[x]? = some t := by
    unfold runLabels' at hxl
    cases rl with
    | none =>
      cases hxl
      exact ⟨rfl, fun x r hr => ⟨r, by simp, by simp, hr⟩⟩
    | some l =>
      obtain ⟨h1, h2⟩ := mapM_some _ _ _ hxl
      refine ⟨h1, fun x r hr => ?_⟩
      obtain ⟨t, ht, e⟩ := h2 x r hr
      exact ⟨t, by simpa using ht, by simp, e⟩
  have hy : yl.length = g.columns.length ∧ ∀ (y : Nat) m, g.columns[y]? = some m → ∃ t, (∀ l ∈ ml, l.lookup m = some t) ∧ (ml = none → t = m) ∧
        yl[y]? = some (if ml.isSome ∧ baseline = true ∧ ∃ s, subset = some s ∧ (m, true) ∈ s then "1/" ++ t else t) := by
    unfold metricLabels at hyl
    cases ml with
    | none =>
      cases hyl
      exact ⟨rfl, fun x r hr => ⟨r, by simp, by simp, by simpa using hr⟩⟩
    | some l =>
      obtain ⟨h1, h2⟩ := mapM_some _ _ _ hyl
      refine ⟨h1, fun y m hm => ?_⟩
      obtain ⟨t', ht, e⟩ := h2 y m hm
      unfold metricLabel at ht
      split at ht
      · cases ht
      rename_i t hl
      refine ⟨t, by simpa using hl, by simp, ?_⟩
      rw [e]
      split_ifs at ht with hc
      · rw [if_pos ⟨rfl, (mem_inverted _ _ _).mp hc⟩, ht]
      · rw [if_neg (fun hh => hc ((mem_inverted _ _ _).mpr hh.2)), ht]
  exact ⟨hx.1, hy.1, fun x y => rfl, hx.2, hy.2⟩

/-- **C585.** The colours are centred on the baseline and as wide as asked for. -/
theorem limits_spec {K : Type*} [Field K] [LinearOrder K] [IsStrictOrderedRing K] (r : K) : (limits r).2 - (limits r).1 = r ∧ ((limits r).1 + (limits r).2) / 2 = 1 := by
  unfold limits
  dsimp only
  exact ⟨by ring, by ring⟩

private def frame : Frame Nat := ⟨["metric A", "B"], ["r1", "r2", "r3"], some "metric", some "run", fun i j => 10 * i + j⟩

example : (mesh id false none none (some [("metric A", "a"), ("B", "b")]) frame).map (fun p => (p.xlabels, p.ylabels, p.cell 2 1)) = some (["r1", "r2", "r3"], ["a", "b"], 12) := by decide +kernel

/-! ## C586: styles -/

/-- The colour for a style of the table of metrics. -/
def wantColor (dflt : Bool) (old : Str) : Option Str → Str
  | some (a :: _ :: _) => if dflt then [a] else old
  | _ => old

/-- The line for a style of the table of metrics. -/
def wantLine (old : Str) : Option Str → Str
  | some (_ :: b :: _) => [b]
  | some s => s
  | none => old

private theorem set_get (l : List Str) (i j : Nat) (v : Str) : (l.set i v)[j]? = l[j]?.map (fun o => if i = j then v else o) := by
  rw [List.getElem?_set]
  by_cases h : i = j
  · subst h
    by_cases hl : i < l.length
    · simp [hl]
    · simp [hl]
  · simp [h]

private theorem style_ok (dflt : Bool) (c l c' l' : List Str) (i : Nat) (s : Option Str) (h : setStyle dflt c l i s = (c', .ok l')) (j : Nat) :
    c'[j]? = c[j]?.map (fun o => if i = j then wantColor dflt o s else o) ∧ l'[j]? = l[j]?.map (fun o => if i = j then wantLine o s else o) := by
  match s, h with
  | none, h =>
    simp only [setStyle, Prod.mk.injEq, Except.ok.injEq] at h
    obtain ⟨rfl, rfl⟩ := h
    simp [wantColor, wantLine]
  | some [], h =>
    simp only [setStyle, Prod.mk.injEq] at h
    obtain ⟨rfl, hh⟩ := h
    split_ifs at hh
    have := Except.ok.inj hh
    subst this
    exact ⟨by simp [wantColor], set_get _ _ _ _⟩
  | some [a], h =>
    simp only [setStyle, Prod.mk.injEq] at h
    obtain ⟨rfl, hh⟩ := h
    split_ifs at hh
    have := Except.ok.inj hh
    subst this
    exact ⟨by simp [wantColor], set_get _ _ _ _⟩
  | some (a :: b :: t), h =>
    rw [setStyle] at h
    cases dflt with
    | false =>
      simp only [Bool.false_eq_true, if_false, Prod.mk.injEq] at h
      obtain ⟨rfl, hh⟩ := h
      split_ifs at hh
      have := Except.ok.inj hh
      subst this
      exact ⟨by simp [wantColor], set_get _ _ _ _⟩
    | true =>
      simp only [if_true] at h
      split_ifs at h with h1 h2
      · simp only [Prod.mk.injEq, Except.ok.injEq] at h
        obtain ⟨rfl, rfl⟩ := h
        exact ⟨set_get _ _ _ _, set_get _ _ _ _⟩
      · simp at h
      · simp at h

private theorem styles_ok (dflt : Bool) (ss : List (Option Str)) (c l c' l' : List Str) (i : Nat) (h : setStyles dflt c l i ss = (c', .ok l')) (j : Nat) :
    c'[j]? = c[j]?.map (fun o => if i ≤ j then wantColor dflt o ((ss[j - i]?).getD none) else o) ∧
    l'[j]? = l[j]?.map (fun o => if i ≤ j then wantLine o ((ss[j - i]?).getD none) else o) := by
  induction ss generalizing c l i with
  | nil =>
    simp only [setStyles, Prod.mk.injEq, Except.ok.injEq] at h
    obtain ⟨rfl, rfl⟩ := h
    simp [wantColor, wantLine]
  | cons s ss ih =>
    rw [setStyles] at h
    split at h
    · simp at h
    rename_i c1 l1 h1
    obtain ⟨a1, a2⟩ := style_ok dflt c l c1 l1 i s h1 j
    obtain ⟨b1, b2⟩ := ih c1 l1 (i + 1) h
    rw [b1, b2, a1, a2, Option.map_map, Option.map_map]
    constructor
    · congr 1
      funext o
      simp only [Function.comp]
      rcases lt_trichotomy i j with hij | hij | hij
      · rw [if_pos (by omega), if_neg (by omega), if_pos (by omega), show j - i = (j - (i + 1)) + 1 by omega, List.getElem?_cons_succ]
      · subst hij
        rw [if_neg (by omega), if_pos rfl, if_pos le_rfl]
        simp
      · rw [if_neg (by omega), if_neg (by omega), if_neg (by omega)]
    · congr 1
      funext o
      simp only [Function.comp]
      rcases lt_trichotomy i j with hij | hij | hij
      · rw [if_pos (by omega), if_neg (by omega), if_pos (by omega), show j - i = (j - (i + 1)) + 1 by omega, List.getElem?_cons_succ]
      · subst hij
        rw [if_neg (by omega), if_pos rfl, if_pos le_rfl]
        simp
      · rw [if_neg (by omega), if_neg (by omega), if_neg (by omega)]

private theorem draws_ok (f : Nat → Except Err (Str × Str × Str)) (is : List Nat) (out : List (Str × Str × Str)) (h : draws f is = .ok out) :
    out.length = is.length ∧ ∀ (k : Nat) i, is[k]? = some i → ∃ x, f i = .ok x ∧ out[k]? = some x := by
  induction is generalizing out with
  | nil =>
    simp only [draws, Except.ok.injEq] at h
    subst h
    simp
  | cons i is ih =>
    rw [draws] at h
    split at h
    · cases h
    rename_i x hx
    split at h
    · cases h
    rename_i xs hxs
    have := Except.ok.inj h
    subst this
    obtain ⟨h1, h2⟩ := ih xs hxs
    refine ⟨by simp [h1], ?_⟩
    intro k j hk
    cases k with
    | zero =>
      simp at hk
      subst hk
      exact ⟨x, hx, by simp⟩
    | succ k => exact h2 k j (by simpa using hk)

private theorem draws_all (f : Nat → Except Err (Str × Str × Str)) (is : List Nat) (h : ∀ i ∈ is, ∃ x, f i = .ok x) : ∃ out, draws f is = .ok out := by
  induction is with
  | nil => exact ⟨[], rfl⟩
  | cons i is ih =>
    obtain ⟨x, hx⟩ := h i (by simp)
    obtain ⟨out, ho⟩ := ih (fun j hj => h j (by simp [hj]))
    exact ⟨x :: out, by rw [draws, hx]; dsimp only; rw [ho]⟩

section Uncert
variable (palette : List Str) (cmap : Option (List Str)) (ls ms : List Str) (styles : List (Option Str)) (p' : List Str) (out : List (Str × Str × Str)) (hl : ls ≠ []) (hm : ms ≠ [])

include hl hm in
/-- **C586.** In plots of their own each metric has the colour of its place in the colours asked for, or of its style if no colours were asked for; the line of its style, or else of its
place; and the marker of its place. There are at least as many colours as metrics, and the line and the marker of all but the first have names of one letter. -/
theorem uncert_sep (h : uncert palette cmap ls ms true styles = (p', .ok out)) : out.length = styles.length ∧ ∀ (j : Nat) s, styles[j]? = some s → ∃ c l m,
    (cmap.getD palette)[j]? = some c ∧ ls[j % ls.length]? = some l ∧ ms[j % ms.length]? = some m ∧ out[j]? = some (wantColor cmap.isNone c s, wantLine l s, m) ∧
      (0 < j → (wantLine l s).length = 1 ∧ m.length = 1) := by
  unfold uncert at h
  dsimp only at h
  split at h
  · simp at h
  rename_i c' l' hs
  rw [if_pos rfl] at h
  obtain ⟨hd1, hd2⟩ := draws_ok _ _ _ (Prod.mk.inj h).2
  refine ⟨by rw [hd1, List.length_range], ?_⟩
  intro j s hj
  have hjl : j < styles.length := (List.getElem?_eq_some_iff.mp hj).1
  obtain ⟨x, hx, ho⟩ := hd2 j j (by simp [hjl])
  obtain ⟨e1, e2⟩ := styles_ok _ _ _ _ _ _ 0 hs j
  simp only [Nat.zero_le, if_true, Nat.sub_zero, hj, Option.getD_some] at e1 e2
  unfold drawSep at hx
  split at hx
  · rename_i a b d ha hb hdd
    rw [ha] at e1
    rw [hb] at e2
    cases hc : (cmap.getD palette)[j]? with
    | none => rw [hc] at e1; simp at e1
    | some c =>
      rw [hc] at e1
      have hlt : j < (cmap.getD palette).length := (List.getElem?_eq_some_iff.mp hc).1
      obtain ⟨g1, g2⟩ := Cmp.grow_spec ls (cmap.getD palette).length hl
      obtain ⟨g3, g4⟩ := Cmp.grow_spec ms (cmap.getD palette).length hm
      rw [g2 j hlt] at e2
      rw [g4 j hlt] at hdd
      cases hll : ls[j % ls.length]? with
      | none => rw [hll] at e2; simp at e2
      | some l =>
        rw [hll] at e2
        simp only [Option.map_some, Option.some.injEq] at e1 e2
        refine ⟨c, l, d, rfl, rfl, hdd, ?_, ?_⟩
        · rw [ho, ← e1, ← e2]
          by_cases hj0 : j = 0
          · rw [if_pos hj0] at hx
            rw [← Except.ok.inj hx]
          · rw [if_neg hj0] at hx
            unfold one at hx
            split_ifs at hx
            rw [← Except.ok.inj hx]
        · intro hj0
          rw [if_neg (by omega)] at hx
          unfold one at hx
          split_ifs at hx with h1
          rw [← e2]
          exact h1
  · cases hx

/-- **C586.** In a common plot there is no such limit: without styles, any number of metrics is drawn, with the colours, lines and markers repeated. -/
theorem uncert_common (sep_styles : ∀ s ∈ styles, s = none) (hl : ls ≠ []) (hm : ms ≠ []) (hc : cmap.getD palette ≠ []) :
    ∃ out, uncert palette cmap ls ms false styles = (palette, .ok out) ∧ out.length = styles.length ∧ ∀ j < styles.length, ∃ c l m,
      (cmap.getD palette)[j % (cmap.getD palette).length]? = some c ∧ ls[(j % (cmap.getD palette).length) % ls.length]? = some l ∧
      ms[(j % (cmap.getD palette).length) % ms.length]? = some m ∧ out[j]? = some (c, l, m) := by
  have hs : ∀ (ss : List (Option Str)) c l i, (∀ s ∈ ss, s = none) → setStyles cmap.isNone c l i ss = (c, .ok l) := by
    intro ss
    induction ss with
    | nil => intros; rfl
    | cons s ss ih =>
      intro c l i h
      have := h s (by simp)
      subst this
      rw [setStyles, setStyle]
      exact ih c l (i + 1) (fun s hs => h s (by simp [hs]))
  obtain ⟨g1, g2⟩ := Cmp.grow_spec ls (cmap.getD palette).length hl
  obtain ⟨g3, g4⟩ := Cmp.grow_spec ms (cmap.getD palette).length hm
  have hpos : 0 < (cmap.getD palette).length := List.length_pos_iff.mpr hc
  have hlp : 0 < ls.length := List.length_pos_iff.mpr hl
  have hmp : 0 < ms.length := List.length_pos_iff.mpr hm
  have key : ∀ j, ∃ c l m, (cmap.getD palette)[j % (cmap.getD palette).length]? = some c ∧ ls[(j % (cmap.getD palette).length) % ls.length]? = some l ∧
      ms[(j % (cmap.getD palette).length) % ms.length]? = some m ∧
      drawAll (cmap.getD palette) (Cmp.grow ls (cmap.getD palette).length) (Cmp.grow ms (cmap.getD palette).length) j = .ok (c, l, m) := by
    intro j
    have hjm : j % (cmap.getD palette).length < (cmap.getD palette).length := Nat.mod_lt _ hpos
    have k1 : (cmap.getD palette)[j % (cmap.getD palette).length]? = some ((cmap.getD palette)[j % (cmap.getD palette).length]) := List.getElem?_eq_getElem hjm
    have k2 : ls[(j % (cmap.getD palette).length) % ls.length]? = some (ls[(j % (cmap.getD palette).length) % ls.length]'(Nat.mod_lt _ hlp)) := List.getElem?_eq_getElem _
    have k3 : ms[(j % (cmap.getD palette).length) % ms.length]? = some (ms[(j % (cmap.getD palette).length) % ms.length]'(Nat.mod_lt _ hmp)) := List.getElem?_eq_getElem _
    refine ⟨_, _, _, k1, k2, k3, ?_⟩
    unfold drawAll
    rw [g1, g3, g2 _ hjm, g4 _ hjm, k1, k2, k3]
  obtain ⟨out, ho⟩ := draws_all (drawAll (cmap.getD palette) (Cmp.grow ls (cmap.getD palette).length) (Cmp.grow ms (cmap.getD palette).length)) (List.range styles.length)
    (fun i _ => by obtain ⟨c, l, m, _, _, _, e⟩ := key i; exact ⟨_, e⟩)
  obtain ⟨d1, d2⟩ := draws_ok _ _ _ ho
  refine ⟨out, ?_, by rw [d1, List.length_range], ?_⟩
  · unfold uncert
    dsimp only
    rw [hs styles _ _ 0 sep_styles]
    dsimp only
    rw [if_neg (show ¬ (false = true) by simp), ho]
    cases cmap <;> simp
  · intro j hj
    obtain ⟨c, l, m, a1, a2, a3, a4⟩ := key j
    obtain ⟨x, hx, e⟩ := d2 j j (by simp [hj])
    rw [a4] at hx
    exact ⟨c, l, m, a1, a2, a3, by rw [e, ← Except.ok.inj hx]⟩

/-- **C586.** Colours that are asked for are not changed, nor are those of `colorcet` then. -/
theorem palette_user (sep : Bool) (c : List Str) : (uncert palette (some c) ls ms sep styles).1 = palette := by
  unfold uncert
  dsimp only
  split <;> simp

/-- **C586.** Otherwise the colours of the styles are written into the colours of `colorcet`, and stay there. -/
theorem palette_after (sep : Bool) (h : uncert palette none ls ms sep styles = (p', .ok out)) (j : Nat) :
    p'[j]? = palette[j]?.map (fun o => wantColor true o ((styles[j]?).getD none)) := by
  unfold uncert at h
  dsimp only at h
  split at h
  · simp at h
  rename_i c' l' hs
  have e := (styles_ok _ _ _ _ _ _ 0 hs j).1
  have hp : c' = p' := by simpa using (Prod.mk.inj h).1
  rw [← hp, e]
  simp

end Uncert

/-- **C586.** A call changes what later calls draw. -/
theorem palette_false : ¬ ∀ (palette ls ms : List Str) (styles styles' : List (Option Str)), 
    (uncert (uncert palette none ls ms true styles).1 none ls ms true styles').2 = (uncert palette none ls ms true styles').2 := by
  intro h
  exact absurd (h [['x'], ['y']] [['-']] [['.']] [some ['k', ':']] [none]) (by decide +kernel)

/-- **C586.** A dashed line is an error in plots of their own, from the second metric on. -/
theorem dash_false : ¬ ∀ (palette ls ms : List Str) (styles : List (Option Str)), ls ≠ [] → ms ≠ [] → styles.length ≤ palette.length → (∀ s ∈ styles, s = none) →
    ∃ out, (uncert palette none ls ms true styles).2 = .ok out := by
  intro h
  obtain ⟨out, ho⟩ := h [['x'], ['y']] [['-'], ['-', '-']] [['.']] [none, none] (by simp) (by simp) (by decide) (by simp)
  rw [show (uncert [['x'], ['y']] none [['-'], ['-', '-']] [['.']] true [none, none]).2 = .error .value by decide +kernel] at ho
  cases ho

/-- **C586.** A style with a line of two letters loses the second: dashed lines are solid. -/
theorem style_false : ¬ ∀ (palette ls ms : List Str) (a b : Char) (t : Str) (out : Str × Str × Str), (uncert palette none ls ms true [some (a :: b :: t)]).2 = .ok [out] →
    out.2.1 = b :: t := by
  intro h
  exact absurd (h [['x']] [['-']] [['.']] 'k' '-' ['-'] (['k'], ['-'], ['.']) (by decide +kernel)) (by decide)

example : uncert [['x'], ['y'], ['z']] none [['-'], [':']] [['.']] true [none, some ['k', '-'], some ['-']] =
    ([['x'], ['k'], ['z']], .ok [(['x'], ['-'], ['.']), (['k'], ['-'], ['.']), (['z'], ['-'], ['.'])]) := by decide +kernel

/-! ## C587: shading -/

/-- **C587.** Of the values in the plot, exactly those better than the baseline by the fraction or more are green, and exactly those worse by it or more are red; none is both. -/
theorem shade_spec {K : Type*} [Field K] [LinearOrder K] [IsStrictOrderedRing K] (f lo hi v : K) (hf : 0 < f) (h1 : lo < v) (h2 : v < hi) :
    ((∃ r ∈ (shade (some f) lo hi).1, r.1 ≤ v ∧ v ≤ r.2) ↔ 1 + f ≤ v) ∧ ((∃ r ∈ (shade (some f) lo hi).2, r.1 ≤ v ∧ v ≤ r.2) ↔ v ≤ 1 - f) := by
  unfold shade
  dsimp only
  rw [if_pos hf]
  dsimp only
  constructor
  · constructor
    · rintro ⟨r, hr, h3, h4⟩
      split_ifs at hr with hh
      · have := (Option.some.inj hr); subst this; exact h3
      · cases hr
    · intro h
      rw [if_pos (lt_of_le_of_lt h h2)]
      exact ⟨_, rfl, h, h2.le⟩
  · constructor
    · rintro ⟨r, hr, h3, h4⟩
      split_ifs at hr with hh
      · have := (Option.some.inj hr); subst this; exact h4
      · cases hr
    · intro h
      rw [if_pos (lt_of_lt_of_le h1 h)]
      exact ⟨_, rfl, h1.le, h⟩

/-- **C587.** Nothing is shaded without a fraction, or with one that is not positive, and nothing outside the plot is. -/
theorem shade_none {K : Type*} [Field K] [LinearOrder K] [IsStrictOrderedRing K] (f : Option K) (lo hi : K) :
    ((∀ x ∈ f, x ≤ 0) → shade f lo hi = (none, none)) ∧ (∀ r ∈ (shade f lo hi).1, r.2 = hi) ∧ (∀ r ∈ (shade f lo hi).2, r.1 = lo) := by
  cases f with
  | none => simp [shade]
  | some f =>
    refine ⟨?_, ?_, ?_⟩
    · intro h
      have := h f rfl
      unfold shade
      dsimp only
      rw [if_neg (not_lt.mpr this)]
    · intro r hr
      unfold shade at hr
      dsimp only at hr
      split_ifs at hr
      all_goals first
        | (have := (Option.some.inj hr); subst this; rfl)
        | cases hr
    · intro r hr
      unfold shade at hr
      dsimp only at hr
      split_ifs at hr
      all_goals first
        | (have := (Option.some.inj hr); subst this; rfl)
        | cases hr

example : shade (some (1 / 20 : ℚ)) (9 / 10) (51 / 50) = (none, some (9 / 10, 19 / 20)) := by decide +kernel

/-! ## C588: lines between families -/

private theorem cumsum_get (l : List Nat) (s i : Nat) (h : i < l.length) : (cumsum s l)[i]? = some (s + (l.take (i + 1)).sum) := by
  induction l generalizing s i with
  | nil => simp at h
  | cons x l ih =>
    cases i with
    | zero => simp [cumsum]
    | succ i =>
      rw [cumsum, List.getElem?_cons_succ, ih (s + x) i (by simpa using h)]
      simp [Nat.add_assoc]

private theorem cumsum_length (l : List Nat) (s : Nat) : (cumsum s l).length = l.length := by
  induction l generalizing s with
  | nil => rfl
  | cons x l ih => simp [cumsum, ih]

/-- **C588.** If each family has two runs or more, the `i`-th line is at the number of runs of the first `i + 1` families. -/
theorem lines_partial (rows : List (String × String)) (fs : List String) (h : ∀ f ∈ fs, 2 ≤ (rows.map Prod.fst).count f) :
    ∃ ls, familyLines rows fs = some ls ∧ ls.length = fs.length ∧ ∀ i < fs.length, ls[i]? = some (((fs.take (i + 1)).map (fun f => (rows.map Prod.fst).count f)).sum) := by
  have hc : ∀ f, (rows.filter (fun r => r.1 == f)).length = (rows.map Prod.fst).count f := by
    intro f
    rw [List.count, List.countP_map, List.countP_eq_length_filter]
    rfl
  have hm : fs.mapM (familyLen rows) = some (fs.map (fun f => (rows.map Prod.fst).count f)) := by
    induction fs with
    | nil => rfl
    | cons f fs ih =>
      have hf := h f (by simp)
      have e : familyLen rows f = some ((rows.map Prod.fst).count f) := by
        have hcf := hc f
        unfold familyLen
        split
        · rename_i e; rw [e, List.length_nil] at hcf; omega
        · rename_i r e; rw [e, List.length_singleton] at hcf; omega
        · rename_i rs _ _; rw [hcf]
      rw [List.mapM_cons, e, ih (fun g hg => h g (by simp [hg]))]
      rfl
  refine ⟨cumsum 0 (fs.map (fun f => (rows.map Prod.fst).count f)), by rw [familyLines, hm]; rfl, by rw [cumsum_length, List.length_map], ?_⟩
  intro i hi
  rw [cumsum_get _ _ _ (by simpa using hi), Nat.zero_add, ← List.map_take]

/-- **C588.** A family of one run counts as many runs as its name has letters. -/
theorem lines_single (rows : List (String × String)) (f run : String) (h : rows.filter (fun r => r.1 == f) = [(f, run)]) : familyLines rows [f] = some [run.length] := by
  unfold familyLines
  simp [familyLen, h, cumsum]

theorem lines_false : ¬ ∀ (rows : List (String × String)) (f : String), f ∈ rows.map Prod.fst → familyLines rows [f] = some [(rows.map Prod.fst).count f] := by
  intro h
  exact absurd (h [("base", "baseline_v4.3"), ("a", "x"), ("a", "y")] "base" (by decide)) (by decide +kernel)

/-- **C588.** It is a `KeyError` exactly if some family is not in the table. -/
theorem lines_key (rows : List (String × String)) (fs : List String) : familyLines rows fs = none ↔ ∃ f ∈ fs, f ∉ rows.map Prod.fst := by
  have hn : ∀ f, familyLen rows f = none ↔ f ∉ rows.map Prod.fst := by
    intro f
    unfold familyLen
    have : rows.filter (fun r => r.1 == f) = [] ↔ f ∉ rows.map Prod.fst := by
      rw [List.filter_eq_nil_iff]
      simp only [beq_iff_eq, List.mem_map, not_exists, not_and]
    split
    · rename_i e; exact iff_of_true rfl (this.mp e)
    · rename_i r e; exact iff_of_false (by simp) (fun hh => by rw [this.mpr hh] at e; cases e)
    · rename_i rs e1 e2
      constructor
      · intro h; cases h
      · intro h; exact absurd (this.mpr h) e1
  unfold familyLines
  rw [Option.map_eq_none_iff]
  induction fs with
  | nil => simp
  | cons f fs ih =>
    rw [List.mapM_cons]
    cases hf : familyLen rows f with
    | none => exact iff_of_true rfl ⟨f, by simp, (hn f).mp hf⟩
    | some k =>
      have hf' : f ∈ rows.map Prod.fst := by
        by_contra hh
        rw [(hn f).mpr hh] at hf
        cases hf
      cases hm : fs.mapM (familyLen rows) with
      | none =>
        obtain ⟨g, hg, hg'⟩ := ih.mp hm
        simp only [Option.bind_eq_bind, Option.bind_some, Option.bind_none, true_iff]
        exact ⟨g, by simp [hg], hg'⟩
      | some l =>
        simp only [Option.bind_eq_bind, Option.bind_some, Option.pure_def, reduceCtorEq, false_iff]
        rintro ⟨g, hg, hg'⟩
        rcases List.mem_cons.mp hg with rfl | hg
        · exact hg' hf'
        · rw [ih.mpr ⟨g, hg, hg'⟩] at hm
          cases hm

end Verif.SumPlots
