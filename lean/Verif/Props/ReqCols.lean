import Verif.Model.ReqCols
import Mathlib.Tactic.Common

/-!
# Properties of the required-column search (C14, C15)
-/

namespace Verif.ReqCols

variable {C : Type*} [DecidableEq C]

/-- `enum` lists each element of a set once, in any order. -/
def IsEnum (enum : Finset C → List C) : Prop := ∀ s, (enum s).Nodup ∧ ∀ c, c ∈ enum s ↔ c ∈ s

/-- The columns a bundle needs: those of slicer, metric and of all its stackers. -/
def Requires (slicerCols metricCols : List String) (stackers : List (Inst C)) (col : String) : Prop :=
  col ∈ slicerCols ∨ col ∈ metricCols ∨ ∃ s ∈ stackers, col ∈ s.colsReq

/-- Loop invariant. -/
structure Inv (r : Registry C) (slicerCols metricCols : List String) (given : List (Inst C)) (st : St C) : Prop where
  prefix_ : given <+: st.stackers
  closed : ∀ col, Requires slicerCols metricCols st.stackers col →
    match r.source col with
    | none => col ∈ st.db
    | some c => (∃ s ∈ st.stackers, s.cls = c) ∨ c ∈ st.new
  dbOnly : ∀ col ∈ st.db, r.source col = none ∧ Requires slicerCols metricCols st.stackers col
  newOk : ∀ c ∈ st.new, (∀ s ∈ st.stackers, s.cls ≠ c) ∧
    ∃ col, r.source col = some c ∧ Requires slicerCols metricCols st.stackers col
  appended : ∀ j (hj : j < st.stackers.length), given.length ≤ j →
    st.stackers[j].colsReq = r.colsReq st.stackers[j].cls ∧
    (∀ i (hi : i < j), st.stackers[i].cls ≠ st.stackers[j].cls) ∧
    ∃ col, r.source col = some st.stackers[j].cls ∧
      Requires slicerCols metricCols (st.stackers.take j) col

theorem requires_mono {sc mc : List String} {l l' : List (Inst C)} (h : ∀ s ∈ l, s ∈ l') {col : String}
    (hr : Requires sc mc l col) : Requires sc mc l' col := by
  rcases hr with h1 | h1 | ⟨s, hs, h1⟩
  · exact Or.inl h1
  · exact Or.inr (Or.inl h1)
  · exact Or.inr (Or.inr ⟨s, h s hs, h1⟩)

theorem inv_init (r : Registry C) (sc mc : List String) (given : List (Inst C)) :
    Inv r sc mc given (initSt r sc mc given) := by
  have hk : ∀ col, col ∈ sc ++ mc ++ given.flatMap Inst.colsReq ↔ Requires sc mc given col := by
    intro col
    simp [Requires, or_assoc]
  refine ⟨List.prefix_refl _, ?_, ?_, ?_, ?_⟩
  · intro col hr
    have hr' := (hk col).mpr hr
    cases hs : r.source col with
    | none =>
      show col ∈ (classify r _ ∅).1
      simp only [classify, Finset.mem_union, List.mem_toFinset, List.mem_filter]
      exact Or.inr ⟨hr', by simp [hs]⟩
    | some c =>
      show (∃ s ∈ given, s.cls = c) ∨ c ∈ dropKnown given (classify r _ ∅).2
      by_cases he : ∃ s ∈ given, s.cls = c
      · exact Or.inl he
      · right
        simp only [dropKnown, classify, Finset.mem_filter, List.mem_toFinset, List.mem_filterMap]
        exact ⟨⟨col, hr', hs⟩, fun s hs' e => he ⟨s, hs', e⟩⟩
  · intro col hc
    change col ∈ (classify r _ ∅).1 at hc
    simp only [classify, Finset.mem_union, List.mem_toFinset, List.mem_filter, Finset.notMem_empty,
      false_or] at hc
    exact ⟨by simpa using hc.2, (hk col).mp hc.1⟩
  · intro c hc
    change c ∈ dropKnown given (classify r _ ∅).2 at hc
    simp only [dropKnown, classify, Finset.mem_filter, List.mem_toFinset, List.mem_filterMap] at hc
    obtain ⟨⟨col, h1, h2⟩, h3⟩ := hc
    exact ⟨h3, col, h2, (hk col).mp h1⟩
  · intro j hj hle
    exact absurd hj (by show ¬ j < given.length; omega)

theorem inv_body (r : Registry C) (enum : Finset C → List C) (he : IsEnum enum) (sc mc : List String)
    (given : List (Inst C)) (st : St C) (inv : Inv r sc mc given st) :
    Inv r sc mc given (body r enum st) := by
  set added := (enum st.new).map (fun c => Inst.mk c (r.colsReq c)) with hadd
  have hb : body r enum st = St.mk (classify r (added.flatMap Inst.colsReq) st.db).1
      (st.stackers ++ added)
      (dropKnown (st.stackers ++ added) (classify r (added.flatMap Inst.colsReq) st.db).2) := rfl
  have hreq : ∀ col, Requires sc mc (st.stackers ++ added) col ↔
      Requires sc mc st.stackers col ∨ col ∈ added.flatMap Inst.colsReq := by
    intro col
    simp only [Requires, List.mem_append, List.mem_flatMap, or_and_right, exists_or, or_assoc]
  rw [hb]
  refine ⟨inv.prefix_.trans (List.prefix_append _ _), ?_, ?_, ?_, ?_⟩
  · intro col hr
    have hr' := (hreq col).mp hr
    cases hs : r.source col with
    | none =>
      simp only [classify, Finset.mem_union, List.mem_toFinset, List.mem_filter]
      rcases hr' with h | h
      · have := inv.closed col h
        rw [hs] at this
        exact Or.inl this
      · exact Or.inr ⟨h, by simp [hs]⟩
    | some c =>
      simp only
      by_cases hex : ∃ s ∈ st.stackers ++ added, s.cls = c
      · exact Or.inl hex
      · right
        rcases hr' with h | h
        · exfalso
          have := inv.closed col h
          rw [hs] at this
          apply hex
          rcases this with ⟨s, h1, h2⟩ | h1
          · exact ⟨s, List.mem_append_left _ h1, h2⟩
          · refine ⟨⟨c, r.colsReq c⟩, List.mem_append_right _ ?_, rfl⟩
            rw [hadd, List.mem_map]
            exact ⟨c, ((he st.new).2 c).mpr h1, rfl⟩
        · simp only [dropKnown, classify, Finset.mem_filter, List.mem_toFinset, List.mem_filterMap]
          exact ⟨⟨col, h, hs⟩, fun s hs' e => hex ⟨s, hs', e⟩⟩
  · intro col hc
    simp only [classify, Finset.mem_union, List.mem_toFinset, List.mem_filter] at hc
    rcases hc with h | ⟨h1, h2⟩
    · exact ⟨(inv.dbOnly col h).1, (hreq col).mpr (Or.inl (inv.dbOnly col h).2)⟩
    · exact ⟨by simpa using h2, (hreq col).mpr (Or.inr h1)⟩
  · intro c hc
    simp only [dropKnown, classify, Finset.mem_filter, List.mem_toFinset, List.mem_filterMap] at hc
    obtain ⟨⟨col, h1, h2⟩, h3⟩ := hc
    exact ⟨h3, col, h2, (hreq col).mpr (Or.inr h1)⟩
  · intro j hj hle
    simp only at hj ⊢
    by_cases hlt : j < st.stackers.length
    · have e1 : (st.stackers ++ added)[j] = st.stackers[j] := List.getElem_append_left hlt
      obtain ⟨h1, h2, col, h3, h4⟩ := inv.appended j hlt hle
      rw [e1]
      refine ⟨h1, ?_, col, h3, ?_⟩
      · intro i hi
        rw [List.getElem_append_left (by omega)]
        exact h2 i hi
      · rw [List.take_append_of_le_length (by omega)]
        exact h4
    · have hj2 : j - st.stackers.length < added.length := by
        rw [List.length_append] at hj
        omega
      have hj3 : j - st.stackers.length < (enum st.new).length := by simpa [hadd] using hj2
      have e1 : (st.stackers ++ added)[j] = ⟨(enum st.new)[j - st.stackers.length],
          r.colsReq (enum st.new)[j - st.stackers.length]⟩ := by
        rw [List.getElem_append_right (by omega)]
        simp [hadd]
      have hmem : (enum st.new)[j - st.stackers.length] ∈ st.new :=
        ((he st.new).2 _).mp (List.getElem_mem hj3)
      obtain ⟨hn1, col, hn2, hn3⟩ := inv.newOk _ hmem
      rw [e1]
      refine ⟨rfl, ?_, col, hn2, ?_⟩
      · intro i hi
        by_cases hi2 : i < st.stackers.length
        · rw [List.getElem_append_left hi2]
          exact hn1 _ (List.getElem_mem hi2)
        · rw [List.getElem_append_right (by omega)]
          simp only [hadd, List.getElem_map]
          intro e
          have := (List.Nodup.getElem_inj_iff (he st.new).1).mp e
          omega
      · refine requires_mono ?_ hn3
        intro s hs
        rw [List.take_append, List.take_of_length_le (by omega)]
        exact List.mem_append_left _ hs

theorem inv_loop (r : Registry C) (enum : Finset C → List C) (he : IsEnum enum) (sc mc : List String)
    (given : List (Inst C)) : ∀ (fuel : Nat) (st st' : St C), Inv r sc mc given st →
      loop r enum fuel st = some st' → Inv r sc mc given st' ∧ st'.new = ∅ := by
  intro fuel
  induction fuel with
  | zero =>
    intro st st' inv h
    unfold loop at h
    split at h
    case isTrue hn => cases h; exact ⟨inv, hn⟩
    case isFalse => simp at h
  | succ n ih =>
    intro st st' inv h
    unfold loop at h
    split at h
    case isTrue hn => cases h; exact ⟨inv, hn⟩
    case isFalse => exact ih _ _ (inv_body r enum he sc mc given st inv) h

/-- **C14**, termination: with a finite registry (`classes` contains every source
class) the `while` loop finishes after at most as many passes as there are
classes, whatever the dependency graph (cycles included) and whatever the order
in which Python iterates the sets. -/
theorem reqCols_terminates (r : Registry C) (enum : Finset C → List C) (he : IsEnum enum)
    (classes : Finset C) (hfin : ∀ col c, r.source col = some c → c ∈ classes)
    (sc mc : List String) (given : List (Inst C)) (fuel : Nat) (hf : classes.card ≤ fuel) :
    (findReqCols r enum fuel sc mc given).isSome := by
  have key : ∀ (fuel : Nat) (st : St C), Inv r sc mc given st →
      (classes.filter (fun c => ∀ s ∈ st.stackers, s.cls ≠ c)).card ≤ fuel →
      (loop r enum fuel st).isSome := by
    intro fuel
    induction fuel with
    | zero =>
      intro st inv hc
      unfold loop
      split
      · rfl
      · next hne =>
        exfalso
        obtain ⟨c, hcn⟩ := Finset.nonempty_iff_ne_empty.mpr hne
        obtain ⟨h1, col, h2, -⟩ := inv.newOk c hcn
        have : c ∈ classes.filter (fun c => ∀ s ∈ st.stackers, s.cls ≠ c) :=
          Finset.mem_filter.mpr ⟨hfin col c h2, h1⟩
        have := Finset.card_pos.mpr ⟨c, this⟩
        omega
    | succ n ih =>
      intro st inv hc
      unfold loop
      split
      · rfl
      · next hne =>
        apply ih _ (inv_body r enum he sc mc given st inv)
        obtain ⟨c, hcn⟩ := Finset.nonempty_iff_ne_empty.mpr hne
        obtain ⟨h1, col, h2, -⟩ := inv.newOk c hcn
        have hin : c ∈ classes.filter (fun c => ∀ s ∈ st.stackers, s.cls ≠ c) :=
          Finset.mem_filter.mpr ⟨hfin col c h2, h1⟩
        have hsub : classes.filter (fun c => ∀ s ∈ (body r enum st).stackers, s.cls ≠ c) ⊂
            classes.filter (fun c => ∀ s ∈ st.stackers, s.cls ≠ c) := by
          rw [Finset.ssubset_iff_of_subset]
          · refine ⟨c, hin, ?_⟩
            intro hmem
            have := (Finset.mem_filter.mp hmem).2 ⟨c, r.colsReq c⟩ (by
              show _ ∈ st.stackers ++ (enum st.new).map (fun c => Inst.mk c (r.colsReq c))
              refine List.mem_append_right _ (List.mem_map.mpr ⟨c, ((he st.new).2 c).mpr hcn, rfl⟩))
            exact this rfl
          · intro x hx
            rw [Finset.mem_filter] at hx ⊢
            exact ⟨hx.1, fun s hs => hx.2 s (List.mem_append_left _ hs)⟩
        have := Finset.card_lt_card hsub
        omega
  unfold findReqCols
  rw [Option.isSome_map]
  exact key fuel _ (inv_init r sc mc given) (le_trans (Finset.card_le_card (Finset.filter_subset _ _)) hf)

/-- **C14**, completeness and minimality: for every registry and every bundle,
the stacker list extends the given one without repeating a class, every column
required by the slicer, the metric or *any* stacker of the final list is either
one of the database columns or produced by the class of a stacker in the list
(the placeholder names "metricdata" and "None" excepted), and no column is
requested from the database that nothing requires. -/
theorem reqCols_closed (r : Registry C) (enum : Finset C → List C) (he : IsEnum enum)
    (sc mc : List String) (given : List (Inst C)) (fuel : Nat) (db : Finset String) (stackers : List (Inst C))
    (h : findReqCols r enum fuel sc mc given = some (db, stackers)) :
    given <+: stackers ∧
    (∀ col, Requires sc mc stackers col → col ≠ "metricdata" → col ≠ "None" →
      (r.source col = none ∧ col ∈ db) ∨ ∃ c, r.source col = some c ∧ ∃ s ∈ stackers, s.cls = c) ∧
    (∀ col, Requires sc mc stackers col → ∀ c, r.source col = some c → ∃ s ∈ stackers, s.cls = c) ∧
    (∀ col ∈ db, r.source col = none ∧ Requires sc mc stackers col) ∧
    (∀ j (hj : j < stackers.length), given.length ≤ j → ∀ i (hi : i < j), stackers[i].cls ≠ stackers[j].cls) := by
  unfold findReqCols at h
  rw [Option.map_eq_some_iff] at h
  obtain ⟨st, hst, e⟩ := h
  obtain ⟨inv, hnew⟩ := inv_loop r enum he sc mc given fuel _ st (inv_init r sc mc given) hst
  cases e
  have hcl : ∀ col, Requires sc mc st.stackers col → ∀ c, r.source col = some c → ∃ s ∈ st.stackers, s.cls = c := by
    intro col hr c hs
    have := inv.closed col hr
    rw [hs, hnew] at this
    simpa using this
  refine ⟨inv.prefix_, ?_, hcl, ?_, fun j hj hle => (inv.appended j hj hle).2.1⟩
  · intro col hr h1 h2
    cases hs : r.source col with
    | none =>
      have := inv.closed col hr
      rw [hs] at this
      exact Or.inl ⟨rfl, Finset.mem_erase.mpr ⟨h2, Finset.mem_erase.mpr ⟨h1, this⟩⟩⟩
    | some c => exact Or.inr ⟨c, rfl, hcl col hr c hs⟩
  · intro col hc
    exact inv.dbOnly col (Finset.mem_of_mem_erase (Finset.mem_of_mem_erase hc))

/-- C15 as promised: the columns a stacker needs that come from stackers are
produced by stackers standing earlier in the list. -/
def OrderOk (r : Registry C) (stackers : List (Inst C)) : Prop :=
  ∀ i (hi : i < stackers.length), ∀ col ∈ stackers[i].colsReq, ∀ c, r.source col = some c →
    ∃ j, ∃ hj : j < i, (stackers[j]'(by omega)).cls = c

/-- **C15**, refutation in general form: if a stacker at position `i` is the first
in the list to require a column of class `c`, and neither the slicer nor the
metric needs class `c` and the user did not supply it, then `c` never comes
before position `i`: it runs too late in *every* such bundle. -/
theorem dependency_runs_too_late (r : Registry C) (enum : Finset C → List C) (he : IsEnum enum)
    (sc mc : List String) (given : List (Inst C)) (fuel : Nat) (db : Finset String) (stackers : List (Inst C))
    (h : findReqCols r enum fuel sc mc given = some (db, stackers))
    (i : Nat) (hi : i < stackers.length) (col : String) (hcol : col ∈ stackers[i].colsReq)
    (c : C) (hc : r.source col = some c)
    (hgiven : ∀ s ∈ given, s.cls ≠ c) (hdirect : ∀ col', col' ∈ sc ∨ col' ∈ mc → r.source col' ≠ some c)
    (hfirst : ∀ j (hj : j < i), ∀ col' ∈ (stackers[j]'(by omega)).colsReq, r.source col' ≠ some c) :
    (∃ s ∈ stackers, s.cls = c) ∧ ∀ j (hj : j < stackers.length), stackers[j].cls = c → i ≤ j := by
  refine ⟨(reqCols_closed r enum he sc mc given fuel db stackers h).2.2.1 col
    (Or.inr (Or.inr ⟨_, List.getElem_mem hi, hcol⟩)) c hc, ?_⟩
  unfold findReqCols at h
  rw [Option.map_eq_some_iff] at h
  obtain ⟨st, hst, e⟩ := h
  obtain ⟨inv, -⟩ := inv_loop r enum he sc mc given fuel _ st (inv_init r sc mc given) hst
  cases e
  intro j hj hjc
  by_contra hlt
  push Not at hlt
  have hge : given.length ≤ j := by
    by_contra hlt2
    push Not at hlt2
    have e1 : st.stackers[j] = given[j] := (List.IsPrefix.getElem inv.prefix_ hlt2).symm
    exact hgiven _ (List.getElem_mem hlt2) (e1 ▸ hjc)
  obtain ⟨-, -, col', h1, h2⟩ := inv.appended j hj hge
  rw [hjc] at h1
  rcases h2 with h2 | h2 | ⟨s, hs, h2⟩
  · exact hdirect col' (Or.inl h2) h1
  · exact hdirect col' (Or.inr h2) h1
  · obtain ⟨k, hk, rfl⟩ := List.getElem_of_mem hs
    rw [List.length_take] at hk
    rw [List.getElem_take] at h2
    exact hfirst k (by omega) col' h2 h1

/-- Registry with one chain: stacker `true` makes "b" from column "a" made by
stacker `false` from the database column "x". -/
def chain : Registry Bool where
  source col := if col = "b" then some true else if col = "a" then some false else none
  colsReq c := if c then ["a"] else ["x"]

def boolEnum (s : Finset Bool) : List Bool := [false, true].filter (fun b => decide (b ∈ s))

theorem boolEnum_isEnum : IsEnum boolEnum := by
  intro s
  refine ⟨List.Nodup.filter _ (by decide), ?_⟩
  intro c
  unfold boolEnum
  cases c <;> simp

/-- **C15**, refutation by witness: a metric needing column "b" gets the stackers
in the order `true, false` although `true` needs the output of `false`. -/
theorem stacker_order_false :
    (findReqCols chain boolEnum 2 [] ["b"] []).map (fun x => x.2.map Inst.cls) = some [true, false] ∧
    ¬ ∀ db stackers, findReqCols chain boolEnum 2 [] ["b"] [] = some (db, stackers) →
      OrderOk chain stackers := by
  refine ⟨by decide, ?_⟩
  intro h
  have h1 : findReqCols chain boolEnum 2 [] ["b"] [] =
      some ({"x"}, [⟨true, ["a"]⟩, ⟨false, ["x"]⟩]) := by decide
  obtain ⟨j, hj, -⟩ := h _ _ h1 0 (by simp) "a" (by simp) false (by decide)
  omega

/-- **C15**, what holds: if the user lists the stackers in dependency order (every
stacker column needed by a given stacker is produced by an earlier given one) and
the default stackers added only need database columns or columns of given
stackers, the order is right. Missing: added stackers that depend on other added
stackers (false, see `stacker_order_false`). -/
theorem stacker_order_partial (r : Registry C) (enum : Finset C → List C) (he : IsEnum enum)
    (sc mc : List String) (given : List (Inst C)) (fuel : Nat) (db : Finset String) (stackers : List (Inst C))
    (h : findReqCols r enum fuel sc mc given = some (db, stackers)) (hg : OrderOk r given)
    (hd : ∀ k col c, col ∈ r.colsReq k → r.source col = some c → ∃ s ∈ given, s.cls = c) :
    OrderOk r stackers := by
  unfold findReqCols at h
  rw [Option.map_eq_some_iff] at h
  obtain ⟨st, hst, e⟩ := h
  obtain ⟨inv, -⟩ := inv_loop r enum he sc mc given fuel _ st (inv_init r sc mc given) hst
  cases e
  have hpre : ∀ j (hj : j < given.length), st.stackers[j]'(lt_of_lt_of_le hj inv.prefix_.length_le) = given[j] :=
    fun j hj => (List.IsPrefix.getElem inv.prefix_ hj).symm
  intro i hi col hcol c hc
  by_cases hlt : i < given.length
  · rw [hpre i hlt] at hcol
    obtain ⟨j, hj, e⟩ := hg i hlt col hcol c hc
    exact ⟨j, hj, by rw [hpre j (by omega)]; exact e⟩
  · rw [(inv.appended i hi (by omega)).1] at hcol
    obtain ⟨s, hs, e⟩ := hd _ col c hcol hc
    obtain ⟨j, hj, rfl⟩ := List.getElem_of_mem hs
    exact ⟨j, by omega, by rw [hpre j hj]; exact e⟩

/-- Non-vacuity: with the producing stacker supplied by the user, the hypotheses of
`stacker_order_partial` hold and the order is right; the closure hypotheses of C14
hold for the registry. -/
example : (findReqCols chain boolEnum 2 ["ra"] ["b"] [⟨false, ["x"]⟩]).map (fun x => (x.1, x.2.map Inst.cls)) =
      some ({"ra", "x"}, [false, true]) ∧ OrderOk chain [⟨false, ["x"]⟩] ∧
    (∀ k col c, col ∈ chain.colsReq k → chain.source col = some c →
      ∃ s ∈ [(⟨false, ["x"]⟩ : Inst Bool)], s.cls = c) := by
  refine ⟨by decide, ?_, ?_⟩
  · intro i hi col hcol c hc
    have : i = 0 := by simpa using hi
    subst this
    simp at hcol
    subst hcol
    simp [chain] at hc
  · intro k col c hcol hc
    cases k <;> simp [chain] at hcol <;> subst hcol <;> simp [chain] at hc ⊢
    exact hc

end Verif.ReqCols
