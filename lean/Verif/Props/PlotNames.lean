import Verif.Model.PlotNames

/-!
# Properties of titles and legends (C610, C611)
-/

namespace Verif.PlotNames

/-- All bundles have the same. -/
def Shared (f : B → List Char) (bs : List B) : Prop := ∀ a ∈ bs, ∀ b ∈ bs, f a = f b

theorem dedup_const (l : List (List Char)) (a : List Char) (hne : l ≠ []) (h : ∀ b ∈ l, b = a) : l.dedup = [a] := by
  have hm : ∀ b ∈ l.dedup, b = a := fun b hb => h b (List.mem_dedup.mp hb)
  have hd := List.nodup_dedup l
  cases hl : l.dedup with
  | nil =>
    obtain ⟨b, l', rfl⟩ := List.exists_cons_of_ne_nil hne
    have : b ∈ (b :: l').dedup := List.mem_dedup.mpr (by simp)
    rw [hl] at this
    cases this
  | cons b r =>
    rw [hl] at hm hd
    cases r with
    | nil => rw [hm b (by simp)]
    | cons c r =>
      have h1 := hm b (by simp)
      have h2 := hm c (by simp)
      rw [List.nodup_cons] at hd
      exact absurd (by rw [h1, h2]; simp) hd.1

theorem count_pos (f : B → List Char) (bs : List B) (b : B) (hb : b ∈ bs) : 0 < count f bs :=
  List.length_pos_of_mem (List.mem_dedup.mpr (List.mem_map_of_mem hb))

theorem count_one (f : B → List Char) (bs : List B) (hne : bs ≠ []) : count f bs = 1 ↔ Shared f bs := by
  constructor
  · intro h a ha b hb
    obtain ⟨x, hx⟩ := List.length_eq_one_iff.mp h
    have h1 : f a ∈ (bs.map f).dedup := List.mem_dedup.mpr (List.mem_map_of_mem ha)
    have h2 : f b ∈ (bs.map f).dedup := List.mem_dedup.mpr (List.mem_map_of_mem hb)
    rw [hx, List.mem_singleton] at h1 h2
    rw [h1, h2]
  · intro h
    obtain ⟨c, cs, rfl⟩ := List.exists_cons_of_ne_nil hne
    unfold count
    rw [dedup_const _ (f c) (by simp)]
    · rfl
    · intro b hb
      obtain ⟨d, hd, rfl⟩ := List.mem_map.mp hb
      exact h d hd c (by simp)

theorem only_eq (f : B → List Char) (bs : List B) (b : B) (hb : b ∈ bs) (h : Shared f bs) : only f bs = f b := by
  unfold only
  rw [dedup_const _ (f b) (List.ne_nil_of_mem (List.mem_map_of_mem hb))]
  · rfl
  · intro c hc
    obtain ⟨d, hd, rfl⟩ := List.mem_map.mp hc
    exact h d hd b hb

theorem count_many (f : B → List Char) (bs : List B) (b : B) (hb : b ∈ bs) : 1 < count f bs ↔ ¬ Shared f bs := by
  rw [← count_one f bs (List.ne_nil_of_mem hb)]
  have := count_pos f bs b hb
  omega

/-! ## Title (C610) -/

open Classical in
/-- The title has the name of the run, the label and the name of the metric, in this order, each if all bundles share
it; if there are none, the joint names. -/
theorem title_shared (ji jm : List Char) (bs : List B) (b : B) (hb : b ∈ bs) :
    title ji jm bs =
      let t := (if Shared B.run bs then b.run else []) ++ (if Shared B.info bs then ' ' :: b.info else []) ++
        (if Shared B.metric bs then ':' :: ' ' :: b.metric else [])
      if t = [] then ji ++ ' ' :: jm else t := by
  have hne := List.ne_nil_of_mem hb
  unfold title
  simp only [count_one _ bs hne]
  by_cases h1 : Shared B.run bs <;> by_cases h2 : Shared B.info bs <;> by_cases h3 : Shared B.metric bs <;>
    simp [h1, h2, h3, only_eq _ bs b hb]

/-- The joint names are used exactly if bundles share neither the label nor the metric, and no name of a run that is not
empty. -/
theorem title_joint (bs : List B) (b : B) (hb : b ∈ bs) :
    (∀ ji jm, title ji jm bs = ji ++ ' ' :: jm) ↔
      ¬ Shared B.info bs ∧ ¬ Shared B.metric bs ∧ (Shared B.run bs → b.run = []) := by
  classical
  constructor
  · intro h
    have key : ∀ t : List Char, (∀ ji jm : List Char, (if t = [] then ji ++ ' ' :: jm else t) = ji ++ ' ' :: jm) → t = [] := by
      intro t ht
      by_contra hc
      have h1 := ht [] []
      have h2 := ht ['a'] []
      rw [if_neg hc] at h1 h2
      rw [h1] at h2
      simp at h2
    have := key _ (fun ji jm => (title_shared ji jm bs b hb).symm.trans (h ji jm))
    rw [List.append_eq_nil_iff, List.append_eq_nil_iff] at this
    obtain ⟨⟨h1, h2⟩, h3⟩ := this
    refine ⟨?_, ?_, ?_⟩
    · intro hs
      rw [if_pos hs] at h2
      cases h2
    · intro hs
      rw [if_pos hs] at h3
      cases h3
    · intro hs
      rw [if_pos hs] at h1
      exact h1
  · rintro ⟨h2, h3, h1⟩ ji jm
    rw [title_shared ji jm bs b hb]
    by_cases hr : Shared B.run bs
    · simp [h2, h3, hr, h1 hr]
    · simp [h2, h3, hr]

/-! ## Legend (C611) -/

open Classical in
/-- The label of a bundle without its own has the parts that the bundles do not share. -/
theorem legend_changing (bs : List B) (b : B) (hb : b ∈ bs) (hl : b.label = none) :
    legendOf bs b = (if Shared B.run bs then [] else b.run) ++ (if Shared B.info bs then [] else ' ' :: b.info) ++
      (if Shared B.metric bs then [] else ' ' :: b.metric) := by
  unfold legendOf
  rw [hl]
  simp only [count_many _ bs b hb]
  by_cases h1 : Shared B.run bs <;> by_cases h2 : Shared B.info bs <;> by_cases h3 : Shared B.metric bs <;>
    simp [h1, h2, h3]

/-- There is a label for each bundle, its own if it has one; none for a single bundle. -/
theorem legend_each (bs : List B) : (legend bs).length = bs.length ∧ (bs.length = 1 → legend bs = [none]) ∧
    (bs.length ≠ 1 → ∀ (i : Nat) (b : B) (l : List Char), bs[i]? = some b → b.label = some l →
      (legend bs)[i]? = some (some l)) := by
  unfold legend
  refine ⟨?_, ?_, ?_⟩
  · by_cases h : bs.length = 1 <;> simp [h]
  · intro h
    simp [h]
  · intro h i b l hi hb
    simp [h, hi, legendOf, hb]

theorem cut (a b s t : List Char) (ha : ' ' ∉ a) (hb : ' ' ∉ b) (hs : s = [] ∨ ∃ r, s = ' ' :: r)
    (ht : t = [] ∨ ∃ r, t = ' ' :: r) (h : a ++ s = b ++ t) : a = b ∧ s = t := by
  induction a generalizing b with
  | nil =>
    cases b with
    | nil => exact ⟨rfl, h⟩
    | cons c b =>
      rcases hs with rfl | ⟨r, rfl⟩
      · simp at h
      · simp only [List.nil_append, List.cons_append, List.cons.injEq] at h
        exact absurd (by simp [← h.1]) hb
  | cons c a ih =>
    cases b with
    | nil =>
      rcases ht with rfl | ⟨r, rfl⟩
      · simp at h
      · simp only [List.nil_append, List.cons_append, List.cons.injEq] at h
        exact absurd (by simp [h.1]) ha
    | cons d b =>
      simp only [List.cons_append, List.cons.injEq] at h
      obtain ⟨h1, h2⟩ := ih b (fun hh => ha (List.mem_cons_of_mem _ hh)) (fun hh => hb (List.mem_cons_of_mem _ hh)) h.2
      exact ⟨by rw [h.1, h1], h2⟩

/-- Different bundles have different labels. -/
def Distinct (bs : List B) : Prop := ∀ a ∈ bs, ∀ b ∈ bs, a.label = none → b.label = none → legendOf bs a = legendOf bs b →
  a.run = b.run ∧ a.info = b.info ∧ a.metric = b.metric

/-- The full statement is `Distinct`; missing: names and labels with blanks. -/
theorem distinct_partial (bs : List B) (h : ∀ b ∈ bs, ' ' ∉ b.run ∧ ' ' ∉ b.info) : Distinct bs := by
  classical
  intro a ha b hb hla hlb he
  rw [legend_changing bs a ha hla, legend_changing bs b hb hlb, List.append_assoc, List.append_assoc] at he
  have tail : ∀ (i m : List Char) (p q : Prop) [Decidable p] [Decidable q],
      ((if p then [] else ' ' :: i) ++ (if q then [] else ' ' :: m) : List Char) = [] ∨
      ∃ r, ((if p then [] else ' ' :: i) ++ (if q then [] else ' ' :: m) : List Char) = ' ' :: r := by
    intro i m p q _ _
    by_cases hp : p <;> by_cases hq : q <;> simp [hp, hq]
  have tail2 : ∀ (m : List Char) (q : Prop) [Decidable q],
      ((if q then [] else ' ' :: m) : List Char) = [] ∨ ∃ r, ((if q then [] else ' ' :: m) : List Char) = ' ' :: r := by
    intro m q _
    by_cases hq : q <;> simp [hq]
  have hno : ∀ c ∈ bs, ' ' ∉ (if Shared B.run bs then [] else c.run) := by
    intro c hc
    by_cases hr : Shared B.run bs
    · simp [hr]
    · simpa [hr] using (h c hc).1
  obtain ⟨h1, h2⟩ := cut _ _ _ _ (hno a ha) (hno b hb) (tail _ _ _ _) (tail _ _ _ _) he
  have hrun : a.run = b.run := by
    by_cases hr : Shared B.run bs
    · exact hr a ha b hb
    · simpa [hr] using h1
  by_cases hi : Shared B.info bs
  · refine ⟨hrun, hi a ha b hb, ?_⟩
    by_cases hm : Shared B.metric bs
    · exact hm a ha b hb
    · simpa [hi, hm] using h2
  · rw [if_neg hi, if_neg hi, List.cons_append, List.cons_append, List.cons.injEq] at h2
    obtain ⟨h3, h4⟩ := cut _ _ _ _ (h a ha).2 (h b hb).2 (tail2 _ _) (tail2 _ _) h2.2
    refine ⟨hrun, h3, ?_⟩
    by_cases hm : Shared B.metric bs
    · exact hm a ha b hb
    · simpa [hm] using h4

/-- With blanks different bundles can have the same label. -/
theorem distinct_false : ¬ ∀ bs : List B, Distinct bs := by
  intro h
  have := (h [⟨['a', ' ', 'b'], ['c'], ['m'], none⟩, ⟨['a'], ['b', ' ', 'c'], ['m'], none⟩] _ List.mem_cons_self _
    (List.mem_cons_of_mem _ (List.mem_singleton.mpr rfl)) rfl rfl (by decide)).1
  revert this
  decide

/-- Two runs with the same metric. -/
example : legend [⟨['a'], ['r'], ['m'], none⟩, ⟨['b'], ['r'], ['m'], none⟩] = [some ['a'], some ['b']] ∧
    title [] [] [⟨['a'], ['r'], ['m'], none⟩, ⟨['b'], ['r'], ['m'], none⟩] = [' ', 'r', ':', ' ', 'm'] := by decide

end Verif.PlotNames
