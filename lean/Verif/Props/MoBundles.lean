import Verif.Model.MoBundles
import Verif.Props.BundleGroup
import Mathlib.Data.List.Nodup
import Mathlib.Data.List.Chain

/-!
# C203 to C205: groups of moving object bundles
-/

namespace Verif.MoB

open Bundles (uniqStackers)

section Groups
variable {κ S D Orb V Q σ : Type} [DecidableEq κ] [DecidableEq V] [DecidableEq Q]

/-! ## C203 -/

theorem place_eq (compat : κ → κ → Bool) (k : κ) :
    place compat [] k = [[k]] ∧ ∀ (ls : List (List κ)) (l : List κ), place compat (ls ++ [l]) k =
      if ∀ c ∈ l, compat c k = true then ls ++ [l ++ [k]] else ls ++ [l] ++ [[k]] := by
  refine ⟨rfl, fun ls l => ?_⟩
  unfold place
  rw [List.foldl_append]
  simp only [List.foldl_cons, List.foldl_nil, List.getLast?_concat, List.dropLast_concat]
  by_cases h : ∀ c ∈ l, compat c k = true
  · rw [if_pos (List.all_eq_true.2 h), if_pos h]
  · rw [if_neg (fun e => h (List.all_eq_true.1 e)), if_neg h]

/-- C203: the lists are the keys in order; the bundles of a list are compatible with each other. A new list begins
only with a bundle that is not compatible with the list before. -/
theorem find_spec (compat : κ → κ → Bool) (keys : List κ) :
    (findCompatible compat keys).flatten = keys ∧
    (∀ l ∈ findCompatible compat keys, l ≠ [] ∧ l.Pairwise fun a b => compat a b = true) ∧
    (findCompatible compat keys).IsChain fun l l' => ∃ k t, l' = k :: t ∧ ∃ c ∈ l, compat c k = false := by
  unfold findCompatible
  induction keys using List.reverseRecOn with
  | nil => exact ⟨rfl, fun l h => by simp at h, .nil⟩
  | append_singleton keys k ih =>
    rw [List.foldl_append]
    simp only [List.foldl_cons, List.foldl_nil]
    generalize keys.foldl (place compat) [] = lists at ih ⊢
    obtain ⟨h1, h2, h3⟩ := ih
    rcases List.eq_nil_or_concat lists with rfl | ⟨ls, l, rfl⟩
    · rw [(place_eq compat k).1]
      simp only [List.flatten_nil] at h1
      subst h1
      refine ⟨rfl, fun l hl => ?_, .singleton _⟩
      rw [List.mem_singleton] at hl
      subst hl
      simp
    · rw [List.concat_eq_append] at h1 h2 h3 ⊢
      rw [(place_eq compat k).2]
      split
      · rename_i hc
        refine ⟨?_, fun m hm => ?_, ?_⟩
        · rw [← h1]
          simp
        · rcases List.mem_append.1 hm with hm | hm
          · exact h2 m (List.mem_append_left _ hm)
          · rw [List.mem_singleton] at hm
            subst hm
            refine ⟨by simp, ?_⟩
            rw [List.pairwise_append]
            refine ⟨(h2 l (by simp)).2, List.pairwise_singleton _ _, fun a ha b hb => ?_⟩
            rw [List.mem_singleton] at hb
            subst hb
            exact hc a ha
        · rw [List.isChain_append] at h3 ⊢
          refine ⟨h3.1, .singleton _, fun x hx y hy => ?_⟩
          simp only [List.head?_cons, Option.mem_def, Option.some.injEq] at hy
          obtain ⟨a, t, e, hex⟩ := h3.2.2 x hx l (by simp)
          exact ⟨a, t ++ [k], by rw [← hy, e]; rfl, hex⟩
      · rename_i hc
        refine ⟨?_, fun m hm => ?_, ?_⟩
        · rw [← h1]
          simp
        · rcases List.mem_append.1 hm with hm | hm
          · exact h2 m hm
          · rw [List.mem_singleton] at hm
            subst hm
            simp
        · rw [List.isChain_append]
          refine ⟨h3, .singleton _, fun x hx y hy => ?_⟩
          simp only [List.head?_cons, Option.mem_def, Option.some.injEq] at hy
          simp only [List.getLast?_concat, Option.mem_def, Option.some.injEq] at hx
          subst hx hy
          push Not at hc
          obtain ⟨c, hc, hn⟩ := hc
          exact ⟨k, [], rfl, c, hc, by simpa using hn⟩

/-- C203: when two bundles are compatible. -/
theorem compatible_iff {N : Type} [DecidableEq N] (slEq : σ → σ → Bool) (cls : S → N) (eq : S → S → Bool)
    (a b : Bundle S D Orb V Q σ) :
    checkCompatible slEq cls eq a b = true ↔ a.constraint = b.constraint ∧ slEq a.slicer b.slicer = true ∧
      ∀ s ∈ a.stackers, ∀ t ∈ b.stackers, cls s = cls t → eq s t = true := by
  unfold checkCompatible
  by_cases h1 : a.constraint = b.constraint
  · rw [if_neg (not_not.2 h1)]
    cases h2 : slEq a.slicer b.slicer with
    | false => simp [h1]
    | true =>
      simp only [Bool.not_true, Bool.false_eq_true, if_false]
      rw [Bool.not_eq_true', List.any_eq_false]
      constructor
      · intro h
        refine ⟨h1, trivial, fun s hs t ht hc => ?_⟩
        have := h s hs
        rw [Bool.not_eq_true, List.any_eq_false] at this
        have := this t ht
        simpa [hc] using this
      · rintro ⟨_, _, h⟩ s hs
        rw [Bool.not_eq_true, List.any_eq_false]
        intro t ht
        by_cases hc : cls s = cls t
        · simp [hc, h s hs t ht hc]
        · simp [hc]
  · rw [if_pos h1]
    simp [h1]

/-- The search is not for the fewest lists: a key is only compared with the last one. -/
example : findCompatible (fun a b : ℕ => a % 2 == b % 2) [0, 2, 1, 4, 6, 3] = [[0, 2], [1], [4, 6], [3]] := by decide

/-! ## C204: values and masks -/

/-- Value and mask of a bundle and of its children, for one object and H value. -/
def Vals.cell (v : Vals V) (x y : ℕ) : (V × Bool) × List (V × Bool) :=
  ((v.self.data x y, v.self.mask x y), v.kids.map fun a => (a.data x y, a.mask x y))

/-- What one evaluation does to a cell. -/
def updCell (b : Bundle S D Orb V Q σ) (rows : ℕ) (d : D) (o : Orb) (h : ℚ) (c : (V × Bool) × List (V × Bool)) :
    (V × Bool) × List (V × Bool) :=
  if rows = 0 ∨ b.metric d o h = b.bad then ((c.1.1, true), c.2.map fun a => (a.1, true))
  else ((b.metric d o h, c.1.2), List.zipWith (fun ch a =>
    if ch.metric d o h (b.metric d o h) = ch.bad then (a.1, true) else (ch.metric d o h (b.metric d o h), a.2))
    b.children c.2)

theorem evalCell_kids (b : Bundle S D Orb V Q σ) (rows : ℕ) (d : D) (o : Orb) (h : ℚ) (i j : ℕ) (v : Vals V)
    (hk : v.kids.length = b.children.length) : (evalCell b rows d o h i j v).kids.length = b.children.length := by
  unfold evalCell
  dsimp only
  split
  · simp [Vals.maskAll, hk]
  · split
    · simp [Vals.maskAll, hk]
    · simp [hk]

theorem maskAll_same (v : Vals V) (i j : ℕ) : (v.maskAll i j).cell i j =
    (((v.cell i j).1.1, true), (v.cell i j).2.map fun a => (a.1, true)) := by
  simp [Vals.maskAll, Vals.cell, Arr.setMask, Function.comp_def]

theorem maskAll_other (v : Vals V) (i j x y : ℕ) (h : ¬ (x = i ∧ y = j)) : (v.maskAll i j).cell x y = v.cell x y := by
  simp [Vals.maskAll, Vals.cell, Arr.setMask, Function.comp_def, h]

theorem evalCell_same (b : Bundle S D Orb V Q σ) (rows : ℕ) (d : D) (o : Orb) (h : ℚ) (i j : ℕ) (v : Vals V) :
    (evalCell b rows d o h i j v).cell i j = updCell b rows d o h (v.cell i j) := by
  unfold evalCell updCell
  dsimp only
  by_cases h0 : rows = 0
  · rw [if_pos h0, if_pos (Or.inl h0), maskAll_same]
  · rw [if_neg h0]
    by_cases h1 : b.metric d o h = b.bad
    · rw [if_pos h1, if_pos (Or.inr h1), maskAll_same]
    · rw [if_neg h1, if_neg (not_or.2 ⟨h0, h1⟩)]
      simp only [Vals.cell, Arr.setData, and_self, if_true]
      congr 1
      rw [List.map_zipWith, List.zipWith_map_right]
      congr 1
      funext c a
      unfold evalChild
      dsimp only
      split <;> simp [Arr.setMask, Arr.setData]

theorem zipWith_map_same {A B C : Type} (f : A → B → B) (g : B → C) (hg : ∀ a b, g (f a b) = g b) :
    ∀ (l : List A) (m : List B), m.length = l.length → (List.zipWith f l m).map g = m.map g := by
  intro l
  induction l with
  | nil =>
    intro m hm
    rw [List.length_eq_zero_iff.1 hm]
    rfl
  | cons a l ih =>
    intro m hm
    cases m with
    | nil => simp at hm
    | cons b m =>
      simp only [List.zipWith_cons_cons, List.map_cons, hg]
      rw [ih m (by simpa using hm)]

theorem evalCell_other (b : Bundle S D Orb V Q σ) (rows : ℕ) (d : D) (o : Orb) (h : ℚ) (i j x y : ℕ) (v : Vals V)
    (hk : v.kids.length = b.children.length) (hn : ¬ (x = i ∧ y = j)) :
    (evalCell b rows d o h i j v).cell x y = v.cell x y := by
  unfold evalCell
  dsimp only
  split
  · exact maskAll_other v i j x y hn
  · split
    · exact maskAll_other v i j x y hn
    · simp only [Vals.cell, Arr.setData, if_neg hn]
      congr 1
      refine zipWith_map_same _ _ (fun c a => ?_) _ _ hk
      unfold evalChild
      dsimp only
      split <;> simp [Arr.setMask, Arr.setData, hn]

/-- The tables: all stackers for each of the H values. -/
def tables (run : S → ℚ → ℚ → D → D) (ss : List S) (href : ℚ) (hs : List ℚ) (d : D) : D :=
  hs.foldl (fun d h => ss.foldl (fun d s => run s href h d) d) d

/-- The loop over H values for one bundle. -/
def hOne (run : S → ℚ → ℚ → D → D) (ss : List S) (b : Bundle S D Orb V Q σ) (rows : ℕ) (o : Orb) (href : ℚ) (i : ℕ) :
    List ℚ → ℕ → D → Vals V → Vals V
  | [], _, _, v => v
  | h :: hs, j, d, v =>
    hOne run ss b rows o href i hs (j + 1) (stack run ss rows href h d)
      (evalCell b rows (stack run ss rows href h d) o h i j v)

def sOne (run : S → ℚ → ℚ → D → D) (ss : List S) (b : Bundle S D Orb V Q σ) : List (Point D Orb) → ℕ → Vals V → Vals V
  | [], _, v => v
  | p :: ps, i, v => sOne run ss b ps (i + 1) (hOne run ss b p.rows p.orbit p.href i p.hvals 0 p.table v)

theorem stack_rows (run : S → ℚ → ℚ → D → D) (ss : List S) (rows : ℕ) (href h : ℚ) (d : D) (h0 : rows ≠ 0) :
    stack run ss rows href h d = ss.foldl (fun d s => run s href h d) d := by
  unfold stack
  simp only [if_neg h0]

theorem hOne_kids (run : S → ℚ → ℚ → D → D) (ss : List S) (b : Bundle S D Orb V Q σ) (rows : ℕ) (o : Orb) (href : ℚ)
    (i : ℕ) : ∀ hs j d (v : Vals V), v.kids.length = b.children.length →
      (hOne run ss b rows o href i hs j d v).kids.length = b.children.length := by
  intro hs
  induction hs with
  | nil => intro j d v h; exact h
  | cons h hs ih => intro j d v hv; exact ih _ _ _ (evalCell_kids _ _ _ _ _ _ _ _ hv)

theorem hOne_other (run : S → ℚ → ℚ → D → D) (ss : List S) (b : Bundle S D Orb V Q σ) (rows : ℕ) (o : Orb) (href : ℚ)
    (i : ℕ) (x y : ℕ) : ∀ hs j d (v : Vals V), v.kids.length = b.children.length → (x ≠ i ∨ y < j) →
      (hOne run ss b rows o href i hs j d v).cell x y = v.cell x y := by
  intro hs
  induction hs with
  | nil => intro j d v _ _; rfl
  | cons h hs ih =>
    intro j d v hv hn
    unfold hOne
    rw [ih _ _ _ (evalCell_kids _ _ _ _ _ _ _ _ hv) (by omega), evalCell_other _ _ _ _ _ _ _ _ _ _ hv (by omega)]

theorem hOne_cell (run : S → ℚ → ℚ → D → D) (ss : List S) (b : Bundle S D Orb V Q σ) (rows : ℕ) (o : Orb) (href : ℚ)
    (i : ℕ) : ∀ (hs : List ℚ) (j : ℕ) (d : D) (v : Vals V) (n : ℕ) (h : ℚ), v.kids.length = b.children.length →
      hs[n]? = some h → ∃ d', (rows ≠ 0 → d' = tables run ss href (hs.take (n + 1)) d) ∧
        (hOne run ss b rows o href i hs j d v).cell i (j + n) = updCell b rows d' o h (v.cell i (j + n)) := by
  intro hs
  induction hs with
  | nil => intro j d v n h _ hn; simp at hn
  | cons h0 hs ih =>
    intro j d v n h hv hn
    unfold hOne
    cases n with
    | zero =>
      simp only [List.getElem?_cons_zero, Option.some.injEq] at hn
      subst hn
      refine ⟨stack run ss rows href h0 d, fun hr => ?_, ?_⟩
      · rw [stack_rows _ _ _ _ _ _ hr]
        rfl
      · rw [hOne_other _ _ _ _ _ _ _ _ _ _ _ _ _ (evalCell_kids _ _ _ _ _ _ _ _ hv) (Or.inr (by omega))]
        exact evalCell_same _ _ _ _ _ _ _ _
    | succ n =>
      rw [List.getElem?_cons_succ] at hn
      obtain ⟨d', h1, h2⟩ := ih (j + 1) (stack run ss rows href h0 d)
        (evalCell b rows (stack run ss rows href h0 d) o h0 i j v) n h (evalCell_kids _ _ _ _ _ _ _ _ hv) hn
      refine ⟨d', fun hr => ?_, ?_⟩
      · rw [h1 hr, stack_rows _ _ _ _ _ _ hr]
        rfl
      · rw [show j + (n + 1) = j + 1 + n from by omega, h2, evalCell_other _ _ _ _ _ _ _ _ _ _ hv (by omega)]

theorem sOne_other (run : S → ℚ → ℚ → D → D) (ss : List S) (b : Bundle S D Orb V Q σ) (x y : ℕ) :
    ∀ ps i (v : Vals V), v.kids.length = b.children.length → x < i → (sOne run ss b ps i v).cell x y = v.cell x y := by
  intro ps
  induction ps with
  | nil => intro i v _ _; rfl
  | cons p ps ih =>
    intro i v hv hx
    unfold sOne
    rw [ih _ _ (hOne_kids _ _ _ _ _ _ _ _ _ _ _ hv) (by omega), hOne_other _ _ _ _ _ _ _ _ _ _ _ _ _ hv (by omega)]

theorem sOne_cell (run : S → ℚ → ℚ → D → D) (ss : List S) (b : Bundle S D Orb V Q σ) :
    ∀ (ps : List (Point D Orb)) (i : ℕ) (v : Vals V) (n : ℕ) (p : Point D Orb) (j : ℕ) (h : ℚ),
      v.kids.length = b.children.length → ps[n]? = some p → p.hvals[j]? = some h →
      ∃ d', (p.rows ≠ 0 → d' = tables run ss p.href (p.hvals.take (j + 1)) p.table) ∧
        (sOne run ss b ps i v).cell (i + n) j = updCell b p.rows d' p.orbit h (v.cell (i + n) j) := by
  intro ps
  induction ps with
  | nil => intro i v n p j h _ hn; simp at hn
  | cons p0 ps ih =>
    intro i v n p j h hv hn hj
    unfold sOne
    cases n with
    | zero =>
      simp only [List.getElem?_cons_zero, Option.some.injEq] at hn
      subst hn
      obtain ⟨d', h1, h2⟩ := hOne_cell run ss b p0.rows p0.orbit p0.href i p0.hvals 0 p0.table v j h hv hj
      refine ⟨d', h1, ?_⟩
      rw [Nat.add_zero, sOne_other _ _ _ _ _ _ _ _ (hOne_kids _ _ _ _ _ _ _ _ _ _ _ hv) (by omega)]
      simpa using h2
    | succ n =>
      rw [List.getElem?_cons_succ] at hn
      obtain ⟨d', h1, h2⟩ := ih (i + 1) (hOne run ss b p0.rows p0.orbit p0.href i p0.hvals 0 p0.table v) n p j h
        (hOne_kids _ _ _ _ _ _ _ _ _ _ _ hv) hn hj
      refine ⟨d', h1, ?_⟩
      rw [show i + (n + 1) = i + 1 + n from by omega, h2, hOne_other _ _ _ _ _ _ _ _ _ _ _ _ _ hv (Or.inl (by omega))]

/-! From the loop over all bundles to that of one bundle. -/

theorem foldl_update {A : Type} (f : κ → A → A) (keys : List κ) (hnd : keys.Nodup) :
    ∀ (st : κ → A) (k : κ), keys.foldl (fun st k => Function.update st k (f k (st k))) st k =
      if k ∈ keys then f k (st k) else st k := by
  induction keys with
  | nil => intro st k; rfl
  | cons a keys ih =>
    intro st k
    rw [List.nodup_cons] at hnd
    rw [List.foldl_cons, ih hnd.2]
    by_cases h : k = a
    · subst h
      simp [hnd.1]
    · simp [h]

theorem hLoop_at (run : S → ℚ → ℚ → D → D) (ss : List S) (bd : κ → Bundle S D Orb V Q σ) (keys : List κ)
    (hnd : keys.Nodup) (rows : ℕ) (o : Orb) (href : ℚ) (i : ℕ) (k : κ) : ∀ hs j d (st : κ → Vals V),
      hLoop run ss bd keys rows o href i hs j d st k =
        if k ∈ keys then hOne run ss (bd k) rows o href i hs j d (st k) else st k := by
  intro hs
  induction hs with
  | nil => intro j d st; simp [hLoop, hOne]
  | cons h hs ih =>
    intro j d st
    unfold hLoop hOne
    dsimp only
    rw [ih]
    unfold keysLoop
    rw [foldl_update (fun k v => evalCell (bd k) rows (stack run ss rows href h d) o h i j v) keys hnd]
    by_cases hk : k ∈ keys <;> simp [hk]

theorem sLoop_at (run : S → ℚ → ℚ → D → D) (ss : List S) (bd : κ → Bundle S D Orb V Q σ) (keys : List κ)
    (hnd : keys.Nodup) (k : κ) : ∀ ps i (st : κ → Vals V), sLoop run ss bd keys ps i st k =
      if k ∈ keys then sOne run ss (bd k) ps i (st k) else st k := by
  intro ps
  induction ps with
  | nil => intro i st; simp [sLoop, sOne]
  | cons p ps ih =>
    intro i st
    unfold sLoop sOne
    rw [ih, hLoop_at run ss bd keys hnd]
    by_cases hk : k ∈ keys <;> simp [hk]

/-- The values of one bundle. -/
def valuesOf (eq : S → S → Bool) (run : S → ℚ → ℚ → D → D) (junk : V) (all : List κ) (bd : κ → Bundle S D Orb V Q σ)
    (points : List (Point D Orb)) (k : κ) : Vals V :=
  sOne run (uniqStackers eq (all.flatMap fun k => (bd k).stackers)) (bd k) points 0 (setupVals junk (bd k))

theorem runCompatible_at (eq : S → S → Bool) (run : S → ℚ → ℚ → D → D) (junk : V) (all : List κ)
    (bd : κ → Bundle S D Orb V Q σ) (keys : List κ) (hnd : keys.Nodup) (points : List (Point D Orb)) (st : κ → Vals V)
    (k : κ) : runCompatible eq run junk all bd keys points st k =
      if k ∈ keys then valuesOf eq run junk all bd points k else st k := by
  unfold runCompatible valuesOf
  rw [sLoop_at _ _ _ _ hnd, foldl_update (fun k _ => setupVals junk (bd k)) keys hnd]
  by_cases hk : k ∈ keys <;> simp [hk]

theorem foldl_hit {X A : Type} (f : (κ → A) → X → κ → A) (k : κ) (w : A) (P : X → Prop) [DecidablePred P] :
    ∀ (l : List X) (st : κ → A), (∀ x ∈ l, ∀ st, f st x k = if P x then w else st k) →
      l.foldl f st k = if ∃ x ∈ l, P x then w else st k := by
  intro l
  induction l with
  | nil => intro st _; simp
  | cons x l ih =>
    intro st h
    rw [List.foldl_cons, ih _ fun y hy => h y (by simp [hy]), h x (by simp)]
    by_cases h1 : P x <;> by_cases h2 : ∃ y ∈ l, P y
    · simp [h1]
    · simp [h1]
    · simp [h1, h2]
    · simp [h1, h2]

theorem runConstraint_at (compat : κ → κ → Bool) (eq : S → S → Bool) (run : S → ℚ → ℚ → D → D) (junk : V) (all : List κ)
    (hnd : all.Nodup) (bd : κ → Bundle S D Orb V Q σ) (points : Option Q → List (Point D Orb)) (c : Option Q)
    (st : κ → Vals V) (k : κ) :
    runConstraint compat eq run junk all bd points c st k =
      if k ∈ all ∧ (bd k).constraint = c then valuesOf eq run junk all bd (points c) k else st k := by
  unfold runConstraint
  set ks := all.filter fun k => decide ((bd k).constraint = c) with hks
  have hmem : k ∈ ks ↔ k ∈ all ∧ (bd k).constraint = c := by rw [hks, List.mem_filter]; simp
  split
  · rename_i h0
    have : ¬ (k ∈ ks) := by rw [List.length_eq_zero_iff.1 h0]; simp
    rw [if_neg (fun h => this (hmem.2 h))]
  · obtain ⟨h1, h2, _⟩ := find_spec compat ks
    have hnds : ks.Nodup := hnd.filter _
    rw [foldl_hit _ k (valuesOf eq run junk all bd (points c) k) (fun l => k ∈ l)]
    · have : (∃ l ∈ findCompatible compat ks, k ∈ l) ↔ k ∈ ks := by
        conv_rhs => rw [← h1]
        rw [List.mem_flatten]
      simp only [this, hmem]
    · intro l hl st
      refine runCompatible_at eq run junk all bd l ?_ (points c) st k
      rw [← h1] at hnds
      exact (List.nodup_flatten.1 hnds).1 l hl

theorem runAll_at (compat : κ → κ → Bool) (eq : S → S → Bool) (run : S → ℚ → ℚ → D → D) (junk : V) (all : List κ)
    (hnd : all.Nodup) (bd : κ → Bundle S D Orb V Q σ) (points : Option Q → List (Point D Orb)) (cs : List (Option Q))
    (hcs : ∀ c, c ∈ cs ↔ ∃ k ∈ all, (bd k).constraint = c) (st : κ → Vals V) (k : κ) :
    runAll compat eq run junk all bd points cs st k =
      if k ∈ all then valuesOf eq run junk all bd (points (bd k).constraint) k else st k := by
  unfold runAll
  rw [foldl_hit _ k (valuesOf eq run junk all bd (points (bd k).constraint) k)
    (fun c => k ∈ all ∧ (bd k).constraint = c)]
  · have : (∃ c ∈ cs, k ∈ all ∧ (bd k).constraint = c) ↔ k ∈ all :=
      ⟨fun ⟨_, _, h, _⟩ => h, fun h => ⟨_, (hcs _).2 ⟨k, h, rfl⟩, h, rfl⟩⟩
    simp only [this]
  · intro c _ st
    rw [runConstraint_at compat eq run junk all hnd]
    by_cases h : k ∈ all ∧ (bd k).constraint = c
    · rw [if_pos h, if_pos h, h.2]
    · rw [if_neg h, if_neg h]

/-- C204: after `run_all`, the value of each bundle for each object and H value is the metric of the observations that
meet its constraint, with the columns of the stackers; it is masked if there are none or if the metric
gives the bad value. The values of the children are from the same table and the value of the parent, and
are masked if the parent is masked or if they are bad. -/
theorem run_spec (compat : κ → κ → Bool) (eq : S → S → Bool) (run : S → ℚ → ℚ → D → D) (junk : V) (all : List κ)
    (hnd : all.Nodup) (bd : κ → Bundle S D Orb V Q σ) (points : Option Q → List (Point D Orb)) (cs : List (Option Q))
    (hcs : ∀ c, c ∈ cs ↔ ∃ k ∈ all, (bd k).constraint = c) (st : κ → Vals V) (k : κ) (hk : k ∈ all)
    (i j : ℕ) (p : Point D Orb) (h : ℚ) (hp : (points (bd k).constraint)[i]? = some p) (hh : p.hvals[j]? = some h) :
    let v := runAll compat eq run junk all bd points cs st k
    let t := tables run (uniqStackers eq (all.flatMap fun k => (bd k).stackers)) p.href (p.hvals.take (j + 1)) p.table
    let m := (bd k).metric t p.orbit h
    (v.self.mask i j = true ↔ p.rows = 0 ∨ m = (bd k).bad) ∧
    (v.self.mask i j = false → v.self.data i j = m) ∧
    v.kids.length = (bd k).children.length ∧
    ∀ (n : ℕ) (c : Child D Orb V) (a : Arr V), (bd k).children[n]? = some c → v.kids[n]? = some a →
      (a.mask i j = true ↔ v.self.mask i j = true ∨ c.metric t p.orbit h m = c.bad) ∧
      (a.mask i j = false → a.data i j = c.metric t p.orbit h m) := by
  intro v t m
  have hv : v = valuesOf eq run junk all bd (points (bd k).constraint) k := by
    have := runAll_at compat eq run junk all hnd bd points cs hcs st k
    rw [if_pos hk] at this
    exact this
  have hset : (setupVals junk (bd k)).kids.length = (bd k).children.length := by simp [setupVals]
  obtain ⟨d', h1, h2⟩ := sOne_cell run (uniqStackers eq (all.flatMap fun k => (bd k).stackers)) (bd k)
    (points (bd k).constraint) 0 (setupVals junk (bd k)) i p j h hset hp hh
  rw [Nat.zero_add] at h2
  rw [show sOne run (uniqStackers eq (all.flatMap fun k => (bd k).stackers)) (bd k) (points (bd k).constraint) 0
    (setupVals junk (bd k)) = v from hv.symm] at h2
  have h0 : (setupVals junk (bd k)).cell i j = ((junk, false), (bd k).children.map fun _ => (junk, false)) := by
    simp [setupVals, Vals.cell, Function.comp_def]
  rw [h0] at h2
  have hl : v.kids.length = (bd k).children.length := by
    have := congrArg (fun c => c.2.length) h2
    unfold updCell at this
    split at this <;> simpa [Vals.cell] using this
  by_cases hr : p.rows = 0
  · unfold updCell at h2
    rw [if_pos (Or.inl hr)] at h2
    have hm : v.self.mask i j = true := congrArg (fun c => c.1.2) h2
    refine ⟨⟨fun _ => Or.inl hr, fun _ => hm⟩, fun h => (by rw [hm] at h; cases h), hl, fun n c a hc ha => ?_⟩
    have := congrArg (fun c => c.2[n]?) h2
    simp only [Vals.cell, List.getElem?_map, ha, hc, Option.map_some, Option.some.injEq, Prod.mk.injEq] at this
    exact ⟨⟨fun _ => Or.inl hm, fun _ => this.2⟩, fun h => (by rw [this.2] at h; cases h)⟩
  · have ht : d' = t := h1 hr
    subst ht
    unfold updCell at h2
    by_cases hb : m = (bd k).bad
    · rw [if_pos (Or.inr hb)] at h2
      have hm : v.self.mask i j = true := congrArg (fun c => c.1.2) h2
      refine ⟨⟨fun _ => Or.inr hb, fun _ => hm⟩, fun h => (by rw [hm] at h; cases h), hl, fun n c a hc ha => ?_⟩
      have := congrArg (fun c => c.2[n]?) h2
      simp only [Vals.cell, List.getElem?_map, ha, hc, Option.map_some, Option.some.injEq, Prod.mk.injEq] at this
      exact ⟨⟨fun _ => Or.inl hm, fun _ => this.2⟩, fun h => (by rw [this.2] at h; cases h)⟩
    · rw [if_neg (not_or.2 ⟨hr, hb⟩)] at h2
      have hm : v.self.mask i j = false := congrArg (fun c => c.1.2) h2
      have hd : v.self.data i j = m := congrArg (fun c => c.1.1) h2
      refine ⟨⟨fun h => (by rw [hm] at h; cases h), fun h => ?_⟩, fun _ => hd, hl, fun n c a hc ha => ?_⟩
      · rcases h with h | h
        · exact absurd h hr
        · exact absurd h hb
      · have := congrArg (fun c => c.2[n]?) h2
        simp only [Vals.cell, List.getElem?_map, ha, hc, Option.map_some, List.getElem?_zipWith] at this
        by_cases hcb : c.metric t p.orbit h m = c.bad
        · rw [if_pos hcb] at this
          simp only [Option.some.injEq, Prod.mk.injEq] at this
          exact ⟨⟨fun _ => Or.inr hcb, fun _ => this.2⟩, fun h => (by rw [this.2] at h; cases h)⟩
        · rw [if_neg hcb] at this
          simp only [Option.some.injEq, Prod.mk.injEq] at this
          refine ⟨⟨fun h => (by rw [this.2] at h; cases h), fun h => ?_⟩, fun _ => this.1⟩
          rcases h with h | h
          · rw [hm] at h; cases h
          · exact absurd h hcb

/-! ## C205: independence -/

theorem uniq_absorb (eq : S → S → Bool) : ∀ (l u : List S), (∀ s ∈ l, ∃ x ∈ u, eq x s = true) →
    l.foldl (fun u s => if u.any (fun x => eq x s) then u else u ++ [s]) u = u := by
  intro l
  induction l with
  | nil => intro u _; rfl
  | cons s l ih =>
    intro u h
    obtain ⟨x, hx, he⟩ := h s (by simp)
    rw [List.foldl_cons, if_pos (List.any_eq_true.2 ⟨x, hx, he⟩)]
    exact ih u fun s hs => h s (by simp [hs])

theorem uniq_cover (eq : S → S → Bool) (hrefl : ∀ s, eq s s = true) (l : List S) :
    ∀ s ∈ l, ∃ x ∈ uniqStackers eq l, eq x s = true := by
  unfold uniqStackers
  induction l using List.reverseRecOn with
  | nil => intro s hs; simp at hs
  | append_singleton l a ih =>
    intro s hs
    rw [List.foldl_append]
    simp only [List.foldl_cons, List.foldl_nil]
    split
    · rename_i h
      rcases List.mem_append.1 hs with hs | hs
      · exact ih s hs
      · rw [List.mem_singleton] at hs
        subst hs
        obtain ⟨x, hx, he⟩ := List.any_eq_true.1 h
        exact ⟨x, hx, he⟩
    · rcases List.mem_append.1 hs with hs | hs
      · obtain ⟨x, hx, he⟩ := ih s hs
        exact ⟨x, List.mem_append_left _ hx, he⟩
      · rw [List.mem_singleton] at hs
        subst hs
        exact ⟨s, by simp, hrefl s⟩

theorem uniq_same (eq : S → S → Bool) (hrefl : ∀ s, eq s s = true) (l : List S) (lists : List (List S))
    (h : ∀ m ∈ lists, m = l) : uniqStackers eq (l ++ lists.flatten) = uniqStackers eq l := by
  unfold uniqStackers
  rw [List.foldl_append]
  refine uniq_absorb eq _ _ fun s hs => ?_
  obtain ⟨m, hm, hs⟩ := List.mem_flatten.1 hs
  rw [h m hm] at hs
  exact uniq_cover eq hrefl l s hs

/-- C205: if all bundles of a group have the same stackers, then a bundle has the values it has when it is run
alone. -/
theorem alone_partial (compat : κ → κ → Bool) (eq : S → S → Bool) (hrefl : ∀ s, eq s s = true)
    (run : S → ℚ → ℚ → D → D) (junk : V) (all : List κ) (hnd : all.Nodup) (bd : κ → Bundle S D Orb V Q σ)
    (points : Option Q → List (Point D Orb)) (cs : List (Option Q))
    (hcs : ∀ c, c ∈ cs ↔ ∃ k ∈ all, (bd k).constraint = c) (st st' : κ → Vals V) (k : κ) (hk : k ∈ all)
    (hs : ∀ k' ∈ all, (bd k').stackers = (bd k).stackers) :
    runAll compat eq run junk all bd points cs st k =
      runAll compat eq run junk [k] bd points [(bd k).constraint] st' k := by
  rw [runAll_at compat eq run junk all hnd bd points cs hcs, if_pos hk,
    runAll_at compat eq run junk [k] (by simp) bd points [(bd k).constraint] (by simp [eq_comm]), if_pos (by simp)]
  unfold valuesOf
  congr 1
  have h1 : uniqStackers eq (all.flatMap fun k => (bd k).stackers) = uniqStackers eq (bd k).stackers := by
    have hlists : ∀ m ∈ all.map (fun k => (bd k).stackers), m = (bd k).stackers := by
      intro m hm
      obtain ⟨k', hk', rfl⟩ := List.mem_map.1 hm
      exact hs k' hk'
    rw [List.flatMap_def]
    cases hal : all.map (fun k => (bd k).stackers) with
    | nil =>
      rw [List.map_eq_nil_iff] at hal
      rw [hal] at hk
      simp at hk
    | cons l ls =>
      rw [hal] at hlists
      rw [List.flatten_cons, hlists l (by simp)]
      exact uniq_same eq hrefl _ ls fun m hm => hlists m (by simp [hm])
  rw [h1]
  simp

/-- C205 is false in general: bundles that are not compatible are run one after the other, but both with the stackers of
both of them, so that the first one has the values of the stacker of the second one. -/
theorem alone_false : ∃ (bd : ℕ → Bundle ℚ ℚ Unit ℚ Unit Unit),
    let compat := fun a b => checkCompatible (fun _ _ => true) (fun _ : ℚ => ()) (fun s t => decide (s = t)) (bd a) (bd b)
    let eq := fun s t : ℚ => decide (s = t)
    let run := fun (s : ℚ) (_ _ _ : ℚ) => s
    let points := fun _ : Option Unit => [(⟨1, 0, (), 20, [20]⟩ : Point ℚ Unit)]
    let st := fun _ : ℕ => (⟨⟨fun _ _ => 0, fun _ _ => false⟩, []⟩ : Vals ℚ)
    findCompatible compat [0, 1] = [[0], [1]] ∧
    (runAll compat eq run 0 [0, 1] bd points [none] st 0).self.data 0 0 = 2 ∧
    (runAll compat eq run 0 [0] bd points [none] st 0).self.data 0 0 = 1 :=
  ⟨fun k => ⟨none, (), [(k : ℚ) + 1], fun d _ _ => d, -1, []⟩, by decide +kernel⟩

end Groups

section HValues
variable {Col Val S Orb V : Type} [DecidableEq Col]

/-- C205: the value for an H value does not depend on the other H values of the range, if the columns that
the stackers and the metric need are not changed by stackers except by earlier ones of the list. -/
theorem h_alone (sem : S → ℚ → ℚ → Bundles.StackerSem Col Val)
    (hw : ∀ s r h h', (sem s r h).writes = (sem s r h').writes)
    (ss : List S) (href : ℚ) (m : Col → Prop) (metric : (Col → Val) → V)
    (hm : ∀ d d', (∀ c, m c → d c = d' c) → metric d = metric d') (hs : List ℚ) (j : ℕ) (h : ℚ) (hj : hs[j]? = some h)
    (hn : ∀ c, Bundles.needed m (ss.map fun s => sem s href h) c → ∀ s ∈ ss, c ∉ (sem s href h).writes)
    (d : Col → Val) :
    metric (tables (fun s r h => (sem s r h).run) ss href (hs.take (j + 1)) d) =
      metric (tables (fun s r h => (sem s r h).run) ss href [h] d) := by
  have one : ∀ (h : ℚ) (d : Col → Val), ss.foldl (fun d s => (sem s href h).run d) d =
      Bundles.runStackers Bundles.StackerSem.run (ss.map fun s => sem s href h) d := by
    intro h d
    unfold Bundles.runStackers
    rw [List.foldl_map]
  have frame : ∀ (l : List ℚ) (d : Col → Val) (c : Col), (∀ s ∈ ss, c ∉ (sem s href h).writes) →
      tables (fun s r h => (sem s r h).run) ss href l d c = d c := by
    intro l
    induction l with
    | nil => intro d c _; rfl
    | cons h' l ih =>
      intro d c hc
      unfold tables at ih ⊢
      rw [List.foldl_cons, ih _ c hc, one]
      refine Bundles.runStackers_frame _ d c fun s hs => ?_
      obtain ⟨s', hs', rfl⟩ := List.mem_map.1 hs
      rw [hw s' href h' h]
      exact hc s' hs'
  refine hm _ _ fun c hc => ?_
  have e : hs.take (j + 1) = hs.take j ++ [h] := by rw [List.take_add_one, hj]; rfl
  rw [e]
  unfold tables
  rw [List.foldl_append]
  simp only [List.foldl_cons, List.foldl_nil]
  rw [one, one]
  refine Bundles.runStackers_agree _ m _ _ (fun x hx => ?_) c hc
  exact frame (hs.take j) d x (hn x hx)

end HValues

/-! ## C206: labels and summary metrics -/

/-- C206 is false: the label does not depend on the observations, so bundles of the same metric on the
observations of two files have the same default file name. -/
theorem label_false (f g c : Option String) (runName metricName slicerName : String) :
    fileRoot runName metricName (infoLabel f c none) slicerName = fileRoot runName metricName (infoLabel g c none) slicerName := rfl

/-- C206: a label that is given is used; else the constraint is in it. -/
theorem label_partial (f c : Option String) (l : String) :
    infoLabel f c (some l) = l ∧ infoLabel f none none = "noObs" ∧
    (∀ a b, infoLabel f (some a) none = infoLabel f (some b) none → a = b) := by
  refine ⟨rfl, rfl, fun a b h => ?_⟩
  unfold infoLabel at h
  simp only at h
  have := congrArg String.toList h
  simp only [String.toList_append] at this
  have := List.append_cancel_left this
  exact String.toList_injective this

/-- C206: the summary metrics are run on the children if there are any, else on the bundle itself. -/
theorem summary_spec {M A : Type} (children : List M) (summary : List A) :
    (setChildBundles children summary).1 = (if children = [] then summary else []) ∧
    (setChildBundles children summary).2.map Prod.fst = children ∧
    ∀ c ∈ (setChildBundles children summary).2, c.2 = summary := by
  unfold setChildBundles
  refine ⟨?_, ?_, ?_⟩
  · cases children <;> simp
  · simp [Function.comp_def]
  · intro c hc
    simp only [List.mem_map] at hc
    obtain ⟨m, _, rfl⟩ := hc
    rfl

/-- Two objects, two H values, one metric with a child: the number in the table plus H, bad if it is 0. -/
example :
    let b : Bundle ℚ ℚ Unit ℚ Unit Unit := ⟨none, (), [5], fun d _ h => d + h, 0, [⟨fun _ _ _ m => m - 27, 0⟩]⟩
    let r := runAll (fun _ _ => true) (fun s t => decide (s = t)) (fun s _ _ d => if d = 0 then s else d) (99 : ℚ) [(0 : ℕ)] (fun _ => b)
      (fun _ => [⟨2, 0, (), 20, [20, 22]⟩, ⟨0, 1, (), 21, [20, 22]⟩, ⟨1, -20, (), 19, [20, 22]⟩]) [none]
      (fun _ => ⟨⟨fun _ _ => 0, fun _ _ => false⟩, []⟩) 0
    [0, 1, 2].map (fun i => [0, 1].map fun j => (r.self.mask i j, r.kids.map fun a => a.mask i j)) =
      [[(false, [false]), (false, [true])], [(true, [true]), (true, [true])], [(true, [true]), (false, [false])]] ∧
    r.self.data 0 1 = 27 ∧ r.self.data 2 1 = 2 ∧ r.kids.map (fun a => a.data 2 1) = [-25] := by
  decide +kernel

end Verif.MoB
