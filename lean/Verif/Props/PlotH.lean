import Mathlib.Tactic.Linarith
import Mathlib.Tactic.FieldSimp
import Mathlib.Tactic.Ring
import Mathlib.Data.List.Perm.Basic
import Mathlib.Data.List.Induction
import Mathlib.Algebra.Order.Ring.Rat
import Mathlib.Data.List.Nodup
import Verif.Model.PlotH

namespace Verif.PlotH

/-! ## C367: the order of the bundles -/

theorem pyInsert_perm {α : Type*} (l : List α) (i : Int) (x : α) : (pyInsert l i x).Perm (x :: l) := by
  unfold pyInsert
  dsimp only
  refine List.perm_middle.trans ?_
  rw [List.take_append_drop]

theorem pyInsert_end {α : Type*} (l : List α) (i : Int) (x : α) (h : (l.length : Int) ≤ i) : pyInsert l i x = l ++ [x] := by
  unfold pyInsert
  dsimp only
  have h0 : ¬ i < 0 := by omega
  rw [if_neg h0, min_eq_right h]
  simp

theorem foldl_perm (bs : List Bundle) : ∀ l, (bs.foldl addBundle l).Perm (bs ++ l) := by
  induction bs with
  | nil => intro l; simp
  | cons b bs ih =>
    intro l
    rw [List.foldl_cons]
    refine (ih _).trans ?_
    refine ((pyInsert_perm _ _ _).append_left bs).trans ?_
    exact List.perm_middle

theorem foldl_append (bs : List Bundle) : ∀ l : List Bundle,
    (∀ (k : Nat) (b : Bundle), bs[k]? = some b → ∀ o : Int, forder b.root = some o → ((l.length + k : Nat) : Int) ≤ o) →
    bs.foldl addBundle l = l ++ bs := by
  induction bs with
  | nil => intro l _; simp
  | cons b bs ih =>
    intro l h
    rw [List.foldl_cons]
    have e : addBundle l b = l ++ [b] := by
      unfold addBundle
      apply pyInsert_end
      cases ho : forder b.root with
      | none => simp
      | some o =>
        have := h 0 b (by simp) o ho
        simpa using this
    rw [e, ih]
    · simp
    · intro k c hk o ho
      have := h (k + 1) c (by simpa using hk) o ho
      simp only [List.length_append, List.length_singleton]
      omega

/-- **C367** (the set). Whatever the names, the handler holds the bundles it was given,
each once; it raises for no bundle at all and for slicers of different names, and only
then. -/
theorem setBundles_spec (bs : List Bundle) :
    (∀ r, setBundles bs = .ok r → r.Perm bs) ∧
    (setBundles bs = .error .index ↔ bs = []) ∧
    (setBundles bs = .error .value ↔ ∃ b ∈ bs, ∃ c ∈ bs, b.slicer ≠ c.slicer) := by
  have hp := foldl_perm bs []
  rw [List.append_nil] at hp
  unfold setBundles
  cases hf : bs.foldl addBundle [] with
  | nil =>
    rw [hf] at hp
    have hn : bs = [] := List.Perm.eq_nil hp.symm
    subst hn
    simp
  | cons b l =>
    rw [hf] at hp
    have hne : bs ≠ [] := by
      rintro rfl
      exact absurd hp.length_eq (by simp)
    dsimp only
    refine ⟨?_, ?_, ?_⟩
    · intro r hr
      split_ifs at hr
      cases hr
      exact hp
    · constructor
      · intro h
        split_ifs at h <;> simp at h
      · intro h
        exact absurd h hne
    · constructor
      · intro h
        by_cases hc : ∃ c ∈ b :: l, c.slicer ≠ b.slicer
        · obtain ⟨c, hc, hcs⟩ := hc
          exact ⟨c, hp.subset hc, b, hp.subset (by simp), hcs⟩
        · rw [if_neg hc] at h
          cases h
      · rintro ⟨c, hc, d, hd, hne⟩
        rw [if_pos]
        by_contra hno
        push Not at hno
        exact hne ((hno c (hp.symm.subset hc)).trans (hno d (hp.symm.subset hd)).symm)

/-- **C367** (bands in order stay so). Bundles given in the order of their bands, one for
each band, are kept in that order. -/
theorem ordered_stay (bs : List Bundle) (hs : ∀ b ∈ bs, ∃ o : Int, 0 ≤ o ∧ forder b.root = some o)
    (hord : bs.Pairwise (fun b c => ∀ o p : Int, forder b.root = some o → forder c.root = some p → o < p))
    (b : Bundle) (l : List Bundle) (hb : bs = b :: l) (hsl : ∀ c ∈ l, c.slicer = b.slicer) :
    setBundles bs = .ok bs := by
  have key : ∀ k : Nat, ∀ c : Bundle, bs[k]? = some c → ∀ o : Int, forder c.root = some o → (k : Int) ≤ o := by
    intro k
    induction k with
    | zero =>
      intro c hc o ho
      obtain ⟨p, hp, hpo⟩ := hs c (List.mem_of_getElem? hc)
      rw [ho] at hpo
      cases hpo
      simpa using hp
    | succ k ih =>
      intro c hc o ho
      obtain ⟨hlt, hce⟩ := List.getElem?_eq_some_iff.1 hc
      have hk : bs[k]? = some bs[k] := List.getElem?_eq_getElem (by omega)
      obtain ⟨p, hp, hpo⟩ := hs bs[k] (List.getElem_mem _)
      have h1 := ih _ hk p hpo
      have h2 := List.pairwise_iff_getElem.1 hord k (k + 1) (by omega) hlt (by omega) p o hpo (by rw [hce]; exact ho)
      push_cast
      omega
  have hfold : bs.foldl addBundle [] = bs := by
    have := foldl_append bs [] (by simpa using key)
    simpa using this
  unfold setBundles
  rw [hfold, hb]
  dsimp only
  rw [if_neg]
  push Not
  intro c hc
  rcases List.mem_cons.1 hc with rfl | hc
  · rfl
  · exact hsl c hc

private theorem last_piece {α : Type} (pieces : List (List Char)) (f : Char → Option α) (pre post : List (List Char)) (c : Char) (o : α)
    (hs : pieces = pre ++ [c] :: post) (hc : f c = some o) (hp : ∀ d, [d] ∈ post → f d = none) :
    (pieces.filterMap (fun v => (single v).bind f)).getLast? = some o := by
  have hpost : post.filterMap (fun v => (single v).bind f) = [] := by
    rw [List.filterMap_eq_nil_iff]
    intro v hv
    match v, hv with
    | [], _ => rfl
    | [d], hv => exact hp d hv
    | _ :: _ :: _, _ => rfl
  rw [hs, List.filterMap_append, List.filterMap_cons, hpost]
  simp [single, hc]

/-- **C367** (the band of a bundle). It is the last piece of the file root that is the letter of a band; there is none
just if no piece is. -/
theorem forder_spec (root : List Char) :
    (∀ pre post c o, root.splitOn '_' = pre ++ [c] :: post → filterOrder c = some o → (∀ d, [d] ∈ post → filterOrder d = none) → forder root = some o) ∧
    (forder root = none ↔ ∀ c, [c] ∈ root.splitOn '_' → filterOrder c = none) := by
  refine ⟨fun pre post c o hs hc hp => last_piece _ filterOrder pre post c o hs hc hp, ?_⟩
  unfold forder
  rw [List.getLast?_eq_none_iff, List.filterMap_eq_nil_iff]
  constructor
  · intro h c hc; exact h [c] hc
  · intro h v hv
    match v, hv with
    | [], _ => rfl
    | [d], hv => exact h d hv
    | _ :: _ :: _, _ => rfl

/-- **C367** (where it is put). The place is that of the band, counted from the end for a blank, if there are enough bundles. -/
theorem insert_spec {α : Type*} (l : List α) (x : α) (k : ℕ) (hk : k ≤ l.length) :
    pyInsert l k x = l.take k ++ x :: l.drop k ∧
    (k < l.length → pyInsert l ((k : Int) - l.length) x = l.take k ++ x :: l.drop k) := by
  unfold pyInsert
  dsimp only
  constructor
  · rw [if_neg (by omega), min_eq_left (by omega)]
    simp
  · intro h
    rw [if_pos (by omega), sub_add_cancel, max_eq_left (by omega)]
    simp

/-- The bundles are in the order of the bands. -/
def InOrder (bs : List Bundle) : Prop :=
  bs.Pairwise (fun b c => ∀ o p : Int, forder b.root = some o → forder c.root = some p → o ≤ p)

def bundleOf (s : String) : Bundle := ⟨s.toList, "HealpixSlicer"⟩

/-- **C367** (as promised, false). "Try to add the metricBundles in filter order": bundles
for z given after y stay after y. -/
theorem order_false :
    setBundles [bundleOf "run_Count_y_HEAL", bundleOf "run_Count_z_HEAL"] =
      .ok [bundleOf "run_Count_y_HEAL", bundleOf "run_Count_z_HEAL"] ∧
    ¬ InOrder [bundleOf "run_Count_y_HEAL", bundleOf "run_Count_z_HEAL"] := by
  refine ⟨by rfl, ?_⟩
  intro h
  have := (List.pairwise_cons.1 h).1 (bundleOf "run_Count_z_HEAL") (by simp) 5 4 (by decide +kernel) (by decide +kernel)
  omega

/-- **C367** (several bundles of one band). Two bundles of the first band come out in the
reverse order. -/
theorem same_band_reversed (r s : Bundle) (hr : forder r.root = some 0) (hs : forder s.root = some 0)
    (hsl : r.slicer = s.slicer) : setBundles [r, s] = .ok [s, r] := by
  simp [setBundles, addBundle, hr, hs, pyInsert, hsl]

example : setBundles [bundleOf "run_Count_g_HEAL", bundleOf "run_Count_r_HEAL", bundleOf "run_Count_i_HEAL"] =
    .ok [bundleOf "run_Count_g_HEAL", bundleOf "run_Count_r_HEAL", bundleOf "run_Count_i_HEAL"] := by rfl

/-! ## C368: the precedence of the sources of a plot dictionary -/

/-- The value of the first dictionary that has the key. -/
def firstSet {α : Type*} (k : String) (ds : List (Dict α)) : Option (Option α) := ds.findSome? (fun d => d k)

theorem firstSet_cons {α : Type*} (k : String) (d : Dict α) (ds : List (Dict α)) :
    firstSet k (d :: ds) = (d k).or (firstSet k ds) := by
  unfold firstSet
  rw [List.findSome?_cons]
  cases d k <;> rfl

/-- The labels made for the plotter, as a dictionary. -/
def labels {α : Type*} (p : Plotter α) : Dict α := fun k =>
  if k = "ylabel" then some p.ylabel else if k = "xlabel" then some p.xlabel else none

/-- **C368** (what is done). The user's dictionary comes first, then the bundle's, the
defaults of the plotter which are not `None`, the labels made for the plotter, what was
there before, and at last what the handler makes itself. -/
theorem resolve_spec {α : Type*} (auto prev bundle : Dict α) (p : Plotter α) (user : Dict α) (k : String) :
    resolve auto prev (some p) bundle (some user) k =
      firstSet k [user, bundle, fun k => (p.defaults k).bind (fun v => v.map some), labels p, prev, auto] := by
  simp only [firstSet_cons, resolve, upd, notNone, labels, put]
  congr 2
  congr 1
  by_cases h1 : k = "ylabel"
  · simp [h1]
  · by_cases h2 : k = "xlabel"
    · simp [h2]
    · simp [h1, h2, firstSet]

/-- **C368** (the documented order, part). For keys other than the labels of the axes the
order is the documented one: what the handler makes < what was set before < the defaults of
the plotter < the bundle's dictionary < the user's. -/
theorem documented_partial {α : Type*} (auto prev bundle : Dict α) (p : Plotter α) (user : Dict α) (k : String)
    (hx : k ≠ "xlabel") (hy : k ≠ "ylabel") :
    resolve auto prev (some p) bundle (some user) k =
      firstSet k [user, bundle, fun k => (p.defaults k).bind (fun v => v.map some), prev, auto] := by
  rw [resolve_spec]
  simp [firstSet_cons, labels, hx, hy]

/-- **C368** (as documented, false). A label of the x axis that was set before in the
handler gives way to the one the handler makes. -/
theorem documented_false :
    ∃ (prev : Dict String) (p : Plotter String),
      resolve (fun _ => none) prev (some p) (fun _ => none) none "xlabel" ≠
        firstSet "xlabel" [fun k => (p.defaults k).bind (fun v => v.map some), prev, labels p] := by
  refine ⟨fun k => if k = "xlabel" then some (some "Number of visits") else none, ⟨fun _ => none, some "Count", none⟩, ?_⟩
  decide +kernel

/-- What a call sets explicitly for a key. -/
def setting {α : Type*} (c : Call α) (k : String) : Option (Option α) :=
  firstSet k [c.user.getD (fun _ => none), fun k => (c.pf.bind (fun p => p.defaults k)).bind (fun v => v.map some)]

theorem resolve_setting {α : Type*} (auto prev bundle : Dict α) (c : Call α) (k : String)
    (hx : k ≠ "xlabel") (hy : k ≠ "ylabel") (hb : bundle k = none) :
    resolve auto prev c.pf bundle c.user k = ((setting c k).or (prev k)).or (auto k) := by
  obtain ⟨a, pf, u⟩ := c
  cases pf with
  | none =>
    cases u with
    | none => simp [resolve, upd, setting, hb, firstSet]
    | some u => simp [resolve, upd, setting, hb, firstSet, List.findSome?_cons, Option.or_assoc]; cases u k <;> simp
  | some p =>
    cases u with
    | none => simp [resolve, upd, setting, hb, firstSet, put, hx, hy, notNone, Option.or_assoc]
    | some u => simp [resolve, upd, setting, hb, firstSet, List.findSome?_cons, put, hx, hy, notNone, Option.or_assoc]; cases u k <;> simp <;> cases (p.defaults k).bind (fun v => v.map some) <;> simp

/-- **C368** (several plots with one handler). A key that the bundle does not set has the
value of the latest plot that set it, through the user's dictionary or the defaults of
that plotter; if none did, it is what the handler made at the beginning. So the options of
one plot stay for the next. -/
theorem history {α : Type*} (bundle auto : Dict α) (cs : List (Call α)) (k : String)
    (hx : k ≠ "xlabel") (hy : k ≠ "ylabel") (hb : bundle k = none)
    (hauto : ∀ c ∈ cs, c.auto k ≠ none → auto k ≠ none) :
    runCalls bundle auto cs k = ((cs.reverse.findSome? (fun c => setting c k))).or (auto k) := by
  unfold runCalls
  induction cs using List.reverseRecOn with
  | nil => simp [resolve, upd, hb]
  | append_singleton cs c ih =>
    rw [List.foldl_append, List.foldl_cons, List.foldl_nil, resolve_setting _ _ _ _ _ hx hy hb,
      ih (fun d hd => hauto d (by simp [hd]))]
    rw [List.reverse_append, List.reverse_singleton, List.singleton_append, List.findSome?_cons]
    cases setting c k with
    | some v => simp
    | none =>
      simp only [Option.none_or]
      cases hr : cs.reverse.findSome? (fun c => setting c k) with
      | some v => simp
      | none =>
        simp only [Option.none_or]
        cases ha : auto k with
        | some v => simp
        | none =>
          simp only [Option.none_or]
          by_contra hc
          exact hauto c (by simp) hc ha

/-- **C368** (an option of an earlier plot). The limits given for the first plot are those
of the second. -/
theorem leak {α : Type*} (bundle auto : Dict α) (p q : Plotter α) (u : Dict α) (k : String) (v : Option α)
    (hx : k ≠ "xlabel") (hy : k ≠ "ylabel") (hb : bundle k = none) (hu : u k = some v) (hq : q.defaults k = none) :
    runCalls bundle auto [⟨auto, some p, some u⟩, ⟨auto, some q, none⟩] k = some v := by
  rw [history bundle auto _ k hx hy hb (by intro c hc; simp only [List.mem_cons, List.not_mem_nil, or_false] at hc; rcases hc with rfl | rfl <;> exact id)]
  simp [setting, hu, hq, firstSet]

example : resolve (α := Nat) (fun k => if k = "title" then some (some 1) else none) (fun _ => none)
    (some ⟨fun k => if k = "title" then some none else if k = "bins" then some (some 3) else none, some 4, none⟩)
    (fun k => if k = "bins" then some none else none) none "title" = some (some 1) := by decide +kernel

/-- **C368** (one dictionary for all). A single dictionary is used for every bundle; a list
that is shorter than the bundles raises. -/
theorem userDict_spec {α : Type*} (d : Dict α) (l : List (Dict α)) (i : Nat) :
    userDict (.one d) i = .ok (some d) ∧ (userDict (.list l) i = .error .index ↔ l.length ≤ i) := by
  refine ⟨rfl, ?_⟩
  unfold userDict
  dsimp only
  cases h : l[i]? with
  | none => simpa using h
  | some x =>
    obtain ⟨h, -⟩ := List.getElem?_eq_some_iff.1 h
    simp [h]

/-! ## C369: the check for conflicts -/

theorem no_suffix : ∀ key ∈ keysToCheck, endsWith key "Max" = false ∧ endsWith key "Min" = false := by
  decide +kernel

/-- What the check leaves of a key. -/
def fixed {A : Type*} [DecidableEq A] (title : Atoms A) (ds : List (Dict (Atoms A))) (key : String) (d : Dict (Atoms A)) : Option (Option (Atoms A)) :=
  if conflict ds key then (if key = "title" then some (some title) else some none) else d key

theorem fixKey_get {A : Type*} [LinearOrder A] (title : Atoms A) (ds : List (Dict (Atoms A))) (key : String) (h : key ∈ keysToCheck)
    (k : String) (i : Nat) :
    ((fixKey title ds key)[i]?).map (fun d => d k) = (ds[i]?).map (fun d => if k = key then fixed title ds key d else d k) := by
  obtain ⟨h1, h2⟩ := no_suffix key h
  unfold fixKey fixed
  by_cases hc : conflict ds key
  · simp only [hc, if_true, h1, h2, Bool.false_eq_true, if_false]
    by_cases ht : key = "title"
    · simp only [ht, if_true, List.getElem?_map, Option.map_map]
      congr 1
    · simp only [ht, if_false, List.getElem?_map, Option.map_map]
      congr 1
  · simp only [hc, Bool.false_eq_true, if_false]
    congr 1
    funext d
    split_ifs with hk
    · rw [hk]
    · rfl

theorem valuesOf_congr {A : Type*} (ds es : List (Dict (Atoms A))) (k : String)
    (h : ∀ i : Nat, (ds[i]?).map (fun d => d k) = (es[i]?).map (fun d => d k)) : valuesOf ds k = valuesOf es k := by
  have e : ds.map (fun d => d k) = es.map (fun d => d k) := by
    apply List.ext_getElem?
    intro i
    simpa using h i
  have f : ∀ l : List (Dict (Atoms A)), valuesOf l k = (l.map (fun d => d k)).filterMap id := by
    intro l
    simp [valuesOf, List.filterMap_map, Function.comp_def]
  rw [f, f, e]

theorem fold_get {A : Type*} [LinearOrder A] (title : Atoms A) : ∀ (ks : List String), ks.Nodup → (∀ k ∈ ks, k ∈ keysToCheck) →
    ∀ (ds : List (Dict (Atoms A))) (k : String) (i : Nat),
    ((ks.foldl (fixKey title) ds)[i]?).map (fun d => d k) =
      (ds[i]?).map (fun d => if k ∈ ks then fixed title ds k d else d k) := by
  intro ks
  induction ks with
  | nil => intro _ _ ds k i; simp
  | cons a ks ih =>
    intro hn hk ds k i
    rw [List.nodup_cons] at hn
    rw [List.foldl_cons, ih hn.2 (fun k h => hk k (by simp [h]))]
    have ha := fun k i => fixKey_get title ds a (hk a (by simp)) k i
    by_cases hka : k = a
    · subst hka
      have := ha k i
      simp only [hn.1, if_false, List.mem_cons, true_or, if_true] at this ⊢
      exact this
    · have e : ∀ j : Nat, ((fixKey title ds a)[j]?).map (fun d => d k) = (ds[j]?).map (fun d => d k) := by
        intro j
        have := ha k j
        simpa [hka] using this
      have ec : conflict (fixKey title ds a) k = conflict ds k := by
        unfold conflict
        rw [valuesOf_congr _ _ k e]
      simp only [List.mem_cons, hka, false_or]
      by_cases hm : k ∈ ks
      · simp only [hm, if_true, fixed, ec]
        by_cases hc : conflict ds k
        · simp only [hc, if_true]
          have := congrArg (Option.map (fun _ => (if k = "title" then some (some title) else some none : Option (Option (Atoms A))))) (e i)
          simpa [Option.map_map, Function.comp_def] using this
        · simp only [hc, Bool.false_eq_true, if_false]
          exact e i
      · simp only [hm, if_false]
        exact e i

theorem checkDicts_get {A : Type*} [LinearOrder A] (title : Atoms A) (ds : List (Dict (Atoms A)))
    (hs : (valuesOf ds "subplot").dedup.length ≤ 1) (k : String) (i : Nat) :
    ((checkDicts title ds)[i]?).map (fun d => d k) =
      (ds[i]?).map (fun d => if k ∈ keysToCheck then fixed title ds k d else d k) := by
  unfold checkDicts
  rw [if_pos hs]
  exact fold_get title keysToCheck (by decide) (fun _ h => h) ds k i

/-- **C369** (what the check does). If the dictionaries are for one subplot, a key of the
five with more than one value is set to `None` in all of them, the title to the title made
by the handler; everything else stays. -/
theorem checkDicts_spec {A : Type*} [LinearOrder A] (title : Atoms A) (ds : List (Dict (Atoms A)))
    (hs : (valuesOf ds "subplot").dedup.length ≤ 1) (i : Nat) (d : Dict (Atoms A)) (hd : ds[i]? = some d) :
    ∃ e, (checkDicts title ds)[i]? = some e ∧
      (∀ k, k ∉ keysToCheck → e k = d k) ∧
      (∀ k ∈ keysToCheck, conflict ds k = false → e k = d k) ∧
      (∀ k ∈ keysToCheck, conflict ds k = true → e k = if k = "title" then some (some title) else some none) := by
  have h := fun k => checkDicts_get title ds hs k i
  cases he : (checkDicts title ds)[i]? with
  | none =>
    have := h ""
    rw [he, hd] at this
    simp at this
  | some e =>
    have h' : ∀ k, e k = if k ∈ keysToCheck then fixed title ds k d else d k := by
      intro k
      have := h k
      rw [he, hd] at this
      simpa using this
    refine ⟨e, rfl, ?_, ?_, ?_⟩
    · intro k hk
      rw [h', if_neg hk]
    · intro k hk hc
      rw [h', if_pos hk, fixed, hc]
      rfl
    · intro k hk hc
      rw [h', if_pos hk, fixed, hc]
      rfl

theorem dedup_two {A : Type*} [DecidableEq A] (l : List A) (a b : A) (ha : a ∈ l) (hb : b ∈ l) (hab : a ≠ b) : 1 < l.dedup.length := by
  have hn : [a, b].Nodup := by simp [hab]
  have hsub : [a, b] ⊆ l.dedup := by
    intro x hx
    simp only [List.mem_cons, List.not_mem_nil, or_false] at hx
    rcases hx with rfl | rfl <;> simpa
  have := (List.subperm_of_subset hn hsub).length_le
  exact this

/-- **C369** (no conflict is left). After the check two dictionaries of one subplot which
both have one of the five keys have the same value for it, for values that are single
numbers or strings. -/
theorem check_agrees {A : Type*} [LinearOrder A] (title : Atoms A) (ds : List (Dict (Atoms A)))
    (hs : (valuesOf ds "subplot").dedup.length ≤ 1) (k : String) (hk : k ∈ keysToCheck)
    (hone : ∀ d ∈ ds, ∀ v, d k = some v → ∃ a, v = some [a])
    (e f : Dict (Atoms A)) (he : e ∈ checkDicts title ds) (hf : f ∈ checkDicts title ds)
    (v w : Option (Atoms A)) (hv : e k = some v) (hw : f k = some w) : v = w := by
  obtain ⟨i, hi⟩ := List.mem_iff_getElem?.1 he
  obtain ⟨j, hj⟩ := List.mem_iff_getElem?.1 hf
  have hlen : ∀ (n : Nat) g, (checkDicts title ds)[n]? = some g → ∃ d, ds[n]? = some d := by
    intro n g hg
    have := checkDicts_get title ds hs "" n
    rw [hg] at this
    cases hd : ds[n]? with
    | none => rw [hd] at this; simp at this
    | some d => exact ⟨d, rfl⟩
  obtain ⟨d, hd⟩ := hlen i e hi
  obtain ⟨d', hd'⟩ := hlen j f hj
  obtain ⟨e', he', -, h2, h3⟩ := checkDicts_spec title ds hs i d hd
  obtain ⟨f', hf', -, h2', h3'⟩ := checkDicts_spec title ds hs j d' hd'
  rw [hi] at he'; cases he'
  rw [hj] at hf'; cases hf'
  cases hc : conflict ds k with
  | true =>
    have a := h3 k hk hc
    have b := h3' k hk hc
    rw [hv] at a
    rw [hw] at b
    rw [← b] at a
    exact Option.some.inj a
  | false =>
    have a := h2 k hk hc
    have b := h2' k hk hc
    rw [hv] at a
    rw [hw] at b
    obtain ⟨x, rfl⟩ := hone d (List.mem_of_getElem? hd) v a.symm
    obtain ⟨y, rfl⟩ := hone d' (List.mem_of_getElem? hd') w b.symm
    by_contra hne
    have hxy : x ≠ y := by
      rintro rfl
      exact hne rfl
    have : conflict ds k = true := by
      unfold conflict
      rw [decide_eq_true_eq]
      apply dedup_two _ (some x) (some y)
      · rw [atomsOf, List.mem_flatMap]
        exact ⟨some [x], List.mem_filterMap.2 ⟨d, List.mem_of_getElem? hd, a.symm⟩, by simp⟩
      · rw [atomsOf, List.mem_flatMap]
        exact ⟨some [y], List.mem_filterMap.2 ⟨d', List.mem_of_getElem? hd', b.symm⟩, by simp⟩
      · simpa using hxy
    rw [hc] at this
    cases this

/-- **C369** (limits of an axis are lost). A pair of different limits counts as a conflict
by itself: for one bundle alone, or for bundles that agree, `xlim` is set to `None`. -/
theorem limits_lost {A : Type*} [LinearOrder A] (title : Atoms A) (ds : List (Dict (Atoms A)))
    (hs : (valuesOf ds "subplot").dedup.length ≤ 1) (k : String) (hk : k = "xlim" ∨ k = "ylim")
    (d : Dict (Atoms A)) (hd : d ∈ ds) (a b : A) (hab : a ≠ b) (hv : d k = some (some [a, b])) :
    ∀ e ∈ checkDicts title ds, e k = some none := by
  have hk' : k ∈ keysToCheck := by rcases hk with rfl | rfl <;> decide
  have ht : k ≠ "title" := by rcases hk with rfl | rfl <;> decide
  have hc : conflict ds k = true := by
    unfold conflict
    rw [decide_eq_true_eq]
    apply dedup_two _ (some a) (some b)
    · rw [atomsOf, List.mem_flatMap]
      exact ⟨some [a, b], List.mem_filterMap.2 ⟨d, hd, hv⟩, by simp⟩
    · rw [atomsOf, List.mem_flatMap]
      exact ⟨some [a, b], List.mem_filterMap.2 ⟨d, hd, hv⟩, by simp⟩
    · simpa using hab
  intro e he
  obtain ⟨i, hi⟩ := List.mem_iff_getElem?.1 he
  cases hdi : ds[i]? with
  | none =>
    have := checkDicts_get title ds hs "" i
    rw [hi, hdi] at this
    simp at this
  | some d' =>
    obtain ⟨e', he', -, -, h3⟩ := checkDicts_spec title ds hs i d' hdi
    rw [hi] at he'
    cases he'
    rw [h3 k hk' hc, if_neg ht]

/-- **C369** (the colour limits). Different upper limits of the colours are not made the
largest of them, as the code intends with the ending `Max`: they are all dropped. -/
theorem color_max_dropped {A : Type*} [LinearOrder A] (title : Atoms A) (d e : Dict (Atoms A)) (k : String)
    (hk : k = "color_min" ∨ k = "color_max")
    (hs : (valuesOf [d, e] "subplot").dedup.length ≤ 1) (a b : A) (hab : a ≠ b)
    (hd : d k = some (some [a])) (he : e k = some (some [b])) :
    ∀ f ∈ checkDicts title [d, e], f k = some none := by
  have hk' : k ∈ keysToCheck := by rcases hk with rfl | rfl <;> decide
  have ht : k ≠ "title" := by rcases hk with rfl | rfl <;> decide
  have hc : conflict [d, e] k = true := by
    unfold conflict
    rw [decide_eq_true_eq]
    apply dedup_two _ (some a) (some b)
    · rw [atomsOf, List.mem_flatMap]
      exact ⟨some [a], List.mem_filterMap.2 ⟨d, by simp, hd⟩, by simp⟩
    · rw [atomsOf, List.mem_flatMap]
      exact ⟨some [b], List.mem_filterMap.2 ⟨e, by simp, he⟩, by simp⟩
    · simpa using hab
  intro f hf
  obtain ⟨i, hi⟩ := List.mem_iff_getElem?.1 hf
  cases hdi : ([d, e] : List (Dict (Atoms A)))[i]? with
  | none =>
    have := checkDicts_get title [d, e] hs "" i
    rw [hi, hdi] at this
    simp at this
  | some d' =>
    obtain ⟨f', hf', -, -, h3⟩ := checkDicts_spec title [d, e] hs i d' hdi
    rw [hi] at hf'
    cases hf'
    rw [h3 k hk' hc, if_neg ht]

/-- The default limits of `VisitPairsHist` (`two_d_plotters.py:148`) and their fate. -/
example : (checkDicts (A := ℕ) [] [fun k => if k = "xlim" then some (some [0, 20]) else none]).map (fun d => d "xlim") =
    [some none] := by decide +kernel

/-! ## C370: the display dictionary -/

theorem displayOrder_acc (os : List Int) : ∀ a : Int, a ≤ os.foldl (fun a o => if a < o then o + 1 else a) a ∧
    (∀ o ∈ os, o ≤ os.foldl (fun a o => if a < o then o + 1 else a) a) ∧
    (os.foldl (fun a o => if a < o then o + 1 else a) a = a ∨ ∃ o ∈ os, os.foldl (fun a o => if a < o then o + 1 else a) a = o + 1) := by
  induction os with
  | nil => intro a; simp
  | cons x os ih =>
    intro a
    rw [List.foldl_cons]
    obtain ⟨h1, h2, h3⟩ := ih (if a < x then x + 1 else a)
    have hx : a ≤ (if a < x then x + 1 else a) ∧ x ≤ (if a < x then x + 1 else a) := by split_ifs <;> omega
    refine ⟨by omega, ?_, ?_⟩
    · intro o ho
      rcases List.mem_cons.1 ho with rfl | ho
      · omega
      · exact h2 o ho
    · rcases h3 with h3 | ⟨o, ho, h3⟩
      · by_cases hax : a < x
        · right
          exact ⟨x, by simp, by rw [h3, if_pos hax]⟩
        · left
          rw [h3, if_neg hax]
      · right
        exact ⟨o, by simp [ho], h3⟩

/-- **C370** (what holds). The place of a joint plot on the page is not before that of any
of its metrics, and at most one after the last of them. -/
theorem displayOrder_bounds (os : List Int) :
    0 ≤ displayOrder os ∧ (∀ o ∈ os, o ≤ displayOrder os) ∧ (displayOrder os = 0 ∨ ∃ o ∈ os, displayOrder os = o + 1) :=
  displayOrder_acc os 0

/-- **C370** (as intended, false). It does not come after all of its metrics, and it depends
on the order in which the bundles are given. -/
theorem displayOrder_false :
    ¬ (∀ os : List Int, (∀ o ∈ os, 0 < o) → ∀ o ∈ os, o < displayOrder os) ∧
    ¬ (∀ os ps : List Int, os.Perm ps → displayOrder os = displayOrder ps) := by
  constructor
  · intro h
    have := h [3, 4] (by decide) 4 (by decide)
    exact absurd this (by decide)
  · intro h
    have := h [3, 4] [4, 3] (List.Perm.swap _ _ _)
    exact absurd this (by decide)

/-- **C370** (groups). A joint plot is in the group of its bundles when they have one group
only, else among the comparisons. -/
theorem displayGroup_spec (gs : List String) (hne : gs ≠ []) :
    (∀ g, (∀ x ∈ gs, x = g) → displayGroup gs = g) ∧
    ((∃ x ∈ gs, ∃ y ∈ gs, x ≠ y) → displayGroup gs = "Comparisons") := by
  constructor
  · intro g hg
    unfold displayGroup
    have : ¬ 1 < gs.dedup.length := by
      intro h
      have hn := List.nodup_dedup gs
      match hd : gs.dedup, h, hn with
      | a :: b :: l, _, hn =>
        have ha : a ∈ gs := List.mem_dedup.1 (by rw [hd]; simp)
        have hb : b ∈ gs := List.mem_dedup.1 (by rw [hd]; simp)
        rw [hg a ha, hg b hb] at hn
        simp at hn
    rw [if_neg this]
    cases gs with
    | nil => exact absurd rfl hne
    | cons a l => exact hg a (by simp)
  · rintro ⟨x, hx, y, hy, hxy⟩
    unfold displayGroup
    rw [if_pos (dedup_two gs x y hx hy hxy)]

example : displayOrder [1, 5, 2] = 6 := by decide

/-! ## C371: joint labels -/

theorem mapM_head_none (l : List (List String)) : l.mapM (fun d => d.head?) = none ↔ [] ∈ l := by
  induction l with
  | nil => simp
  | cons d l ih =>
    rw [List.mapM_cons]
    cases d with
    | nil => simp
    | cons x d =>
      cases hm : l.mapM (fun d => d.head?) with
      | none => simp [ih.1 hm]
      | some ps =>
        have : [] ∉ l := fun h => by rw [ih.2 h] at hm; cases hm
        simp [this]

theorem mem_interAll (ls : List (List String)) (hne : ls ≠ []) (x : String) : x ∈ interAll ls ↔ ∀ l ∈ ls, x ∈ l := by
  cases ls with
  | nil => exact absurd rfl hne
  | cons s rest => simp [interAll]

/-- **C371** (when it raises). Two or more different labels cannot be joined exactly when
one of them has no phrase of its own, that is when all its phrases are in every other
label. -/
theorem combine_raises_iff (words : String → List String) (sortLen : List String → List String) (labels : List (List String))
    (hne : labels ≠ []) :
    combineLabels words sortLen labels = .error .index ↔ ∃ l ∈ labels, ∀ p ∈ l, ∀ m ∈ labels, p ∈ m := by
  have hempty : [] ∈ labels.map (fun s => s.filter (fun x => decide (x ∉ interAll labels))) ↔
      ∃ l ∈ labels, ∀ p ∈ l, ∀ m ∈ labels, p ∈ m := by
    rw [List.mem_map]
    constructor
    · rintro ⟨l, hl, h⟩
      refine ⟨l, hl, fun p hp => ?_⟩
      rw [List.filter_eq_nil_iff] at h
      have := h p hp
      rw [decide_eq_true_eq, not_not] at this
      exact (mem_interAll labels hne p).1 this
    · rintro ⟨l, hl, h⟩
      refine ⟨l, hl, ?_⟩
      rw [List.filter_eq_nil_iff]
      intro p hp
      rw [decide_eq_true_eq, not_not]
      exact (mem_interAll labels hne p).2 (h p hp)
  unfold combineLabels
  dsimp only
  rw [← hempty]
  constructor
  · intro h
    split_ifs at h
    rw [← mapM_head_none]
    revert h
    cases (labels.map (fun s => s.filter (fun x => decide (x ∉ interAll labels)))).mapM (fun d => d.head?) with
    | none => intro _; rfl
    | some ps => intro h; cases h
  · intro h
    rw [if_pos]
    · rw [(mapM_head_none _).2 h]
    · refine ⟨[], ?_, rfl⟩
      rw [List.mem_map]
      refine ⟨[], ?_, rfl⟩
      rw [List.mem_map]
      exact ⟨[], h, rfl⟩

/-- **C371** (as expected, false). A label and the same label with something added: the
handler raises `IndexError`. -/
theorem combine_subset_false (words : String → List String) (sortLen : List String → List String) (l m : List String)
    (hsub : ∀ p ∈ l, p ∈ m) : combineLabels words sortLen [l, m] = .error .index := by
  rw [combine_raises_iff _ _ _ (by simp)]
  exact ⟨l, by simp, fun p hp n hn => by
    simp only [List.mem_cons, List.not_mem_nil, or_false] at hn
    rcases hn with rfl | rfl
    · exact hp
    · exact hsub p hp⟩

example : combineLabels (fun s => [s]) id [["g band"], ["g band", "dithered"]] = .error .index := by decide +kernel

theorem mem_bandsFirst (dd : List (List String)) (d : List String) : d ∈ bandsFirst dd ↔ d ∈ dd := by
  simp only [bandsFirst, List.mem_append, List.mem_filter, decide_eq_true_eq]
  constructor
  · rintro (h | h)
    · rw [List.mem_flatMap] at h
      obtain ⟨f, -, h⟩ := h
      exact (List.mem_filter.1 h).1
    · exact h.1
  · intro h
    by_cases ho : d ∈ bandOrder.flatMap (fun f => dd.filter (fun d => decide (d = [f])))
    · exact .inl ho
    · exact .inr ⟨h, ho⟩

/-- **C371** (nothing is lost, part). If every label has one phrase of its own, each phrase
of each label is in the joint label: among the common phrases, or all its words are among
the parts and the shared words. Missing: labels with several phrases of their own. -/
theorem combine_complete_partial (words : String → List String) (sortLen : List String → List String)
    (hsort : ∀ l, (sortLen l).Perm l) (labels : List (List String)) (hne : labels ≠ [])
    (hone : ∀ l ∈ labels, ∃ q ∈ l, (¬ ∀ m ∈ labels, q ∈ m) ∧ ∀ p ∈ l, p = q ∨ ∀ m ∈ labels, p ∈ m)
    (hnd : ∀ l ∈ labels, l.Nodup) :
    ∃ c, combineLabels words sortLen labels = .ok c ∧
      ∀ l ∈ labels, ∀ p ∈ l, p ∈ c.common ∨ ∃ part ∈ c.parts, ∀ w ∈ words p, w ∈ part ∨ w ∈ c.shared := by
  have hown : ∀ l ∈ labels, ∃ q, l.filter (fun x => decide (x ∉ interAll labels)) = [q] := by
    intro l hl
    obtain ⟨q, hq, hq1, hq2⟩ := hone l hl
    refine ⟨q, ?_⟩
    have hmem : ∀ x, x ∈ l.filter (fun x => decide (x ∉ interAll labels)) ↔ x = q := by
      intro x
      rw [List.mem_filter, decide_eq_true_eq, mem_interAll _ hne]
      constructor
      · rintro ⟨h1, h2⟩
        rcases hq2 x h1 with h | h
        · exact h
        · exact absurd h h2
      · rintro rfl
        exact ⟨hq, hq1⟩
    have hn := (hnd l hl).filter (fun x => decide (x ∉ interAll labels))
    generalize hg : l.filter (fun x => decide (x ∉ interAll labels)) = g at hmem hn
    match g, hmem, hn with
    | [], hmem, _ => exact absurd ((hmem q).2 rfl) (by simp)
    | [a], hmem, _ => rw [(hmem a).1 (by simp)]
    | a :: b :: g, hmem, hn =>
      rw [(hmem a).1 (by simp), (hmem b).1 (by simp)] at hn
      simp at hn
  have hsplit : ∀ l ∈ labels, ∀ p ∈ l, p ∈ interAll labels ∨ l.filter (fun x => decide (x ∉ interAll labels)) = [p] := by
    intro l hl p hp
    by_cases hc : p ∈ interAll labels
    · exact .inl hc
    · right
      obtain ⟨q, hq⟩ := hown l hl
      have : p ∈ l.filter (fun x => decide (x ∉ interAll labels)) := by simp [hp, hc]
      rw [hq] at this
      rw [hq, List.mem_singleton.1 this]
  unfold combineLabels
  dsimp only
  split_ifs with hd
  · cases hm : (labels.map (fun s => s.filter (fun x => decide (x ∉ interAll labels)))).mapM (fun d => d.head?) with
    | none =>
      exfalso
      rw [mapM_head_none, List.mem_map] at hm
      obtain ⟨l, hl, h⟩ := hm
      obtain ⟨q, hq⟩ := hown l hl
      rw [hq] at h
      cases h
    | some ps =>
      refine ⟨_, rfl, ?_⟩
      intro l hl p hp
      rcases hsplit l hl p hp with h | h
      · exact .inl h
      · right
        have hps : p ∈ ps := by
          have : ∀ (L : List (List String)) (ps : List String), L.mapM (fun d => d.head?) = some ps → ∀ d ∈ L, ∀ a, d.head? = some a → a ∈ ps := by
            intro L
            induction L with
            | nil => intro ps _ d hd; simp at hd
            | cons c L ih =>
              intro ps h d hd a ha
              rw [List.mapM_cons] at h
              cases hc : c.head? with
              | none => rw [hc] at h; simp at h
              | some x =>
                cases hL : L.mapM (fun d => d.head?) with
                | none => rw [hc, hL] at h; simp at h
                | some qs =>
                  rw [hc, hL] at h
                  simp only [Option.bind_eq_bind, Option.bind_some, Option.pure_def, Option.some.injEq] at h
                  subst h
                  rcases List.mem_cons.1 hd with rfl | hd
                  · rw [hc] at ha
                    cases ha
                    simp
                  · exact List.mem_cons_of_mem _ (ih qs hL d hd a ha)
          exact this _ ps hm [p] (List.mem_map.2 ⟨l, hl, h⟩) p rfl
        exact ⟨words p, List.mem_map.2 ⟨p, (hsort ps).mem_iff.2 hps, rfl⟩, fun w hw => .inl hw⟩
  · refine ⟨_, rfl, ?_⟩
    intro l hl p hp
    rcases hsplit l hl p hp with h | h
    · exact .inl h
    · right
      refine ⟨((words p).dedup).filter (fun x => decide (x ∉ interAll ((labels.map (fun s => s.filter (fun x => decide (x ∉ interAll labels)))).map (firstWords words)))), ?_, ?_⟩
      · dsimp only
        rw [mem_bandsFirst, List.mem_map]
        refine ⟨(words p).dedup, ?_, rfl⟩
        rw [List.mem_map]
        exact ⟨[p], List.mem_map.2 ⟨l, hl, h⟩, rfl⟩
      · intro w hw
        dsimp only
        rw [List.mem_filter, List.mem_dedup, decide_eq_true_eq]
        by_cases hs : w ∈ interAll ((labels.map (fun s => s.filter (fun x => decide (x ∉ interAll labels)))).map (firstWords words))
        · exact .inr hs
        · exact .inl ⟨hw, hs⟩

/-- **C371** (phrases are lost, the general claim is false). Of several phrases of its own
only one of each label is in the joint label. -/
theorem combine_complete_false :
    ∃ (labels : List (List String)) (c : Combo), combineLabels (fun s => [s]) id labels = .ok c ∧
      "dithered" ∈ labels.getD 0 [] ∧ "dithered" ∉ c.common ∧ "dithered" ∉ c.shared ∧ ∀ part ∈ c.parts, "dithered" ∉ part := by
  refine ⟨[["g", "dithered", "WFD"], ["r", "nightly", "WFD"]], ⟨[["g"], ["r"]], [], ["WFD"]⟩, ?_, ?_⟩
  · decide +kernel
  · decide +kernel

example : combineLabels (fun s => if s = "g band" then ["g", "band"] else ["u", "band"]) id [["g band", "WFD"], ["u band", "WFD"]] =
    .ok ⟨[["u"], ["g"]], ["band"], ["WFD"]⟩ := by decide +kernel

/-! ## C372: joint names -/

/-- `l` reads the set of the words `ws`. -/
def Reads (l ws : List String) : Prop := l.Nodup ∧ ∀ x, x ∈ l ↔ x ∈ ws

theorem reads_const (l ws : List String) (h : Reads l ws) (w : String) (hw : ∀ x ∈ ws, x = w) (hne : ws ≠ []) : l = [w] := by
  have hmem : ∀ x, x ∈ l ↔ x = w := by
    intro x
    rw [h.2]
    constructor
    · exact hw x
    · rintro rfl
      obtain ⟨y, hy⟩ := List.exists_mem_of_ne_nil _ hne
      rwa [← hw y hy]
  match l, hmem, h.1 with
  | [], hmem, _ => exact absurd ((hmem w).2 rfl) (by simp)
  | [a], hmem, _ => rw [(hmem a).1 (by simp)]
  | a :: b :: l, hmem, hn =>
    rw [(hmem a).1 (by simp), (hmem b).1 (by simp)] at hn
    simp at hn

theorem jointWord_bands (enum : List String → List String) (ws : List String)
    (hb : ∀ x ∈ ws, x ∈ ["u", "g", "r", "i", "z", "y"]) :
    jointWord enum ws = String.join (["u", "g", "r", "i", "z", "y"].filter (fun f => decide (f ∈ ws))) := by
  unfold jointWord bandOrder
  rw [if_pos hb]

theorem jointWord_det (enum enum' : List String → List String) (h : ∀ ws, Reads (enum ws) ws) (h' : ∀ ws, Reads (enum' ws) ws)
    (ws ws' : List String) (hmem : ∀ x, x ∈ ws ↔ x ∈ ws') (hne : ws ≠ [])
    (hw : (∃ w, ∀ x ∈ ws, x = w) ∨ ∀ x ∈ ws, x ∈ ["u", "g", "r", "i", "z", "y"]) :
    jointWord enum ws = jointWord enum' ws' := by
  have hband : (∀ x ∈ ws, x ∈ ["u", "g", "r", "i", "z", "y"]) → jointWord enum ws = jointWord enum' ws' := by
    intro hb
    rw [jointWord_bands _ _ hb, jointWord_bands _ _ (fun x hx => hb x ((hmem x).2 hx))]
    congr 1
    apply List.filter_congr
    intro f _
    rw [decide_eq_decide]
    exact hmem f
  by_cases hb : ∀ x ∈ ws, x ∈ ["u", "g", "r", "i", "z", "y"]
  · exact hband hb
  · rcases hw with ⟨w, hw⟩ | hw
    · have hne' : ws' ≠ [] := by
        rintro rfl
        obtain ⟨y, hy⟩ := List.exists_mem_of_ne_nil _ hne
        exact absurd ((hmem y).1 hy) (by simp)
      unfold jointWord bandOrder
      rw [if_neg hb, if_neg (fun hc => hb (fun x hx => hc x ((hmem x).1 hx))), reads_const _ _ (h ws) w hw hne,
        reads_const _ _ (h' ws') w (fun x hx => hw x ((hmem x).2 hx)) hne']
    · exact absurd hw hb

/-- **C372** (bands in order). Names of the same number of words which at each place have
the same word or bands have a joint name that does not depend on the order in which the
sets are read. -/
theorem jointName_bands (enum enum' : List String → List String) (h : ∀ ws, Reads (enum ws) ws) (h' : ∀ ws, Reads (enum' ws) ws)
    (names names' : List (List String)) (hp : names.Perm names') (n : Nat) (hlen : ∀ m ∈ names, m.length = n)
    (htwo : 2 ≤ names.length)
    (hplace : ∀ i < n, (∃ w, ∀ m ∈ names, m.getD i "" = w) ∨ ∀ m ∈ names, m.getD i "" ∈ ["u", "g", "r", "i", "z", "y"]) :
    jointName enum names = jointName enum' names' ∧
    ∀ i < n, (∀ m ∈ names, m.getD i "" ∈ ["u", "g", "r", "i", "z", "y"]) →
      (jointName enum names)[i]? = some (String.join (["u", "g", "r", "i", "z", "y"].filter (fun f => decide (∃ m ∈ names, m.getD i "" = f)))) := by
  have form : ∀ (e : List String → List String) (ns : List (List String)), ns.Perm names →
      jointName e ns = (List.range n).map (fun i => jointWord e (ns.map (fun m => m.getD i ""))) := by
    intro e ns hns
    match ns, hns with
    | [], h => exact absurd h.length_eq (by simp; omega)
    | [a], h => exact absurd h.length_eq (by simp; omega)
    | a :: b :: l, h =>
      have hl : ∀ m ∈ a :: b :: l, m.length = n := fun m hm => hlen m (h.subset hm)
      unfold jointName
      dsimp only
      rw [if_neg (by simp), if_pos (fun m hm => by rw [hl m (List.mem_cons_of_mem _ hm), hl a (by simp)]), hl a (by simp)]
  have hmap : ∀ i (P : String → Prop), (∀ x ∈ names.map (fun m => m.getD i ""), P x) ↔ ∀ m ∈ names, P (m.getD i "") := by
    intro i P
    simp
  constructor
  · rw [form enum names (List.Perm.refl _), form enum' names' hp.symm]
    apply List.map_congr_left
    intro i hi
    rw [List.mem_range] at hi
    apply jointWord_det enum enum' h h'
    · exact fun x => (hp.map _).mem_iff
    · intro h
      rw [List.map_eq_nil_iff] at h
      rw [h] at htwo
      simp at htwo
    · rcases hplace i hi with ⟨w, hw⟩ | hb
      · exact .inl ⟨w, (hmap i _).2 hw⟩
      · exact .inr ((hmap i _).2 hb)
  · intro i hi hb
    rw [form enum names (List.Perm.refl _), List.getElem?_map, List.getElem?_range hi, Option.map_some,
      jointWord_bands _ _ ((hmap i _).2 hb)]
    congr 2
    apply List.filter_congr
    intro f _
    rw [decide_eq_decide, List.mem_map]

/-- **C372** (as relied upon, false). The joint name, and with it the name of the file of
the plot, is not determined by the metrics: it depends on the order in which a set of
strings is read, which changes between runs of Python. -/
theorem jointName_false :
    ¬ (∀ (enum enum' : List String → List String), (∀ ws, Reads (enum ws) ws) → (∀ ws, Reads (enum' ws) ws) →
      ∀ names, jointName enum names = jointName enum' names) := by
  intro h
  have := h (fun ws => ws.dedup) (fun ws => ws.dedup.reverse)
    (fun ws => ⟨List.nodup_dedup ws, fun x => List.mem_dedup⟩)
    (fun ws => ⟨List.nodup_reverse.2 (List.nodup_dedup ws), fun x => by simp⟩)
    [["Mean", "seeing"], ["Median", "seeing"]]
  revert this
  decide +kernel

/-- **C372** (one name). Bundles of one metric have its name. -/
theorem jointName_one (enum : List String → List String) (n : List String) : jointName enum [n] = n := by
  simp [jointName]

/-- **C372** (names of different lengths). If two names have different numbers of words, all words of all names are joined, one name after the other. -/
theorem jointName_uneven (enum : List String → List String) (names : List (List String)) (a b : List String) (ha : a ∈ names) (hb : b ∈ names)
    (h : a.length ≠ b.length) : jointName enum names = names.flatten := by
  cases names with
  | nil => simp at ha
  | cons n rest =>
    unfold jointName
    have hr : rest ≠ [] := by
      rintro rfl
      rw [List.mem_singleton] at ha hb
      rw [ha, hb] at h
      exact h rfl
    have hne : ¬ ∀ m ∈ rest, m.length = n.length := by
      intro hall
      have hall' : ∀ m ∈ n :: rest, m.length = n.length := by
        intro m hm
        rcases List.mem_cons.1 hm with rfl | hm
        · rfl
        · exact hall m hm
      exact h ((hall' a ha).trans (hall' b hb).symm)
    simp only
    rw [if_neg hr, if_neg hne]

example : jointName (fun ws => ws.dedup) [["Coadd", "r"], ["Coadd", "g"], ["Coadd", "u"]] = ["Coadd", "ugr"] := by decide +kernel

/-! ## C373: colours -/

/-- **C373** (colours of bands). A bundle without a colour of its own whose constraint is
`filter = "c"` gets the colour of the band. -/
theorem guessColor_band (c : Char) (hc : c ∈ ['u', 'g', 'r', 'i', 'z', 'y']) (b : ColorOf) (hb : b.color = none)
    (hs : b.constraint = some ("filter = \"".toList ++ [c, '"'])) :
    some (guessColor b) = filterColor c := by
  obtain ⟨col, con⟩ := b
  simp only at hb hs
  subst hb hs
  simp only [List.mem_cons, List.not_mem_nil, or_false] at hc
  rcases hc with rfl | rfl | rfl | rfl | rfl | rfl <;> decide +kernel

/-- **C373** (several bands). If the constraint has several bands between quotes, the last one counts. -/
theorem guessColor_last (b : ColorOf) (hb : b.color = none) (s : List Char) (hs : b.constraint = some s) (hf : "filter".toList <:+: s)
    (pre post : List (List Char)) (c : Char) (o : Option String) (hp : s.splitOn '"' = pre ++ [c] :: post) (hc : filterColor c = some o)
    (hpost : ∀ d, [d] ∈ post → filterColor d = none) : guessColor b = o := by
  unfold guessColor
  rw [hb, hs]
  simp only
  rw [if_pos hf, last_piece _ filterColor pre post c o hp hc hpost]
  rfl

/-- **C373** (colours at random). Bundles without colours of their own whose constraints
have no word `filter` in them, as `band = 'g'`, get random colours whatever their bands. -/
theorem random_colors (bs : List ColorOf) (h2 : 2 ≤ bs.length)
    (h : ∀ b ∈ bs, b.color = none ∧ ∀ s, b.constraint = some s → ¬ "filter".toList <:+: s) : buildColors bs = none := by
  have hb : ∀ b ∈ bs, guessColor b = some "b" := by
    intro b hb
    obtain ⟨h1, h2⟩ := h b hb
    unfold guessColor
    rw [h1]
    cases hc : b.constraint with
    | none => rfl
    | some s =>
      dsimp only
      rw [if_neg (h2 s hc)]
  have hd : (bs.map guessColor).dedup.length = 1 := by
    have e : bs.map guessColor = List.replicate bs.length (some "b") := by
      rw [List.eq_replicate_iff]
      refine ⟨by simp, ?_⟩
      intro x hx
      obtain ⟨b, hb', rfl⟩ := List.mem_map.1 hx
      exact hb b hb'
    rw [e, List.replicate_dedup (by omega)]
    rfl
  match bs, h2, hd with
  | a :: b :: l, _, hd =>
    unfold buildColors
    dsimp only
    rw [if_pos hd]

/-- **C373** (as intended, false). The constraints of the batches are of the form
`band = 'g'`: bundles for different bands do not get the colours of their bands. -/
theorem band_colors_false :
    buildColors [⟨none, some "band = 'g'".toList⟩, ⟨none, some "band = 'r'".toList⟩] = none := by
  apply random_colors _ (by simp)
  intro b hb
  simp only [List.mem_cons, List.not_mem_nil, or_false] at hb
  rcases hb with rfl | rfl
  · refine ⟨rfl, ?_⟩
    intro s hs
    cases hs
    decide +kernel
  · refine ⟨rfl, ?_⟩
    intro s hs
    cases hs
    decide +kernel

/-- **C373** (own colours). A colour in the dictionary of a bundle is the one that is used,
unless all colours of several bundles are the same. -/
theorem own_color (bs : List ColorOf) (cs : List (Option String)) (h : buildColors bs = some cs) (i : Nat) (b : ColorOf)
    (hb : bs[i]? = some b) (c : Option String) (hc : b.color = some c) : cs[i]? = some c := by
  unfold buildColors at h
  split at h
  · cases h
    match i, hb with
    | 0, hb =>
      simp only [List.getElem?_cons_zero, Option.some.injEq] at hb
      subst hb
      simp [hc]
  · split_ifs at h
    cases h
    rw [List.getElem?_map, hb]
    simp [guessColor, hc]

example : buildColors [⟨none, some "filter = \"g\"".toList⟩, ⟨none, some "filter = \"r\"".toList⟩] = some [some "g", some "y"] := by
  decide +kernel

/-! ## C374: what is drawn and saved -/

/-- **C374** (drawn). If the plotter takes the values, exactly the bundles with a value
that is not masked are drawn. A file is written, and a row added to the database,
exactly when something was drawn. -/
theorem plot_spec (obj savefig db : Bool) (bs : List PBundle) (h : obj = true ∨ ∀ b ∈ bs, b.isObject = true → b.metricIsColor = true) :
    (plot obj savefig db bs).refused = false ∧
    (∀ i, i ∈ (plot obj savefig db bs).drawn ↔ ∃ b m, bs[i]? = some b ∧ b.mask = some m ∧ false ∈ m) ∧
    ((plot obj savefig db bs).saved = true ↔ savefig = true ∧ ∃ b ∈ bs, ∃ m, b.mask = some m ∧ false ∈ m) ∧
    ((plot obj savefig db bs).recorded = true ↔ (plot obj savefig db bs).saved = true ∧ db = true) := by
  have hno : (!obj && bs.any (fun b => b.isObject && !b.metricIsColor)) = false := by
    rcases h with rfl | h
    · rfl
    · rw [Bool.and_eq_false_iff]
      right
      rw [List.any_eq_false]
      intro b hb
      cases hi : b.isObject with
      | false => simp
      | true => simp [h b hb hi]
  have hdraw : ∀ b : PBundle, canDraw b = true ↔ ∃ m, b.mask = some m ∧ false ∈ m := by
    intro b
    unfold canDraw
    cases b.mask with
    | none => simp
    | some m => simp
  have hmem : ∀ i, i ∈ (List.range bs.length).filter (fun i => ((bs[i]?).map canDraw).getD false) ↔
      ∃ b m, bs[i]? = some b ∧ b.mask = some m ∧ false ∈ m := by
    intro i
    rw [List.mem_filter, List.mem_range]
    constructor
    · rintro ⟨hi, hb⟩
      rw [List.getElem?_eq_getElem hi] at hb
      obtain ⟨m, hm⟩ := (hdraw bs[i]).1 (by simpa using hb)
      exact ⟨bs[i], m, List.getElem?_eq_getElem hi, hm⟩
    · rintro ⟨b, m, hb, hm⟩
      refine ⟨(List.getElem?_eq_some_iff.1 hb).1, ?_⟩
      rw [hb]
      simpa using (hdraw b).2 ⟨m, hm⟩
  unfold plot
  rw [hno]
  dsimp only
  simp only [Bool.false_eq_true, if_false]
  refine ⟨trivial, hmem, ?_, by rw [Bool.and_eq_true]⟩
  rw [Bool.and_eq_true]
  constructor
  · rintro ⟨h1, h2⟩
    refine ⟨h1, ?_⟩
    have hne : (List.range bs.length).filter (fun i => ((bs[i]?).map canDraw).getD false) ≠ [] := by
      intro h
      rw [h] at h2
      simp at h2
    obtain ⟨i, hi⟩ := List.exists_mem_of_ne_nil _ hne
    obtain ⟨b, m, hb, hm⟩ := (hmem i).1 hi
    exact ⟨b, List.mem_of_getElem? hb, m, hm⟩
  · rintro ⟨h1, b, hb, m, hm⟩
    refine ⟨h1, ?_⟩
    obtain ⟨i, hi⟩ := List.mem_iff_getElem?.1 hb
    have := (hmem i).2 ⟨b, m, hi, hm⟩
    rw [Bool.not_eq_true', List.isEmpty_eq_false_iff]
    exact List.ne_nil_of_mem this

/-- **C374** (one object bundle stops all). A plotter for numbers draws and saves nothing
as soon as one bundle has values that are objects and not said to be colours. -/
theorem plot_refused (savefig db : Bool) (bs : List PBundle) (b : PBundle) (hb : b ∈ bs) (ho : b.isObject = true) (hc : b.metricIsColor = false) :
    plot false savefig db bs = ⟨true, [], false, false⟩ := by
  unfold plot
  rw [if_pos]
  rw [Bool.not_false, Bool.true_and, List.any_eq_true]
  exact ⟨b, hb, by simp [ho, hc]⟩

example : plot false true true [⟨false, false, some [true, false]⟩, ⟨false, false, some [true]⟩, ⟨false, false, none⟩] =
    ⟨false, [0], true, true⟩ := by decide

/-! ## C375: zero point and norm -/

/-- **C375**. The value that is drawn gives back the value of the metric: it is its
distance from the zero point in units of the norm. -/
theorem applyZpNorm_spec {K : Type*} [Field K] (zp norm : Option K) (v : K) (hn : ∀ n, norm = some n → n ≠ 0) :
    v = applyZpNorm zp norm v * norm.getD 1 + zp.getD 0 := by
  cases zp <;> cases norm with
  | none => simp [applyZpNorm]
  | some n =>
    have := hn n rfl
    simp only [applyZpNorm, Option.getD_some, Option.getD_none]
    field_simp
    try ring

example : applyZpNorm (K := ℚ) (some 26) (some 2) 27 = 1 / 2 := by norm_num [applyZpNorm]

end Verif.PlotH
