import Mathlib.Data.List.Infix
import Mathlib.Data.List.Nodup
import Mathlib.Tactic.Linarith
import Mathlib.Tactic.NormNum
import Mathlib.Tactic.FieldSimp
import Mathlib.Tactic.Push
import Verif.Lemmas.NumpyMore
import Verif.Model.BaseMetric
import Verif.Model.LensCmp

/-!
# Comparing the microlensing results of runs

C452 to C458.
-/

namespace Verif.LensCmp

open Tools (pySplit splitGo)
open SsPipe (s)

/-! ## C452 -/

private theorem split_none (pat x : Str) (h : ¬ pat <:+: x) : splitGo pat 0 x = [x] := by
  induction x with
  | nil => rfl
  | cons c cs ih =>
    rw [splitGo, if_neg, ih]
    · intro h'
      exact h (h'.trans (List.suffix_cons c cs).isInfix)
    · intro hp
      exact h (List.isPrefixOf_iff_prefix.mp hp).isInfix

private theorem split_skip (pat y x : Str) : splitGo pat y.length (y ++ x) = splitGo pat 0 x := by
  induction y with
  | nil => rfl
  | cons c cs ih => rw [List.length_cons, List.cons_append, splitGo, ih]

/-- Splitting at the first occurrence of a word that does not begin with its own end. -/
private theorem split_at (c : Char) (q x y : Str) (hb : ∀ w, w ≠ [] → w ≠ c :: q → w <+: c :: q → ¬ w <:+ c :: q) (hx : ¬ (c :: q) <:+: x) :
    splitGo (c :: q) 0 (x ++ (c :: q ++ y)) = x :: splitGo (c :: q) 0 y := by
  induction x with
  | nil =>
    simp only [List.nil_append, List.cons_append]
    rw [splitGo, if_pos]
    · rw [List.length_cons, Nat.add_sub_cancel, split_skip]
    · rw [List.isPrefixOf_iff_prefix]
      exact ⟨y, rfl⟩
  | cons d ds ih =>
    have ih' := ih (fun h => hx (h.trans (List.suffix_cons d ds).isInfix))
    rw [List.cons_append, splitGo, if_neg]
    · rw [ih']
    · intro hp
      rw [List.isPrefixOf_iff_prefix] at hp
      obtain ⟨t, ht⟩ := hp
      have ht' : (c :: q) ++ t = (d :: ds) ++ (c :: q ++ y) := by simpa using ht
      rcases List.append_eq_append_iff.mp ht' with ⟨w, hw1, hw2⟩ | ⟨w, hw1, hw2⟩
      · exact hx ⟨[], w, by rw [hw1]; simp⟩
      · by_cases he : w = []
        · subst he
          exact hx ⟨[], [], by simpa using hw1⟩
        · have hlt : w.length < (c :: q).length := by rw [hw1, List.length_append, List.length_cons]; omega
          have hpre : w <+: c :: q := by
            have h1 : w <+: (c :: q) ++ y := ⟨t, hw2.symm⟩
            have h2 : (c :: q) <+: (c :: q) ++ y := ⟨y, rfl⟩
            exact List.prefix_of_prefix_length_le h1 h2 hlt.le
          exact hb w he (fun h => by rw [h] at hlt; exact lt_irrefl _ hlt) hpre ⟨d :: ds, hw1.symm⟩

private theorem borderless (pat : Str) (h : ∀ k < pat.length, 0 < k → pat.take k ≠ pat.drop (pat.length - k)) :
    ∀ w, w ≠ [] → w ≠ pat → w <+: pat → ¬ w <:+ pat := by
  intro w hw hne hp hs
  have hl : w.length < pat.length := by
    rcases Nat.lt_or_ge w.length pat.length with h | h
    · exact h
    · exact absurd (hp.eq_of_length (le_antisymm hp.length_le h)) hne
  have h0 : 0 < w.length := List.length_pos_iff.mpr hw
  apply h w.length hl h0
  rw [← List.prefix_iff_eq_take.mp hp]
  exact List.suffix_iff_eq_drop.mp hs

private theorem split_under (a b : Str) (ha : '_' ∉ a) : splitGo ['_'] 0 (a ++ '_' :: b) = a :: splitGo ['_'] 0 b := by
  apply split_at '_' [] a b (borderless _ (by intro k h1 h2; simp at h1; omega))
  intro h
  exact ha (h.mem (by simp))

/-- **C452**: the name that the results of a run have gives back the name of the run, the type of the metric and the two crossing times. -/
theorem parse_name (run typ lo hi rest : Str) (hr : ¬ s "MicrolensingMetric" <:+: run ++ ['_']) (ht : '_' ∉ typ) (hlo : '_' ∉ lo) (hhi : '_' ∉ hi)
    (hrest : rest = [] ∨ ∃ r, rest = '_' :: r)
    (hm : ¬ s "MicrolensingMetric" <:+: s "_" ++ typ ++ s "_tE_" ++ lo ++ s "_" ++ hi ++ rest) :
    parse (run ++ s "_MicrolensingMetric_" ++ typ ++ s "_tE_" ++ lo ++ s "_" ++ hi ++ rest) = .ok (run, typ, lo, hi) := by
  have e : run ++ s "_MicrolensingMetric_" ++ typ ++ s "_tE_" ++ lo ++ s "_" ++ hi ++ rest =
      (run ++ ['_']) ++ (s "MicrolensingMetric" ++ (s "_" ++ typ ++ s "_tE_" ++ lo ++ s "_" ++ hi ++ rest)) := by
    have : s "_MicrolensingMetric_" = ['_'] ++ s "MicrolensingMetric" ++ s "_" := by decide
    rw [this]
    simp only [List.append_assoc]
  have h1 : pySplit (s "MicrolensingMetric") (run ++ s "_MicrolensingMetric_" ++ typ ++ s "_tE_" ++ lo ++ s "_" ++ hi ++ rest) =
      [run ++ ['_'], s "_" ++ typ ++ s "_tE_" ++ lo ++ s "_" ++ hi ++ rest] := by
    rw [e, pySplit]
    have hs : s "MicrolensingMetric" = 'M' :: s "icrolensingMetric" := by decide
    rw [hs] at hr hm ⊢
    rw [split_at _ _ _ _ (borderless _ (by decide)) hr, split_none _ _ hm]
  have h2 : pySplit (s "_") (s "_" ++ typ ++ s "_tE_" ++ lo ++ s "_" ++ hi ++ rest) =
      [] :: typ :: s "tE" :: lo :: splitGo ['_'] 0 (hi ++ rest) := by
    have e2 : s "_" ++ typ ++ s "_tE_" ++ lo ++ s "_" ++ hi ++ rest = [] ++ '_' :: (typ ++ '_' :: (s "tE" ++ '_' :: (lo ++ '_' :: (hi ++ rest)))) := by
      have a1 : s "_" = ['_'] := by decide
      have a2 : s "_tE_" = '_' :: (s "tE" ++ ['_']) := by decide
      rw [a1, a2]
      simp
    rw [e2]
    show splitGo ['_'] 0 _ = _
    rw [split_under _ _ (by simp), split_under _ _ ht, split_under _ _ (by decide), split_under _ _ hlo]
  have h3 : ∃ l, splitGo ['_'] 0 (hi ++ rest) = hi :: l := by
    rcases hrest with rfl | ⟨r, rfl⟩
    · refine ⟨[], ?_⟩
      rw [List.append_nil, split_none]
      intro h
      exact hhi (h.mem (by simp))
    · exact ⟨_, split_under _ _ hhi⟩
  obtain ⟨l, hl⟩ := h3
  rw [hl] at h2
  unfold parse
  rw [h1]
  simp only [h2]
  simp

example : parse (s "baseline_MicrolensingMetric_Fisher_tE_10_20_days_USER") = .ok (s "baseline", s "Fisher", s "10", s "20") := by decide

/-- The names that the results of a batch are written with. -/
example : BaseM.fileRoot (s "base v4.0") (s "MicrolensingMetric_Npts") (s "tE 200_500 days") (s "USER") =
      s "base_v4_0_MicrolensingMetric_Npts_tE_200_500_days_USER" ∧
    parse (s "base_v4_0_MicrolensingMetric_Npts_tE_200_500_days_USER") = .ok (s "base_v4_0", s "Npts", s "200", s "500") := by decide

/-- **C452**, where it ends: a name without the metric, or that ends before the crossing times, is refused. -/
theorem parse_short (name : Str) (h : ¬ s "MicrolensingMetric" <:+: name) : parse name = .error .index := by
  unfold parse pySplit
  rw [split_none _ _ h]

/-- **C452** is false for every run: a run with the name of the metric in its own name is read wrongly. -/
theorem parse_name_false :
    ¬ ∀ run typ lo hi : Str, '_' ∉ typ → '_' ∉ lo → '_' ∉ hi →
      parse (run ++ s "_MicrolensingMetric_" ++ typ ++ s "_tE_" ++ lo ++ s "_" ++ hi) = .ok (run, typ, lo, hi) := by
  intro h
  have := h (s "MicrolensingMetric_only_in_year_1") (s "detect") (s "1") (s "10") (by decide) (by decide) (by decide)
  exact absurd this (by decide)

/-! ## C453 -/

section
variable {K : Type*} [LinearOrder K]

theorem unique_eq (xs l : List K) (hl : l.Pairwise (· < ·)) (h : ∀ x, x ∈ xs ↔ x ∈ l) : unique xs = l := by
  unfold unique
  have hp : xs.dedup.Perm l := by
    rw [List.perm_ext_iff_of_nodup (List.nodup_dedup xs) (hl.imp (fun h => ne_of_lt h))]
    intro x
    rw [List.mem_dedup]
    exact h x
  rw [Np.sort_eq_of_perm hp, Np.sort_eq_self (hl.imp (fun h => le_of_lt h))]

/-- The bins of a study: both limits grow from one to the next. -/
def Growing (bins : List (K × K)) : Prop := bins.Pairwise (fun a b => a.1 < b.1 ∧ a.2 < b.2)

theorem mem_members (runs : List (K × K)) (r : K × K) (i : ℕ) :
    i ∈ members runs r ↔ ∃ x, runs[i]? = some x ∧ r.1 ≤ x.1 ∧ x.2 ≤ r.2 := by
  unfold members
  rw [List.mem_filter, List.mem_range]
  cases h : runs[i]? with
  | none =>
    simp
  | some x =>
    have := (List.getElem?_eq_some_iff.mp h).1
    simp [inRange, this]

/-- **C453**: the ranges are the bins in which the runs were made, and a run is in the range of its own bin and in no other. -/
theorem ranges_bins (runs bins : List (K × K)) (hb : Growing bins) (h : ∀ x, x ∈ runs ↔ x ∈ bins) :
    ranges runs = bins ∧ ∀ r ∈ bins, ∀ i : ℕ, i ∈ members runs r ↔ runs[i]? = some r := by
  constructor
  · unfold ranges
    rw [unique_eq (runs.map Prod.fst) (bins.map Prod.fst), unique_eq (runs.map Prod.snd) (bins.map Prod.snd)]
    · clear h hb
      induction bins with
      | nil => rfl
      | cons b bs ih => simp [ih]
    · exact List.pairwise_map.mpr (hb.imp (fun h => h.2))
    · intro x
      simp only [List.mem_map, h]
    · exact List.pairwise_map.mpr (hb.imp (fun h => h.1))
    · intro x
      simp only [List.mem_map, h]
  · intro r hr i
    rw [mem_members]
    constructor
    · rintro ⟨x, hx, h1, h2⟩
      have hxb : x ∈ bins := (h x).mp (List.mem_of_getElem? hx)
      by_cases hne : x = r
      · rw [hx, hne]
      · exfalso
        have : ∀ a ∈ bins, ∀ b ∈ bins, a ≠ b → (a.1 < b.1 ∧ a.2 < b.2) ∨ (b.1 < a.1 ∧ b.2 < a.2) := by
          intro a ha b hbm hab
          have hg := List.pairwise_iff_getElem.mp hb
          obtain ⟨m, hm, rfl⟩ := List.mem_iff_getElem.mp ha
          obtain ⟨n, hn, rfl⟩ := List.mem_iff_getElem.mp hbm
          rcases lt_trichotomy m n with hmn | hmn | hmn
          · exact Or.inl (hg m n hm hn hmn)
          · subst hmn; exact absurd rfl hab
          · exact Or.inr (hg n m hn hm hmn)
        rcases this x hxb r hr hne with ⟨h3, _⟩ | ⟨_, h4⟩
        · exact absurd h1 (not_le.mpr h3)
        · exact absurd h2 (not_le.mpr h4)
    · intro hx
      exact ⟨r, hx, le_refl _, le_refl _⟩

example : ranges [((10 : ℚ), (30 : ℚ)), (1, 10), (10, 30), (30, 100)] = [(1, 10), (10, 30), (30, 100)] ∧
    members [((10 : ℚ), (30 : ℚ)), (1, 10), (10, 30), (30, 100)] (10, 30) = [0, 2] := by decide +kernel

example : Growing [((1 : ℚ), (10 : ℚ)), (10, 30), (30, 100), (100, 1000)] := by
  unfold Growing
  simp only [List.pairwise_cons, List.mem_cons, List.not_mem_nil]
  norm_num

end

/-- **C453** is false for bins that lie in one another: a run with crossing times between 1 and 1000 days is in no range, and a range has limits that
no run has. -/
theorem ranges_nested_false :
    ¬ ∀ runs : List (ℚ × ℚ), (∀ x ∈ runs, x.1 < x.2) →
      (∀ i < runs.length, ∃ r ∈ ranges runs, i ∈ members runs r) ∧ ∀ r ∈ ranges runs, r ∈ runs := by
  intro h
  have := h [(1, 1000), (10, 30)] (by simp; norm_num)
  revert this
  decide +kernel

/-- Bins that begin together lose all but the first. -/
theorem ranges_shared_start (lo : ℚ) (his : List ℚ) (h : his ≠ []) : (ranges (his.map (fun x => (lo, x)))).length = 1 := by
  have hu : unique ((his.map (fun x => (lo, x))).map Prod.fst) = [lo] := by
    apply unique_eq
    · simp
    · intro x
      simp only [List.map_map, List.mem_map, Function.comp, List.mem_singleton]
      constructor
      · rintro ⟨_, _, rfl⟩; rfl
      · rintro rfl
        obtain ⟨y, hy⟩ := List.exists_mem_of_ne_nil his h
        exact ⟨y, hy, rfl⟩
  have hs : (unique ((his.map (fun x => (lo, x))).map Prod.snd)) ≠ [] := by
    unfold unique
    intro he
    have := Np.sort_length ((his.map (fun x => (lo, x))).map Prod.snd).dedup
    rw [he] at this
    have h0 := List.length_eq_zero_iff.mp this.symm
    obtain ⟨y, hy⟩ := List.exists_mem_of_ne_nil his h
    have : y ∈ ((his.map (fun x => (lo, x))).map Prod.snd).dedup := by
      rw [List.mem_dedup]
      simpa using hy
    rw [h0] at this
    cases this
  unfold ranges
  rw [hu, List.length_zip]
  have := List.length_pos_iff.mpr hs
  simp only [List.length_singleton]
  omega

example : ranges [((1 : ℚ), (10 : ℚ)), (1, 100), (1, 1000)] = [(1, 10)] := by decide +kernel

/-! ## C454 -/

section
variable {K N : Type*} [LinearOrder K] [LinearOrder N]

/-- **C454**: a series has the runs of its range and its type once, in the order of their names. -/
theorem series_spec (runs : List (K × K)) (names : ℕ → N) (types : ℕ → Str) (r : K × K) (t : Str) :
    (series runs names types r t).Nodup ∧ (series runs names types r t).Pairwise (fun i j => names i ≤ names j) ∧
      ∀ i : ℕ, i ∈ series runs names types r t ↔ (∃ x, runs[i]? = some x ∧ r.1 ≤ x.1 ∧ x.2 ≤ r.2) ∧ types i = t := by
  have hp : (series runs names types r t).Perm ((members runs r).filter (fun i => decide (types i = t))) := List.perm_insertionSort _ _
  refine ⟨?_, ?_, ?_⟩
  · rw [hp.nodup_iff]
    exact (List.nodup_range.filter _).filter _
  · have ht : Std.Total (fun i j => names i ≤ names j) := ⟨fun i j => le_total _ _⟩
    have hr : IsTrans ℕ (fun i j => names i ≤ names j) := ⟨fun i j k => le_trans⟩
    exact List.pairwise_insertionSort _ _
  · intro i
    rw [hp.mem_iff, List.mem_filter, mem_members, decide_eq_true_iff]

private theorem mapM_if {α β : Type} (l : List α) (p : α → Bool) (g : α → β) (e : PyErr) :
    l.mapM (fun x => if p x then (Except.error e : Except PyErr β) else .ok (g x)) = if l.any p then .error e else .ok (l.map g) := by
  induction l with
  | nil => rfl
  | cons a as ih =>
    rw [List.mapM_cons, ih]
    by_cases h : p a
    · simp [h]; rfl
    · by_cases h2 : as.any p
      · simp only [h, h2, List.any_cons, Bool.false_or, if_true]; rfl
      · simp only [h, h2, List.any_cons, Bool.false_or]; rfl

end

section
variable {K N : Type} [LinearOrder K] [LinearOrder N]

theorem plotFom_eq (runs : List (K × K)) (names : ℕ → N) (types : ℕ → Str) :
    plotFom runs names types =
      if ((ranges runs).flatMap (fun r => kinds.map (fun t => (r, t)))).any (fun x => (series runs names types x.1 x.2).isEmpty) then .error .index
      else .ok (((ranges runs).flatMap (fun r => kinds.map (fun t => (r, t)))).map (fun x => (x.1, x.2, series runs names types x.1 x.2))) :=
  mapM_if _ (fun x : (K × K) × Str => (series runs names types x.1 x.2).isEmpty) (fun x => (x.1, x.2, series runs names types x.1 x.2)) _

omit [LinearOrder K] in
theorem mem_pairs (l : List (K × K)) (x : (K × K) × Str) : x ∈ l.flatMap (fun r => kinds.map (fun t => (r, t))) ↔ x.1 ∈ l ∧ x.2 ∈ kinds := by
  obtain ⟨a, b⟩ := x
  simp only [List.mem_flatMap, List.mem_map, Prod.mk.injEq]
  constructor
  · rintro ⟨r, hr, t, ht, rfl, rfl⟩; exact ⟨hr, ht⟩
  · rintro ⟨h1, h2⟩; exact ⟨a, h1, b, h2, rfl, rfl⟩

/-- **C454**: the figure is refused exactly when some bin has no run of some type. -/
theorem fom_refused (runs bins : List (K × K)) (names : ℕ → N) (types : ℕ → Str) (hb : Growing bins) (h : ∀ x, x ∈ runs ↔ x ∈ bins) :
    plotFom runs names types = .error .index ↔
      ∃ b ∈ bins, ∃ t ∈ [s "detect", s "Npts", s "Fisher"], ∀ i : ℕ, runs[i]? = some b → types i ≠ t := by
  obtain ⟨h1, h2⟩ := ranges_bins runs bins hb h
  rw [plotFom_eq, h1]
  have key : ∀ b ∈ bins, ∀ t, (series runs names types b t).isEmpty = true ↔ ∀ i : ℕ, runs[i]? = some b → types i ≠ t := by
    intro b hbm t
    rw [List.isEmpty_iff, List.eq_nil_iff_forall_not_mem]
    have := (series_spec runs names types b t).2.2
    constructor
    · intro hh i hi ht
      exact hh i ((this i).mpr ⟨⟨b, hi, le_refl _, le_refl _⟩, ht⟩)
    · intro hh i hi
      obtain ⟨hx, ht⟩ := (this i).mp hi
      exact hh i ((h2 b hbm i).mp ((mem_members _ _ _).mpr hx)) ht
  constructor
  · intro he
    by_contra hc
    rw [if_neg] at he
    · cases he
    · rw [List.any_eq_true]
      rintro ⟨x, hx, hx2⟩
      rw [mem_pairs] at hx
      exact hc ⟨x.1, hx.1, x.2, hx.2, (key _ hx.1 _).mp hx2⟩
  · rintro ⟨b, hbm, t, ht, hh⟩
    rw [if_pos]
    rw [List.any_eq_true]
    exact ⟨(b, t), (mem_pairs _ _).mpr ⟨hbm, ht⟩, (key b hbm t).mpr hh⟩

/-- **C454**: if the figure is drawn, every run of one of the three types is drawn exactly once, in the panel of its type and with the label of its
bin. -/
theorem fom_once (runs bins : List (K × K)) (names : ℕ → N) (types : ℕ → Str) (hb : Growing bins) (h : ∀ x, x ∈ runs ↔ x ∈ bins)
    (out : List ((K × K) × Str × List ℕ)) (ho : plotFom runs names types = .ok out) :
    (∀ (i : ℕ) (x : K × K), runs[i]? = some x → types i ∈ [s "detect", s "Npts", s "Fisher"] → (out.flatMap (fun o => o.2.2)).count i = 1) ∧
    ∀ o ∈ out, ∀ i ∈ o.2.2, runs[i]? = some o.1 ∧ types i = o.2.1 := by
  obtain ⟨h1, h2⟩ := ranges_bins runs bins hb h
  rw [plotFom_eq, h1] at ho
  split at ho
  · cases ho
  simp only [Except.ok.injEq] at ho
  subst ho
  have key : ∀ x ∈ bins.flatMap (fun r => kinds.map (fun t => (r, t))), ∀ i : ℕ, i ∈ series runs names types x.1 x.2 ↔ runs[i]? = some x.1 ∧ types i = x.2 := by
    intro x hx i
    have hm := ((mem_pairs _ _).mp hx).1
    rw [(series_spec runs names types x.1 x.2).2.2, ← mem_members, h2 _ hm]
  constructor
  · intro i x hx ht
    rw [List.flatMap_map]
    have hxb := (h x).mp (List.mem_of_getElem? hx)
    have hmem : (x, types i) ∈ bins.flatMap (fun r => kinds.map (fun t => (r, t))) := (mem_pairs _ _).mpr ⟨hxb, ht⟩
    apply List.count_eq_one_of_mem
    · rw [List.nodup_flatMap]
      refine ⟨fun y _ => (series_spec runs names types y.1 y.2).1, ?_⟩
      have hnd : (bins.flatMap (fun r => kinds.map (fun t => (r, t)))).Nodup := by
        rw [List.nodup_flatMap]
        refine ⟨fun r _ => List.Nodup.map (fun a b hab => by simpa using hab) (by decide), ?_⟩
        apply hb.imp
        intro a b hab c hc1 hc2
        simp only [List.mem_map] at hc1 hc2
        obtain ⟨_, _, rfl⟩ := hc1
        obtain ⟨_, _, h4⟩ := hc2
        simp only [Prod.mk.injEq] at h4
        rw [h4.1] at hab
        exact lt_irrefl _ hab.1
      apply List.Nodup.pairwise_of_forall_ne hnd
      intro a ha b hbm hab j hj1 hj2
      have e1 := (key a ha j).mp hj1
      have e2 := (key b hbm j).mp hj2
      apply hab
      have := e1.1.symm.trans e2.1
      simp only [Option.some.injEq] at this
      exact Prod.ext this (e1.2.symm.trans e2.2)
    · rw [List.mem_flatMap]
      exact ⟨_, hmem, (key _ hmem i).mpr ⟨hx, rfl⟩⟩
  · intro o ho i hi
    simp only [List.mem_map] at ho
    obtain ⟨x, hx, rfl⟩ := ho
    exact (key x hx i).mp hi

end

/-- Six runs: two simulations, one bin, three types. -/
example : plotFom (N := ℕ) [((1 : ℚ), (10 : ℚ)), (1, 10), (1, 10), (1, 10), (1, 10), (1, 10)] (fun i => 9 - i)
      (fun i => [s "detect", s "Npts", s "Fisher"][i % 3]?.getD []) =
    .ok [((1, 10), s "detect", [3, 0]), ((1, 10), s "Npts", [4, 1]), ((1, 10), s "Fisher", [5, 2])] := by decide +kernel

/-- **C454** is false for the types of the batches: detections in two bins, the other two metrics in one of them. -/
theorem fom_every_batch_false :
    ¬ ∀ (runs : List (ℚ × ℚ)) (types : ℕ → Str), (∀ t ∈ [s "detect", s "Npts", s "Fisher"], ∃ i < runs.length, types i = t) →
      ∃ out, plotFom (N := ℕ) runs (fun i => i) types = .ok out := by
  intro h
  obtain ⟨out, ho⟩ := h [(10, 20), (10, 20), (10, 20), (1, 5)] (fun i => [s "detect", s "Npts", s "Fisher", s "detect"][i]?.getD []) (by decide)
  have hg : Growing [((1 : ℚ), (5 : ℚ)), (10, 20)] := by
    unfold Growing
    simp only [List.pairwise_cons, List.mem_cons, List.not_mem_nil]
    norm_num
  have := (fom_refused [(10, 20), (10, 20), (10, 20), (1, 5)] [((1 : ℚ), (5 : ℚ)), (10, 20)] (fun i => i)
    (fun i => [s "detect", s "Npts", s "Fisher", s "detect"][i]?.getD []) hg (by intro x; simp; tauto)).mpr
      ⟨(1, 5), by simp, s "Npts", by simp, by
        intro i hi
        match i with
        | 0 => simp at hi
        | 1 => simp at hi
        | 2 => simp at hi
        | 3 => decide
        | n + 4 => simp at hi⟩
  rw [this] at ho
  cases ho

/-! ## C455 -/

/-- An event as it is meant: its uncertainty, none if the matrix cannot be inverted, whether it was detected, the number of points. -/
structure Ev where
  sigma : Option ℚ
  detected : Bool
  points : ℕ

/-- The values that the three metrics give. -/
def Ev.values (e : Ev) : Event where
  fisher := match e.sigma with
    | some q => .num q
    | none => .inf
  detect := .num (if e.detected then 1 else 0)
  npts := .num e.points

/-- The uncertainty is below the limit. -/
def Ev.characterized (c : ℚ) (e : Ev) : Bool := e.sigma.any (fun q => decide (q < c))

private theorem countP_eq_of {α : Type*} (l : List α) (p q : α → Bool) (h : ∀ x ∈ l, p x = q x) : l.countP p = l.countP q :=
  List.countP_congr (fun x hx => by rw [h x hx])

private theorem countP_add {α : Type*} (l : List α) (p q r : α → Bool) (h : ∀ x, (p x).toNat + (q x).toNat = (r x).toNat) :
    l.countP p + l.countP q = l.countP r := by
  induction l with
  | nil => rfl
  | cons a as ih =>
    have := h a
    simp only [List.countP_cons]
    cases h1 : p a <;> cases h2 : q a <;> cases h3 : r a <;> simp_all <;> omega

/-- **C455**: the four numbers of the comparison of detection and characterization. -/
theorem detected_fisher_cells (ev : List Ev) (c : ℚ) :
    detectedFisher (ev.map (fun e => (e.values.fisher, e.values.detect))) c =
      ⟨ev.countP (fun e => e.characterized c && e.detected), ev.countP (fun e => e.characterized c && !e.detected),
       ev.countP (fun e => !e.characterized c && !decide (e.sigma = some c) && e.detected),
       ev.countP (fun e => !e.characterized c && !decide (e.sigma = some c) && !e.detected)⟩ := by
  unfold detectedFisher
  simp only [List.countP_map, Matrix.mk.injEq]
  have h1 : ∀ e : Ev, e.values.fisher.lt c = e.characterized c := by
    intro e
    unfold Ev.values Ev.characterized V.lt
    cases e.sigma <;> simp
  have h2 : ∀ e : Ev, e.values.fisher.gt c = (!e.characterized c && !decide (e.sigma = some c)) := by
    intro e
    unfold Ev.values Ev.characterized V.gt
    cases e.sigma with
    | none => simp
    | some q =>
      simp only [Option.any_some, Option.some.injEq]
      rcases lt_trichotomy q c with h | h | h
      · simp [h, h.le]
      · simp [h]
      · simp [h, h.le, h.ne']
  have h3 : ∀ e : Ev, e.values.detect.eq 1 = e.detected := by
    intro e
    unfold Ev.values V.eq
    cases e.detected <;> simp
  have h4 : ∀ e : Ev, e.values.detect.eq 0 = !e.detected := by
    intro e
    unfold Ev.values V.eq
    cases e.detected <;> simp
  refine ⟨?_, ?_, ?_, ?_⟩ <;> apply countP_eq_of <;> intro e _ <;> simp only [Function.comp, h1, h2, h3, h4]

/-- **C455**: the comparison of characterization and points. -/
theorem fisher_npts_cells (ev : List Ev) (n : ℕ) (c : ℚ) :
    fisherNpts (ev.map (fun e => (e.values.fisher, e.values.npts))) n c =
      ⟨ev.countP (fun e => e.characterized c && decide (n < e.points)), ev.countP (fun e => e.characterized c && decide (e.points < n)),
       ev.countP (fun e => !e.characterized c && !decide (e.sigma = some c) && decide (n < e.points)),
       ev.countP (fun e => !e.characterized c && !decide (e.sigma = some c) && decide (e.points < n))⟩ := by
  unfold fisherNpts
  simp only [List.countP_map, Matrix.mk.injEq]
  have h1 : ∀ e : Ev, e.values.fisher.lt c = e.characterized c := by
    intro e
    unfold Ev.values Ev.characterized V.lt
    cases e.sigma <;> simp
  have h2 : ∀ e : Ev, e.values.fisher.gt c = (!e.characterized c && !decide (e.sigma = some c)) := by
    intro e
    unfold Ev.values Ev.characterized V.gt
    cases e.sigma with
    | none => simp
    | some q =>
      simp only [Option.any_some, Option.some.injEq]
      rcases lt_trichotomy q c with h | h | h
      · simp [h, h.le]
      · simp [h]
      · simp [h, h.le, h.ne']
  have h3 : ∀ e : Ev, e.values.npts.gt n = decide (n < e.points) := by
    intro e
    simp [Ev.values, V.gt]
  have h4 : ∀ e : Ev, e.values.npts.lt n = decide (e.points < n) := by
    intro e
    simp [Ev.values, V.lt]
  refine ⟨?_, ?_, ?_, ?_⟩ <;> apply countP_eq_of <;> intro e _ <;> simp only [Function.comp, h1, h2, h3, h4]

/-- **C455**: the comparison of detection and points. -/
theorem detected_npts_cells (ev : List Ev) (n : ℕ) :
    detectedNpts (ev.map (fun e => (e.values.detect, e.values.npts))) n =
      ⟨ev.countP (fun e => e.detected && decide (n < e.points)), ev.countP (fun e => e.detected && decide (e.points < n)),
       ev.countP (fun e => !e.detected && decide (n < e.points)), ev.countP (fun e => !e.detected && decide (e.points < n))⟩ := by
  unfold detectedNpts
  simp only [List.countP_map, Matrix.mk.injEq]
  have h1 : ∀ e : Ev, e.values.detect.eq 1 = e.detected := by
    intro e
    unfold Ev.values V.eq
    cases e.detected <;> simp
  have h2 : ∀ e : Ev, e.values.detect.eq 0 = !e.detected := by
    intro e
    unfold Ev.values V.eq
    cases e.detected <;> simp
  have h3 : ∀ e : Ev, e.values.npts.gt n = decide (n < e.points) := by
    intro e
    simp [Ev.values, V.gt]
  have h4 : ∀ e : Ev, e.values.npts.lt n = decide (e.points < n) := by
    intro e
    simp [Ev.values, V.lt]
  refine ⟨?_, ?_, ?_, ?_⟩ <;> apply countP_eq_of <;> intro e _ <;> simp only [Function.comp, h1, h2, h3, h4]

/-- **C455**: the events that are in none of the four cells are those that meet a limit exactly. -/
theorem cells_total (ev : List Ev) (n : ℕ) (c : ℚ) :
    (let m := detectedFisher (ev.map (fun e => (e.values.fisher, e.values.detect))) c
     m.yy + m.yn + m.ny + m.nn + ev.countP (fun e => decide (e.sigma = some c)) = ev.length) ∧
    (let m := fisherNpts (ev.map (fun e => (e.values.fisher, e.values.npts))) n c
     m.yy + m.yn + m.ny + m.nn + ev.countP (fun e => decide (e.sigma = some c) || decide (e.points = n)) = ev.length) ∧
    (let m := detectedNpts (ev.map (fun e => (e.values.detect, e.values.npts))) n
     m.yy + m.yn + m.ny + m.nn + ev.countP (fun e => decide (e.points = n)) = ev.length) := by
  rw [detected_fisher_cells, fisher_npts_cells, detected_npts_cells]
  have tot : ∀ p : Ev → Bool, (∀ e, p e = true) → ev.countP p = ev.length := fun p h => List.countP_eq_length.mpr (fun e _ => h e)
  have hc : ∀ e : Ev, e.sigma = some c → e.characterized c = false := by
    intro e h
    simp [Ev.characterized, h]
  refine ⟨?_, ?_, ?_⟩
  · show _ + _ + _ + _ + _ = _
    rw [countP_add ev _ _ (fun e => e.characterized c) (by intro e; cases e.characterized c <;> cases e.detected <;> rfl),
      Nat.add_assoc, Nat.add_assoc, ← Nat.add_assoc (ev.countP _) (ev.countP _) (ev.countP _),
      countP_add ev _ _ (fun e => !e.characterized c && !decide (e.sigma = some c))
        (by intro e; cases e.characterized c <;> cases e.detected <;> by_cases h : e.sigma = some c <;> simp [h]),
      countP_add ev _ _ (fun e => !e.characterized c)
        (by intro e; by_cases h : e.sigma = some c <;> simp [h, hc]),
      countP_add ev _ _ (fun _ => true) (by intro e; cases e.characterized c <;> rfl)]
    exact tot _ (fun _ => rfl)
  · show _ + _ + _ + _ + _ = _
    rw [countP_add ev _ _ (fun e => e.characterized c && !decide (e.points = n))
        (by
          intro e
          rcases lt_trichotomy e.points n with h | h | h
          · simp [h, h.ne, h.le]
          · simp [h]
          · simp [h, h.ne', h.le]),
      Nat.add_assoc, Nat.add_assoc, ← Nat.add_assoc (ev.countP _) (ev.countP _) (ev.countP _),
      countP_add ev _ _ (fun e => !e.characterized c && !decide (e.sigma = some c) && !decide (e.points = n))
        (by
          intro e
          rcases lt_trichotomy e.points n with h | h | h
          · simp [h, h.ne, h.le]
          · simp [h]
          · simp [h, h.ne', h.le]),
      countP_add ev _ _ (fun e => !e.characterized c || decide (e.points = n))
        (by
          intro e
          by_cases h : e.sigma = some c
          · simp [h, hc]
          · by_cases h2 : e.points = n <;> simp [h, h2]),
      countP_add ev _ _ (fun _ => true) (by intro e; cases e.characterized c <;> by_cases h2 : e.points = n <;> simp [h2])]
    exact tot _ (fun _ => rfl)
  · show _ + _ + _ + _ + _ = _
    rw [countP_add ev _ _ (fun e => e.detected && !decide (e.points = n))
        (by
          intro e
          rcases lt_trichotomy e.points n with h | h | h
          · simp [h, h.ne, h.le]
          · simp [h]
          · simp [h, h.ne', h.le]),
      Nat.add_assoc, Nat.add_assoc, ← Nat.add_assoc (ev.countP _) (ev.countP _) (ev.countP _),
      countP_add ev _ _ (fun e => !e.detected && !decide (e.points = n))
        (by
          intro e
          rcases lt_trichotomy e.points n with h | h | h
          · simp [h, h.ne, h.le]
          · simp [h]
          · simp [h, h.ne', h.le]),
      countP_add ev _ _ (fun e => !e.detected || decide (e.points = n))
        (by intro e; by_cases h2 : e.points = n <;> simp [h2]),
      countP_add ev _ _ (fun _ => true) (by intro e; cases e.detected <;> by_cases h2 : e.points = n <;> simp [h2])]
    exact tot _ (fun _ => rfl)

/-- Four events. -/
def four : List Ev := [⟨some (1 / 20), true, 40⟩, ⟨none, true, 3⟩, ⟨some (1 / 2), false, 10⟩, ⟨some (1 / 20), false, 11⟩]

example : detectedFisher (four.map (fun e => (e.values.fisher, e.values.detect))) (1 / 10) = ⟨1, 1, 1, 1⟩ ∧
    fisherNpts (four.map (fun e => (e.values.fisher, e.values.npts))) 10 (1 / 10) = ⟨2, 0, 0, 1⟩ ∧
    detectedNpts (four.map (fun e => (e.values.detect, e.values.npts))) 10 = ⟨1, 1, 1, 0⟩ := by decide +kernel

/-- **C455** is false as documented, where an event either passes a criterion or does not: an event with exactly the required number of points is in
no cell. -/
theorem cells_partition_false :
    ¬ ∀ (ev : List Ev) (n : ℕ), let m := detectedNpts (ev.map (fun e => (e.values.detect, e.values.npts))) n
      m.yy + m.yn + m.ny + m.nn = ev.length := by
  intro h
  exact absurd (h four 10) (by decide +kernel)

/-! ## C456 -/

/-- **C456**: the matrices that are drawn do not depend on the number of points that is asked for, only their labels do. -/
theorem compare_ignores (ev : List Event) (n m : ℚ) :
    (plotCompare ev n).map Prod.snd = (plotCompare ev m).map Prod.snd ∧ (plotCompare ev n).map Prod.fst = [none, some n, some n] := ⟨rfl, rfl⟩

/-- **C456**, what holds: for ten points and a limit of a tenth the cells are those of the labels. -/
theorem compare_partial (ev : List Ev) (hs : ∀ e ∈ ev, e.sigma ≠ some (1 / 10)) (hp : ∀ e ∈ ev, e.points ≠ 10) :
    plotCompare (ev.map Ev.values) 10 =
      [(none, ⟨ev.countP (fun e => e.characterized (1 / 10) && e.detected), ev.countP (fun e => e.characterized (1 / 10) && !e.detected),
          ev.countP (fun e => !e.characterized (1 / 10) && e.detected), ev.countP (fun e => !e.characterized (1 / 10) && !e.detected)⟩),
       (some 10, ⟨ev.countP (fun e => e.characterized (1 / 10) && decide (10 < e.points)), ev.countP (fun e => e.characterized (1 / 10) && !decide (10 < e.points)),
          ev.countP (fun e => !e.characterized (1 / 10) && decide (10 < e.points)), ev.countP (fun e => !e.characterized (1 / 10) && !decide (10 < e.points))⟩),
       (some 10, ⟨ev.countP (fun e => e.detected && decide (10 < e.points)), ev.countP (fun e => e.detected && !decide (10 < e.points)),
          ev.countP (fun e => !e.detected && decide (10 < e.points)), ev.countP (fun e => !e.detected && !decide (10 < e.points))⟩)] := by
  have h1 := detected_fisher_cells ev (1 / 10)
  have h2 := fisher_npts_cells ev 10 (1 / 10)
  have h3 := detected_npts_cells ev 10
  have hl : ∀ e ∈ ev, decide (e.points < 10) = !decide (10 < e.points) := by
    intro e he
    have := hp e he
    rcases lt_trichotomy e.points 10 with h | h | h
    · simp [h, h.le]
    · exact absurd h this
    · simp [h, h.le]
  unfold plotCompare
  simp only [List.map_map, Function.comp_def] at h1 h2 h3 ⊢
  rw [Nat.cast_ofNat] at h2 h3
  rw [h1, h2, h3]
  simp only [List.cons.injEq, Prod.mk.injEq, Matrix.mk.injEq, and_true, true_and]
  refine ⟨⟨?_, ?_⟩, ⟨?_, ?_, ?_⟩, ?_, ?_⟩ <;> apply countP_eq_of <;> intro e he <;> simp only [decide_eq_false (hs e he), hl e he, Bool.not_false, Bool.and_true]

/-- **C456** is false: a figure that says "more than 20 points" counts an event with 15 among those that have them. -/
theorem compare_label_false :
    ¬ ∀ (ev : List Ev) (n : ℕ) (m : Matrix), (some (n : ℚ), m) ∈ plotCompare (ev.map Ev.values) n → m.yy ≤ ev.countP (fun e => decide (n < e.points)) := by
  intro h
  have := h [⟨some (1 / 20), true, 15⟩] 20 ⟨1, 0, 0, 0⟩ (by decide +kernel)
  revert this
  decide

/-! ## C457 -/

/-- The file of a metric: its values for the events that were visited, and the same number under the mask for all the others. -/
def rowsOf (f : Ev → V) (ev : List (Ev × Bool)) (junk : V) : List Row :=
  ev.map (fun e => if e.2 then ⟨junk, true⟩ else ⟨f e.1, false⟩)

/-- **C457**: the mask has no part in the results. -/
theorem results_mask (df : List Row) (k : Kind) (c : ℚ) (f : Row → Bool) :
    getResults (df.map (fun r => { r with mask := f r })) k c = getResults df k c := by
  unfold getResults
  rw [List.length_map]
  by_cases h : df.length = 0
  · rw [if_pos h, if_pos h]
  · rw [if_neg h, if_neg h]
    cases k
    · simp only [List.countP_map]; rfl
    · simp only [List.filterMap_map]; rfl
    · simp only [List.countP_map]; rfl

/-- **C457**: if the file has a zero for every event without visits, the fraction of detected events and the mean number of points are over all
events; the fraction of characterized events has all the events without visits in it. -/
theorem results_zero (ev : List (Ev × Bool)) (c : ℚ) (h : ev ≠ []) (hc : 0 < c) (hp : ∀ e ∈ ev, e.1.points ≤ 100000000000) :
    getResults (rowsOf (fun e => e.values.detect) ev (.num 0)) .detect c =
      .ok ((ev.countP (fun e => !e.2 && e.1.detected) : ℚ) / ev.length) ∧
    getResults (rowsOf (fun e => e.values.npts) ev (.num 0)) .npts c =
      .ok (((ev.filter (fun e => !e.2)).map (fun e => (e.1.points : ℚ))).sum / ev.length) ∧
    getResults (rowsOf (fun e => e.values.fisher) ev (.num 0)) .fisher c =
      .ok (((ev.countP (fun e => !e.2 && e.1.characterized c) + ev.countP (fun e => e.2) : ℕ) : ℚ) / ev.length) := by
  have hn : ¬ ev.length = 0 := by rw [List.length_eq_zero_iff]; exact h
  unfold getResults rowsOf
  simp only [List.length_map, if_neg hn, List.countP_map, List.filterMap_map, Except.ok.injEq]
  refine ⟨?_, ?_, ?_⟩
  · congr 2
    apply countP_eq_of
    intro e _
    cases h2 : e.2 <;> simp [Function.comp, h2, Ev.values, V.eq]
  · congr 1
    clear hn h
    induction ev with
    | nil => rfl
    | cons e es ih =>
      have ih' := ih (fun x hx => hp x (List.mem_cons_of_mem _ hx))
      have he := hp e List.mem_cons_self
      have he' : (e.1.points : ℚ) ≤ 100000000000 := by exact_mod_cast he
      cases h2 : e.2
      · have : (Row.value (if e.2 = true then ⟨.num 0, true⟩ else ⟨e.1.values.npts, false⟩)).kept = some (e.1.points : ℚ) := by
          simp [h2, Ev.values, V.kept, he']
        rw [List.filterMap_cons]
        simp only [Function.comp] at ih' ⊢
        rw [this]
        simp only [List.sum_cons, ih', h2, Bool.not_false, List.filter_cons_of_pos, List.map_cons]
      · have : (Row.value (if e.2 = true then ⟨.num 0, true⟩ else ⟨e.1.values.npts, false⟩)).kept = some 0 := by
          simp [h2, V.kept]
        rw [List.filterMap_cons]
        simp only [Function.comp] at ih' ⊢
        rw [this]
        simp [ih', h2]
  · congr 1
    rw [countP_add ev _ _ (fun e => e.2 || e.1.characterized c) (by intro e; cases e.2 <;> cases e.1.characterized c <;> rfl)]
    congr 1
    apply countP_eq_of
    intro e _
    cases h2 : e.2 <;> simp [Function.comp, h2, V.lt, hc]
    unfold Ev.values Ev.characterized
    cases e.1.sigma <;> simp

example : getResults (rowsOf (fun e => e.values.fisher) [(⟨some (1 / 20), true, 40⟩, false), (⟨none, false, 0⟩, true), (⟨none, false, 2⟩, false), (⟨none, false, 0⟩, true)] (.num 0))
    .fisher (1 / 10) = .ok (3 / 4) := by decide +kernel

/-- **C457**: what is in the file for an event without visits is counted as it is; no events is refused. -/
theorem results_empty (k : Kind) (c : ℚ) : getResults [] k c = .error .zeroDivision := rfl

/-- **C457** is false: the fraction of characterized events depends on numbers under the mask, so events that were never observed can be
characterized. -/
theorem results_masked_false :
    ¬ ∀ (ev : List (Ev × Bool)) (junk : V) (c : ℚ), ev ≠ [] →
      getResults (rowsOf (fun e => e.values.fisher) ev junk) .fisher c = .ok ((ev.countP (fun e => !e.2 && e.1.characterized c) : ℚ) / ev.length) := by
  intro h
  exact absurd (h [(⟨none, false, 0⟩, true)] (.num 0) (1 / 10) (by simp)) (by decide +kernel)

/-! ## C458 -/

/-- **C458**: reading the databases of a folder fails if there is one, since the database class has no method of the name that is called. -/
theorem results_dbs (ids : Str → ℕ) (files : List Str) :
    getResultsDbs resultsDbMethods ids files = if files = [] then .ok [] else .error .attribute := by
  cases files with
  | nil => rfl
  | cons f fs =>
    rw [getResultsDbs, if_neg (by decide), if_neg (by simp)]

/-- **C458**, what it is meant to do: with such a method, the runs with at least one metric. -/
theorem results_dbs_partial (methods : List String) (ids : Str → ℕ) (files : List Str) (h : "getAllMetricIds" ∈ methods) :
    getResultsDbs methods ids files = .ok (files.filter (fun f => decide (0 < ids f))) := by
  induction files with
  | nil => rfl
  | cons f fs ih =>
    rw [getResultsDbs, if_pos (List.contains_iff_mem.mpr h), ih]
    by_cases h0 : 0 < ids f <;> simp [h0]

example : getResultsDbs ["getAllMetricIds"] (fun f => f.length) [s "a", [], s "bc"] = .ok [s "a", s "bc"] := by decide

/-- **C458** is false: a folder with the results of a run. -/
theorem results_dbs_false : ¬ ∀ (ids : Str → ℕ) (files : List Str), ∃ r, getResultsDbs resultsDbMethods ids files = .ok r := by
  intro h
  obtain ⟨r, hr⟩ := h (fun _ => 1) [s "baseline"]
  rw [results_dbs, if_neg (by simp)] at hr
  cases hr

end Verif.LensCmp
