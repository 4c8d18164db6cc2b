import Verif.Model.DirectObs
import Mathlib.Tactic.Linarith
import Mathlib.Tactic.Ring
import Mathlib.Tactic.FieldSimp
import Mathlib.Tactic.Positivity
import Mathlib.Tactic.NormNum

/-!
# Properties of the observations of moving objects
-/

set_option linter.unusedSectionVars false

namespace Verif.Direct

open Verif.Np

/-! ## C184: rough times -/

theorem ss_spec {K : Type} [LinearOrder K] (l : List K) (t : K) :
    (∀ i x, i < searchsortedLeft l t → l[i]? = some x → x < t) ∧
    (∀ x, l[searchsortedLeft l t]? = some x → t ≤ x) ∧ searchsortedLeft l t ≤ l.length := by
  induction l with
  | nil => simp [searchsortedLeft]
  | cons a l ih =>
    unfold searchsortedLeft at ih ⊢
    by_cases h : a < t
    · simp only [List.takeWhile_cons, h, decide_true, if_true, List.length_cons]
      refine ⟨?_, ?_, ?_⟩
      · rintro (_ | i) x hi hx
        · simp at hx; exact hx ▸ h
        · exact ih.1 i x (by omega) (by simpa using hx)
      · intro x hx
        exact ih.2.1 x (by simpa using hx)
      · have := ih.2.2
        omega
    · simp only [List.takeWhile_cons, h, decide_false, Bool.false_eq_true, if_false, List.length_nil]
      refine ⟨by intro i x hi; omega, ?_, by simp⟩
      intro x hx
      simp at hx
      exact hx ▸ not_lt.1 h

section Grid

variable {K : Type} [Field K] [LinearOrder K] [IsStrictOrderedRing K] [FloorRing K]

theorem arange_get (a b d : K) (i : ℕ) (hi : i < (arange a b d).length) :
    (arange a b d)[i]? = some (a + (i : K) * d) := by
  unfold arange at hi ⊢
  rw [List.length_map, List.length_range] at hi
  simp [List.getElem?_range hi]

theorem arange_length (a b d : K) : (arange a b d).length = ⌈(b - a) / d⌉.toNat := by simp [arange]

/-- For each visit there is a time of the grid that is not before it and less than a step after
it. -/
theorem rough_spec (tmin tmax step t : K) (hs : 0 < step) (h1 : tmin ≤ t) (h2 : t ≤ tmax) :
    ∃ g, roughTime (roughTimes tmin tmax step) t = some g ∧ g ∈ roughTimes tmin tmax step ∧
      t ≤ g ∧ g < t + step := by
  set grid := roughTimes tmin tmax step with hg
  have hstart : gridStart tmin step < t := by
    unfold gridStart
    have := Int.floor_le (tmin + 16 / 100 - 1 / 2)
    linarith
  have hend : tmax + step < gridEnd tmax step := by
    unfold gridEnd
    have := Int.le_ceil (tmax + 16 / 100 + 1 / 2)
    linarith
  set a := gridStart tmin step
  set b := gridEnd tmax step + step / 2 with hb
  have hq : (b - a) / step ≤ ⌈(b - a) / step⌉ := Int.le_ceil _
  have hpos : 0 < (b - a) / step := div_pos (by rw [hb]; linarith) hs
  have hcpos : 0 < ⌈(b - a) / step⌉ := Int.ceil_pos.2 hpos
  have hlen : grid.length = ⌈(b - a) / step⌉.toNat := arange_length a b step
  have hlenK : ((grid.length : ℕ) : K) = (⌈(b - a) / step⌉ : K) := by
    rw [hlen]
    have : ((⌈(b - a) / step⌉.toNat : ℕ) : ℤ) = ⌈(b - a) / step⌉ := Int.toNat_of_nonneg hcpos.le
    rw [← Int.cast_natCast, this]
  have hn : 0 < grid.length := by omega
  have hget : ∀ i, i < grid.length → grid[i]? = some (a + (i : K) * step) := fun i hi =>
    arange_get a b step i hi
  obtain ⟨s1, s2, s3⟩ := ss_spec grid t
  set k := searchsortedLeft grid t with hk
  have hk0 : 0 < k := by
    by_contra h0
    have h0' : k = 0 := by omega
    have := s2 a (by rw [h0', hget 0 hn]; simp)
    linarith
  have hkn : k < grid.length := by
    by_contra h0
    have hke : k = grid.length := by omega
    have hlast := s1 (grid.length - 1) _ (by omega) (hget (grid.length - 1) (by omega))
    have hc : ((grid.length - 1 : ℕ) : K) = (grid.length : K) - 1 := by
      rw [Nat.cast_sub (by omega)]; simp
    rw [hc, hlenK] at hlast
    have hmul : (b - a) ≤ (⌈(b - a) / step⌉ : K) * step := by
      rwa [div_le_iff₀ hs] at hq
    have : ((⌈(b - a) / step⌉ : K) - 1) * step = (⌈(b - a) / step⌉ : K) * step - step := by ring
    rw [this] at hlast
    rw [hb] at hmul
    linarith
  have hgk := hget k hkn
  refine ⟨a + (k : K) * step, ?_, List.mem_of_getElem? hgk, s2 _ hgk, ?_⟩
  · unfold roughTime
    exact hgk
  · have hprev := s1 (k - 1) _ (by omega) (hget (k - 1) (by omega))
    have hc : ((k - 1 : ℕ) : K) = (k : K) - 1 := by rw [Nat.cast_sub (by omega)]; simp
    rw [hc] at hprev
    have : ((k : K) - 1) * step = (k : K) * step - step := by ring
    rw [this] at hprev
    linarith

example : roughTimes (10 : ℚ) 11 1 = [8, 9, 10, 11, 12, 13] := by decide +kernel

end Grid

/-! ## C185: rows of the output -/

section Rows

variable {K P E : Type}

theorem range_filter_map {V : Type} (p : V → Bool) (l : List V) :
    (whereIdx p l).filterMap (fun k => l[k]?) = l.filter p := by
  induction l with
  | nil => rfl
  | cons a l ih =>
    unfold whereIdx at ih ⊢
    rw [List.length_cons, List.range_succ_eq_map, List.filter_cons, List.filter_cons]
    have htail : List.filterMap (fun k => (a :: l)[k]?)
        (List.filter (fun k => ((a :: l)[k]?).any p) ((List.range l.length).map Nat.succ)) =
        l.filter p := by
      rw [List.filter_map, List.filterMap_map]
      have h1 : ((fun k => (a :: l)[k]?) ∘ Nat.succ) = fun k => l[k]? := by
        funext k; simp
      have h2 : ((fun k => ((a :: l)[k]?).any p) ∘ Nat.succ) = fun k => (l[k]?).any p := by
        funext k; simp
      rw [h1, h2]
      exact ih
    by_cases hp : p a
    · simp only [List.getElem?_cons_zero, Option.any_some, hp, if_true]
      rw [List.filterMap_cons]
      simp only [List.getElem?_cons_zero]
      rw [htail]
    · simp only [List.getElem?_cons_zero, Option.any_some, hp, if_false]
      exact htail

theorem take_where {V : Type} (p : V → Bool) (l : List V) : take l (whereIdx p l) = l.filter p :=
  range_filter_map p l

theorem take_all {V : Type} (l : List V) (idx : List ℕ) (h : ∀ k ∈ idx, k < l.length) :
    (take l idx).length = idx.length ∧ ∀ j k : ℕ, idx[j]? = some k → (take l idx)[j]? = l[k]? := by
  induction idx with
  | nil => simp [take]
  | cons m idx ih =>
    have hm := h m (by simp)
    have ih' := ih fun k hk => h k (by simp [hk])
    unfold take at ih' ⊢
    rw [List.filterMap_cons, List.getElem?_eq_getElem hm]
    simp only
    refine ⟨by simp [ih'.1], ?_⟩
    rintro (_ | j) k hk
    · simp at hk
      subst hk
      simp [List.getElem?_eq_getElem hm]
    · simpa using ih'.2 j k (by simpa using hk)

theorem take_take {V : Type} (l : List V) (a b : List ℕ) (h : ∀ k ∈ a, k < l.length)
    (hb : ∀ k ∈ b, k < a.length) : take l (take a b) = take (take l a) b := by
  obtain ⟨h1, h2⟩ := take_all l a h
  induction b with
  | nil => rfl
  | cons m b ih =>
    have hm := hb m (by simp)
    have ih' := ih fun k hk => hb k (by simp [hk])
    unfold take at ih' h1 h2 ⊢
    rw [List.filterMap_cons, List.filterMap_cons, List.getElem?_eq_getElem hm]
    simp only
    have h3 := h2 m _ (List.getElem?_eq_getElem hm)
    rw [h3, List.filterMap_cons, ih']

theorem where_lt {V : Type} (p : V → Bool) (l : List V) : ∀ k ∈ whereIdx p l, k < l.length := by
  intro k hk
  exact List.mem_range.1 (List.mem_of_mem_filter hk)

theorem zip_map_left {V W : Type} (f : V → W) (l : List V) :
    (l.map f).zip l = l.map fun v => (f v, v) := by
  induction l with
  | nil => rfl
  | cons a l ih => simp [ih]

/-- The rows of one object. -/
theorem objectRows_spec (inFov : E → Visit K P → Bool) (o : Sso K E) (visits : List (Visit K P))
    (near : Visit K P → Bool) :
    (objectRows inFov o visits (whereIdx near visits)).1 =
      (visits.filter fun v => near v && inFov (o.exact v.time) v).map
        (fun v => (o.id, v.id, o.sed, o.exact v.time)) ∧
    take visits (objectRows inFov o visits (whereIdx near visits)).2 =
      visits.filter fun v => near v && inFov (o.exact v.time) v := by
  have hfilter : (visits.filter near).filter (fun v => inFov (o.exact v.time) v) =
      visits.filter fun v => near v && inFov (o.exact v.time) v := by
    rw [List.filter_filter]
    congr 1
    funext v
    rw [Bool.and_comm]
  unfold objectRows
  by_cases h0 : (whereIdx near visits).length = 0
  · rw [if_pos h0]
    have : visits.filter near = [] := by
      rw [← take_where near visits, List.length_eq_zero_iff.1 h0]; rfl
    rw [← hfilter, this]
    exact ⟨rfl, rfl⟩
  · rw [if_neg h0]
    simp only
    rw [take_where near visits, zip_map_left]
    set sub := visits.filter near with hsub
    have hw : whereIdx (fun p : E × Visit K P => inFov p.1 p.2) (sub.map fun v => (o.exact v.time, v)) =
        whereIdx (fun v => inFov (o.exact v.time) v) sub := by
      unfold whereIdx
      rw [List.length_map]
      congr 1
      funext k
      rw [List.getElem?_map]
      cases sub[k]? <;> rfl
    constructor
    · rw [take_where, List.filter_map, List.map_map]
      show (sub.filter fun v => inFov (o.exact v.time) v).map _ = _
      rw [hfilter]
      rfl
    · rw [hw, take_take visits _ _ (where_lt near visits) ?_, take_where near visits, take_where, hfilter]
      intro k hk
      have h1 := where_lt _ _ k hk
      have h2 := (take_all visits (whereIdx near visits) (where_lt near visits)).1
      rw [take_where, ← hsub] at h2
      exact h2 ▸ h1

section Color

variable [Field K] [DecidableEq K]

/-- Colour of a row after some turns. -/
theorem colorLoop_spec (color : String → String → Option K) (ps : List (String × String))
    (l : List (String × String × K)) :
    (∀ l', colorLoop color ps l = some l' →
      l'.length = l.length ∧ ∀ (i : ℕ) (s b : String) (c : K), l[i]? = some (s, b, c) →
        l'[i]? = some (s, b, if (s, b) ∈ ps then (color s b).getD 0 else c)) ∧
    (colorLoop color ps l = none ↔ ∃ r ∈ l, (r.1, r.2.1) ∈ ps ∧ color r.1 r.2.1 = none) := by
  induction ps generalizing l with
  | nil =>
    refine ⟨?_, by simp [colorLoop]⟩
    intro l' h
    cases h
    exact ⟨rfl, fun i s b c hi => by simpa using hi⟩
  | cons p ps ih =>
    obtain ⟨s0, b0⟩ := p
    rw [colorLoop]
    by_cases hany : (l.any fun r => r.1 = s0 && r.2.1 = b0) = true
    · have hturn : colorTurn color l s0 b0 = (color s0 b0).map fun c =>
          l.map fun r => if r.1 = s0 && r.2.1 = b0 then (r.1, r.2.1, c) else r := by
        unfold colorTurn; rw [if_pos hany]
      rw [hturn]
      rcases hc : color s0 b0 with _ | c0
      · refine ⟨by simp, ?_⟩
        simp only [Option.map_none, Option.bind_none, true_iff]
        obtain ⟨r, hr, hr'⟩ := List.any_eq_true.1 hany
        simp at hr'
        exact ⟨r, hr, by simp [hr'.1, hr'.2], by rw [hr'.1, hr'.2]; exact hc⟩
      · simp only [Option.map_some, Option.bind_some]
        obtain ⟨i1, i2⟩ := ih (l.map fun r => if r.1 = s0 && r.2.1 = b0 then (r.1, r.2.1, c0) else r)
        constructor
        · intro l' hl'
          obtain ⟨j1, j2⟩ := i1 l' hl'
          refine ⟨by simpa using j1, ?_⟩
          intro i s b c hi
          by_cases hsb : s = s0 ∧ b = b0
          · obtain ⟨rfl, rfl⟩ := hsb
            have := j2 i s b c0 (by rw [List.getElem?_map, hi]; simp)
            rw [this]
            simp [hc]
          · have := j2 i s b c (by
              rw [List.getElem?_map, hi]
              have : ¬ ((decide (s = s0) && decide (b = b0)) = true) := by simpa using hsb
              simp only [Option.map_some, if_neg this])
            rw [this]
            have hne : (s, b) ≠ (s0, b0) := by simpa using hsb
            simp [hne]
        · rw [i2]
          constructor
          · rintro ⟨r, hr, hp, hn⟩
            obtain ⟨r', hr', rfl⟩ := List.mem_map.1 hr
            refine ⟨r', hr', ?_, ?_⟩
            · split_ifs at hp with h
              · exact List.mem_cons_of_mem _ hp
              · exact List.mem_cons_of_mem _ hp
            · split_ifs at hn with h <;> exact hn
          · rintro ⟨r, hr, hp, hn⟩
            have hrr : (if (decide (r.1 = s0) && decide (r.2.1 = b0)) = true then (r.1, r.2.1, c0) else r) = r := by
              rw [if_neg]
              intro h
              simp at h
              rw [h.1, h.2, hc] at hn
              simp at hn
            have hps : (r.1, r.2.1) ∈ ps := by
              rcases List.mem_cons.1 hp with h | h
              · have h1 : r.1 = s0 := congrArg Prod.fst h
                have h2 : r.2.1 = b0 := congrArg Prod.snd h
                rw [h1, h2, hc] at hn
                simp at hn
              · exact h
            exact ⟨r, List.mem_map.2 ⟨r, hr, hrr⟩, hps, hn⟩
    · have hturn : colorTurn color l s0 b0 = some l := by
        unfold colorTurn; rw [if_neg hany]
      rw [hturn]
      simp only [Option.bind_some]
      obtain ⟨i1, i2⟩ := ih l
      have hnot : ∀ r ∈ l, (r.1, r.2.1) ≠ (s0, b0) := by
        intro r hr h
        apply hany
        rw [List.any_eq_true]
        have h1 : r.1 = s0 := congrArg Prod.fst h
        have h2 : r.2.1 = b0 := congrArg Prod.snd h
        exact ⟨r, hr, by simp [h1, h2]⟩
      constructor
      · intro l' hl'
        obtain ⟨j1, j2⟩ := i1 l' hl'
        refine ⟨j1, fun i s b c hi => ?_⟩
        rw [j2 i s b c hi]
        have := hnot _ (List.mem_of_getElem? hi)
        have hm : (s, b) ∈ (s0, b0) :: ps ↔ (s, b) ∈ ps := by
          rw [List.mem_cons]
          exact or_iff_right this
        simp only [hm]
      · rw [i2]
        constructor
        · rintro ⟨r, hr, hp, hn⟩
          exact ⟨r, hr, List.mem_cons_of_mem _ hp, hn⟩
        · rintro ⟨r, hr, hp, hn⟩
          rcases List.mem_cons.1 hp with h | h
          · exact absurd h (hnot r hr)
          · exact ⟨r, hr, h, hn⟩

/-- Every row gets the colour of its spectrum in its band; there is an error just if one is not
known. -/
theorem colors_spec (color : String → String → Option K) (rows : List (String × String)) :
    ((∀ r ∈ rows, (color r.1 r.2).isSome = true) →
      colors color rows = some (rows.map fun r => (color r.1 r.2).getD 0)) ∧
    (colors color rows = none ↔ ∃ r ∈ rows, color r.1 r.2 = none) := by
  set ps := ((rows.map Prod.fst).dedup).flatMap fun s => ((rows.map Prod.snd).dedup).map fun b => (s, b) with hps
  have hmem : ∀ r ∈ rows, r ∈ ps := by
    intro r hr
    rw [hps, List.mem_flatMap]
    refine ⟨r.1, List.mem_dedup.2 (List.mem_map_of_mem hr), List.mem_map.2 ⟨r.2, ?_, rfl⟩⟩
    exact List.mem_dedup.2 (List.mem_map_of_mem hr)
  have hl := colorLoop_spec color ps (rows.map fun r => (r.1, r.2, (0 : K)))
  have hnone : colorLoop color ps (rows.map fun r => (r.1, r.2, (0 : K))) = none ↔
      ∃ r ∈ rows, color r.1 r.2 = none := by
    rw [hl.2]
    constructor
    · rintro ⟨r, hr, _, hn⟩
      obtain ⟨r', hr', rfl⟩ := List.mem_map.1 hr
      exact ⟨r', hr', hn⟩
    · rintro ⟨r, hr, hn⟩
      exact ⟨_, List.mem_map_of_mem hr, hmem r hr, hn⟩
  have hcol : colors color rows = (colorLoop color ps (rows.map fun r => (r.1, r.2, (0 : K)))).map
      fun l => l.map fun r => r.2.2 := rfl
  rw [hcol]
  constructor
  · intro h
    rcases hc : colorLoop color ps (rows.map fun r => (r.1, r.2, (0 : K))) with _ | l'
    · obtain ⟨r, hr, hn⟩ := hnone.1 hc
      have := h r hr
      rw [hn] at this
      simp at this
    · obtain ⟨h1, h2⟩ := hl.1 l' hc
      rw [hc]
      simp only [Option.map_some, Option.some.injEq]
      apply List.ext_getElem?
      intro i
      rw [List.getElem?_map, List.getElem?_map]
      rcases hi : rows[i]? with _ | r
      · have : l'[i]? = none := by
          rw [List.getElem?_eq_none_iff] at hi ⊢
          rw [h1, List.length_map]
          exact hi
        rw [this]; rfl
      · have := h2 i r.1 r.2 0 (by rw [List.getElem?_map, hi]; rfl)
        rw [this, if_pos (hmem r (List.mem_of_getElem? hi))]
        rfl
  · rw [Option.map_eq_none_iff]
    exact hnone

end Color

section Run

variable [Field K] [LinearOrder K] [IsStrictOrderedRing K] [FloorRing K]

/-- Whether the rough position of an object is near to the field of a visit. -/
def nearBy (sep : P → P → K) (pos : E → P) (tol : K) (grid : List K) (o : Sso K E) (v : Visit K P) : Bool :=
  (roughTime grid v.time).any fun g => decide (sep (pos (o.prelim g)) v.field ≤ tol)

/-- Pairs of objects and visits that are found. -/
def found (sep : P → P → K) (pos : E → P) (tol : K) (grid : List K) (inFov : E → Visit K P → Bool)
    (visits : List (Visit K P)) (os : List (Sso K E)) : List (Sso K E × Visit K P) :=
  os.flatMap fun o => (visits.filter fun v => nearBy sep pos tol grid o v && inFov (o.exact v.time) v).map
    fun v => (o, v)

theorem take_append {V : Type} (l : List V) (a b : List ℕ) : take l (a ++ b) = take l a ++ take l b := by
  unfold take
  rw [List.filterMap_append]

theorem collect_spec (sep : P → P → K) (pos : E → P) (tol : K) (grid : List K)
    (inFov : E → Visit K P → Bool) (visits : List (Visit K P)) (os : List (Sso K E))
    (hg : ∀ v ∈ visits, (roughTime grid v.time).isSome = true) :
    ∃ rows idx, collect sep pos tol grid inFov visits os = some (rows, idx) ∧
      rows = (found sep pos tol grid inFov visits os).map
        (fun p => (p.1.id, p.2.id, p.1.sed, p.1.exact p.2.time)) ∧
      take visits idx = (found sep pos tol grid inFov visits os).map Prod.snd := by
  induction os with
  | nil => exact ⟨[], [], rfl, rfl, rfl⟩
  | cons o os ih =>
    obtain ⟨rows, idx, hc, hr, hi⟩ := ih
    have hrough : roughIdx sep pos tol grid o visits =
        some (whereIdx (fun v => nearBy sep pos tol grid o v) visits) := by
      unfold roughIdx
      rw [if_pos (List.all_eq_true.2 hg)]
      rfl
    have hob := objectRows_spec inFov o visits (fun v => nearBy sep pos tol grid o v)
    refine ⟨_, _, by rw [collect, hrough, hc], ?_, ?_⟩
    · rw [hob.1, hr]
      unfold found
      rw [List.flatMap_cons, List.map_append, List.map_map]
      rfl
    · rw [take_append, hob.2, hi]
      unfold found
      rw [List.flatMap_cons, List.map_append, List.map_map]
      congr 1
      show _ = List.map id _
      rw [List.map_id]

/-- The output: for each object, in their order, one row for each visit that has it in the field of
view and that its rough position is near to, in the order of the visits. All entries of the row belong
to this object and this visit. -/
theorem run_spec (sep : P → P → K) (pos : E → P) (vel : E → K) (loss : K → K → K → K × K)
    (color : String → String → Option K) (tol step tmin tmax : K) (inFov : E → Visit K P → Bool)
    (visits : List (Visit K P)) (os : List (Sso K E)) (hs : 0 < step)
    (ht : ∀ v ∈ visits, tmin ≤ v.time ∧ v.time ≤ tmax)
    (hc : ∀ o ∈ os, ∀ v ∈ visits, (color o.sed v.band).isSome = true) :
    run sep pos vel loss color tol step tmin tmax inFov visits os =
      some ((found sep pos tol (roughTimes tmin tmax step) inFov visits os).map fun p =>
        { objId := p.1.id, obsId := p.2.id, sed := p.1.sed, eph := p.1.exact p.2.time,
          expTime := p.2.expTime, m5 := p.2.m5, seeing := p.2.seeing, time := p.2.time,
          night := p.2.night, band := p.2.band, dmagColor := (color p.1.sed p.2.band).getD 0,
          dmagTrail := (loss (vel (p.1.exact p.2.time)) p.2.seeing p.2.expTime).1,
          dmagDetect := (loss (vel (p.1.exact p.2.time)) p.2.seeing p.2.expTime).2 }) := by
  have hg : ∀ v ∈ visits, (roughTime (roughTimes tmin tmax step) v.time).isSome = true := by
    intro v hv
    obtain ⟨g, hg, _⟩ := rough_spec tmin tmax step v.time hs (ht v hv).1 (ht v hv).2
    rw [hg]; rfl
  obtain ⟨rows, idx, hcol, hr, hi⟩ := collect_spec sep pos tol (roughTimes tmin tmax step) inFov visits os hg
  unfold run
  rw [hcol]
  simp only
  rw [hi, hr]
  set F := found sep pos tol (roughTimes tmin tmax step) inFov visits os with hF
  have hz : List.zipWith (fun (r : ℤ × ℤ × String × E) (v : Visit K P) => (r.2.2.1, v.band))
      (F.map fun p => (p.1.id, p.2.id, p.1.sed, p.1.exact p.2.time)) (F.map Prod.snd) =
      F.map fun p => (p.1.sed, p.2.band) := by
    rw [List.zipWith_map, List.zipWith_self]
  rw [hz]
  have hcs := (colors_spec color (F.map fun p => (p.1.sed, p.2.band))).1 (by
    intro r hr'
    obtain ⟨p, hp, rfl⟩ := List.mem_map.1 hr'
    rw [hF] at hp
    unfold found at hp
    obtain ⟨o, ho, hp⟩ := List.mem_flatMap.1 hp
    obtain ⟨v, hv, rfl⟩ := List.mem_map.1 hp
    exact hc o ho v (List.mem_of_mem_filter hv))
  rw [hcs]
  simp only [List.map_map, Option.some.injEq]
  have hzip : (F.map fun p => (p.1.id, p.2.id, p.1.sed, p.1.exact p.2.time)).zip
      (F.map ((fun r : String × String => (color r.1 r.2).getD 0) ∘ fun p => (p.1.sed, p.2.band))) =
      F.map fun p => ((p.1.id, p.2.id, p.1.sed, p.1.exact p.2.time), (color p.1.sed p.2.band).getD 0) := by
    rw [List.zip_map', ]
    rfl
  rw [hzip, List.zipWith_map, List.zipWith_self]

/-! ## C186: completeness -/

/-- All observations in a circular field of view are found when the object moves by less than
`rough_tol - r_fov` in one step. -/
theorem found_complete (sep : P → P → K) (pos : E → P) (tol step tmin tmax r d : K) (visits : List (Visit K P))
    (os : List (Sso K E)) (hs : 0 < step) (ht : ∀ v ∈ visits, tmin ≤ v.time ∧ v.time ≤ tmax)
    (htri : ∀ a b c, sep a c ≤ sep a b + sep b c)
    (hmove : ∀ o ∈ os, ∀ t g, t ≤ g → g < t + step → sep (pos (o.prelim g)) (pos (o.exact t)) ≤ d)
    (hd : d + r ≤ tol) :
    found sep pos tol (roughTimes tmin tmax step) (fun e v => decide (sep (pos e) v.field ≤ r)) visits os =
      os.flatMap fun o => (visits.filter fun v => decide (sep (pos (o.exact v.time)) v.field ≤ r)).map
        fun v => (o, v) := by
  unfold found
  refine List.flatMap_congr fun o ho => ?_
  congr 1
  refine List.filter_congr fun v hv => ?_
  by_cases h : sep (pos (o.exact v.time)) v.field ≤ r
  · obtain ⟨g, hg, _, h1, h2⟩ := rough_spec tmin tmax step v.time hs (ht v hv).1 (ht v hv).2
    have h3 := hmove o ho v.time g h1 h2
    have h4 := htri (pos (o.prelim g)) (pos (o.exact v.time)) v.field
    have : nearBy sep pos tol (roughTimes tmin tmax step) o v = true := by
      unfold nearBy
      rw [hg]
      simp only [Option.any_some, decide_eq_true_eq]
      linarith
    simp [this, h]
  · simp [h]

/-- So each of them has its row in the output. -/
theorem run_complete_partial (sep : P → P → K) (pos : E → P) (vel : E → K) (loss : K → K → K → K × K)
    (color : String → String → Option K) (tol step tmin tmax r d : K) (visits : List (Visit K P))
    (os : List (Sso K E)) (hs : 0 < step) (ht : ∀ v ∈ visits, tmin ≤ v.time ∧ v.time ≤ tmax)
    (hc : ∀ o ∈ os, ∀ v ∈ visits, (color o.sed v.band).isSome = true)
    (htri : ∀ a b c, sep a c ≤ sep a b + sep b c)
    (hmove : ∀ o ∈ os, ∀ t g, t ≤ g → g < t + step → sep (pos (o.prelim g)) (pos (o.exact t)) ≤ d)
    (hd : d + r ≤ tol) :
    (run sep pos vel loss color tol step tmin tmax (fun e v => decide (sep (pos e) v.field ≤ r)) visits os).map
        (fun rows => rows.map fun x => (x.objId, x.obsId, x.eph)) =
      some (os.flatMap fun o => (visits.filter fun v => decide (sep (pos (o.exact v.time)) v.field ≤ r)).map
        fun v => (o.id, v.id, o.exact v.time)) := by
  rw [run_spec sep pos vel loss color tol step tmin tmax _ visits os hs ht hc,
    found_complete sep pos tol step tmin tmax r d visits os hs ht htri hmove hd]
  simp only [Option.map_some, List.map_map, List.map_flatMap]
  rfl

end Run

/-- With a tolerance that is smaller than the field, observations of an object at rest are lost. -/
theorem run_complete_false : ¬ ∀ (tol r : ℚ) (visits : List (Visit ℚ ℚ)) (os : List (Sso ℚ ℚ)),
    0 ≤ tol → (∀ o ∈ os, ∀ t g, o.prelim g = o.exact t) →
    (run (fun a b => |a - b|) id (fun _ => 0) (fun _ _ _ => (0, 0)) (fun _ _ => some 0) tol 1 10 11
        (fun e v => decide (|e - v.field| ≤ r)) visits os).map
        (fun rows => rows.map fun x => (x.objId, x.obsId, x.eph)) =
      some (os.flatMap fun o => (visits.filter fun v => decide (|o.exact v.time - v.field| ≤ r)).map
        fun v => (o.id, v.id, o.exact v.time)) := by
  intro h
  have h1 := h 10 20 [⟨1, 10, 0, "r", 1, 30, 24, 1⟩] [⟨5, "C.dat", fun _ => 15, fun _ => 15⟩]
    (by norm_num) (by simp)
  revert h1
  decide +kernel

end Rows

/-- Each row is one object in one visit; no pair occurs twice. -/
theorem found_nodup {K P E : Type} [Field K] [LinearOrder K] [IsStrictOrderedRing K] [FloorRing K]
    (sep : P → P → K) (pos : E → P) (tol : K) (grid : List K) (inFov : E → Visit K P → Bool)
    (visits : List (Visit K P)) (os : List (Sso K E)) (hv : (visits.map Visit.id).Nodup)
    (ho : (os.map Sso.id).Nodup) :
    ((found sep pos tol grid inFov visits os).map fun p => (p.1.id, p.2.id)).Nodup := by
  unfold found
  rw [List.map_flatMap]
  induction os with
  | nil => exact List.nodup_nil
  | cons o os ih =>
    rw [List.map_cons, List.nodup_cons] at ho
    rw [List.flatMap_cons, List.nodup_append]
    refine ⟨?_, ih ho.2, ?_⟩
    · rw [List.map_map]
      have h1 : ((visits.filter fun v => nearBy sep pos tol grid o v && inFov (o.exact v.time) v).map Visit.id).Nodup :=
        hv.sublist (List.filter_sublist.map _)
      have h2 := h1.map (f := fun i => (o.id, i)) (fun a b h => (Prod.mk.inj h).2)
      rw [List.map_map] at h2
      exact h2
    · intro a ha b hb hab
      subst hab
      obtain ⟨p, hp, rfl⟩ := List.mem_map.1 ha
      obtain ⟨v, _, rfl⟩ := List.mem_map.1 hp
      obtain ⟨o', ho', hb⟩ := List.mem_flatMap.1 hb
      obtain ⟨p, hp, hq⟩ := List.mem_map.1 hb
      obtain ⟨v', _, rfl⟩ := List.mem_map.1 hp
      have : o'.id = o.id := (Prod.mk.inj hq).1
      exact ho.1 (this ▸ List.mem_map_of_mem ho')

example : run (K := ℚ) (E := ℚ) (fun a b => |a - b|) id (fun _ => 2) (fun v s e => (v, v + s + e))
    (fun _ b => if b = "r" then some (3 / 10) else none) 10 1 10 11
    (fun e v => decide (|e - v.field| ≤ 2))
    [⟨1, 10, 100, "r", 1, 30, 24, 1⟩, ⟨2, 11, 101, "r", 1, 15, 23, 2⟩, ⟨3, 11, 40, "r", 1, 15, 23, 2⟩]
    [⟨7, "S.dat", fun _ => 99, fun t => 90 + t⟩, ⟨8, "C.dat", fun _ => 5, fun t => 5⟩] =
    some [⟨7, 1, "S.dat", 100, 30, 24, 1, 10, 1, "r", 3 / 10, 2, 33⟩,
      ⟨7, 2, "S.dat", 101, 15, 23, 1, 11, 2, "r", 3 / 10, 2, 18⟩] := by decide +kernel

/-! ## C187: known positions -/

section Known

variable {K : Type} [Field K] [LinearOrder K] [IsStrictOrderedRing K] [FloorRing K]

/-- The time that is used is a nearest one. -/
theorem nearest_spec (mjds : List K) (t : K) (hs : mjds.Pairwise (· ≤ ·)) (h1 : ∃ m ∈ mjds, m ≤ t)
    (h2 : ∃ m ∈ mjds, t ≤ m) :
    ∃ k m, nearest mjds t = some k ∧ mjds[k]? = some m ∧ ∀ x ∈ mjds, |t - m| ≤ |t - x| := by
  obtain ⟨s1, s2, s3⟩ := ss_spec mjds t
  set p := searchsortedLeft mjds t with hp
  obtain ⟨u, hu, hut⟩ := h2
  obtain ⟨ju, hju⟩ := List.getElem?_of_mem hu
  have hjl : ju < mjds.length := (List.getElem?_eq_some_iff.1 hju).1
  have hsort : ∀ (i j : ℕ) (x y : K), i ≤ j → mjds[i]? = some x → mjds[j]? = some y → x ≤ y := by
    intro i j x y hij hx hy
    rcases Nat.eq_or_lt_of_le hij with h | h
    · subst h
      rw [hx] at hy
      exact le_of_eq (Option.some.inj hy)
    · obtain ⟨hi, rfl⟩ := List.getElem?_eq_some_iff.1 hx
      obtain ⟨hj, rfl⟩ := List.getElem?_eq_some_iff.1 hy
      exact List.pairwise_iff_getElem.1 hs i j hi hj h
  have hpl : p < mjds.length := by
    by_contra h
    have := s1 ju u (by omega) hju
    exact absurd hut (not_le.2 this)
  have hpget := List.getElem?_eq_getElem hpl
  have hge := s2 _ hpget
  have hafter : ∀ (j : ℕ) (x : K), p ≤ j → mjds[j]? = some x → |t - mjds[p]| ≤ |t - x| := by
    intro j x hj hx
    have h3 := hsort p j _ _ hj hpget hx
    rw [abs_of_nonpos (by linarith), abs_of_nonpos (by linarith)]
    linarith
  by_cases hp0 : p = 0
  · -- the first time is not before the visit, so it is equal
    obtain ⟨m, hm, hmt⟩ := h1
    obtain ⟨jm, hjm⟩ := List.getElem?_of_mem hm
    have h3 := hsort p jm _ _ (by omega) hpget hjm
    have heq : mjds[p] = t := le_antisymm (h3.trans hmt) hge
    obtain ⟨r, hr⟩ : ∃ r, mjds.getLast? = some r := by
      rcases hl : mjds.getLast? with _ | r
      · rw [List.getLast?_eq_none_iff] at hl
        rw [hl] at hpl
        simp at hpl
      · exact ⟨r, rfl⟩
    refine ⟨p, mjds[p], ?_, hpget, ?_⟩
    · unfold nearest
      simp only
      rw [← hp, hpget]
      have : pyPred mjds p = some r := by unfold pyPred; rw [if_pos hp0]; exact hr
      rw [this]
      simp only
      rw [if_neg]
      rw [heq, sub_self, abs_zero]
      exact not_lt.2 (abs_nonneg _)
    · intro x _
      rw [heq, sub_self, abs_zero]
      exact abs_nonneg _
  · have hql : p - 1 < mjds.length := by omega
    have hqget := List.getElem?_eq_getElem hql
    have hlt := s1 (p - 1) _ (by omega) hqget
    have hbefore : ∀ (j : ℕ) (x : K), j < p → mjds[j]? = some x → |t - mjds[p - 1]| ≤ |t - x| := by
      intro j x hj hx
      have h3 := hsort j (p - 1) _ _ (by omega) hx hqget
      rw [abs_of_nonneg (by linarith), abs_of_nonneg (by linarith)]
      linarith
    have hn : nearest mjds t = some (if |t - mjds[p - 1]| < |t - mjds[p]| then p - 1 else p) := by
      unfold nearest
      simp only
      rw [← hp, hpget]
      have : pyPred mjds p = some mjds[p - 1] := by unfold pyPred; rw [if_neg hp0]; exact hqget
      rw [this]
      simp only
      unfold predIdx
      rw [if_neg hp0]
    rw [hn]
    by_cases hc : |t - mjds[p - 1]| < |t - mjds[p]|
    · rw [if_pos hc]
      refine ⟨p - 1, _, rfl, hqget, ?_⟩
      intro x hx
      obtain ⟨j, hj⟩ := List.getElem?_of_mem hx
      by_cases hjp : j < p
      · exact hbefore j x hjp hj
      · exact hc.le.trans (hafter j x (by omega) hj)
    · rw [if_neg hc]
      refine ⟨p, _, rfl, hpget, ?_⟩
      intro x hx
      obtain ⟨j, hj⟩ := List.getElem?_of_mem hx
      by_cases hjp : j < p
      · exact (not_lt.1 hc).trans (hbefore j x hjp hj)
      · exact hafter j x (by omega) hj

/-- The known positions are used just if the times enclose those of the visits. -/
theorem covers_spec (mjds times : List K) : covers mjds times = true ↔
    (∃ m ∈ mjds, ∀ t ∈ times, m ≤ t) ∧ ∃ m ∈ mjds, ∀ t ∈ times, t ≤ m := by
  simp [covers, List.any_eq_true, List.all_eq_true]

/-- The tolerance at a time bounds the moves to the times next to it. -/
theorem objectTol_spec (moves : List K) (tol : K) (h0 : ∀ m ∈ moves, 0 ≤ m) :
    (objectTol moves tol).length = moves.length + 1 ∧
    ∀ (k : ℕ) (x : K), (objectTol moves tol)[k]? = some x →
      tol ≤ x ∧ (∀ m, moves[k]? = some m → m + tol ≤ x) ∧
      (∀ m, 0 < k → moves[k - 1]? = some m → m + tol ≤ x) ∧
      (x = tol ∨ (∃ m, moves[k]? = some m ∧ x = m + tol) ∨ ∃ m, moves[k - 1]? = some m ∧ x = m + tol) := by
  constructor
  · simp [objectTol]
  · intro k x hx
    unfold objectTol at hx
    rw [List.getElem?_zipWith] at hx
    have hA : (moves ++ [0])[k]? = moves[k]? ∨ (moves[k]? = none ∧ ((moves ++ [0])[k]? = some 0 ∨ (moves ++ [0])[k]? = none)) := by
      by_cases hk : k < moves.length
      · left; rw [List.getElem?_append_left hk]
      · right
        refine ⟨List.getElem?_eq_none (by omega), ?_⟩
        rw [List.getElem?_append_right (by omega)]
        rcases Nat.eq_zero_or_pos (k - moves.length) with h | h
        · left; rw [h]; rfl
        · right; exact List.getElem?_eq_none (by simp; omega)
    have hB : k = 0 ∧ (0 :: moves)[k]? = some 0 ∨ 0 < k ∧ (0 :: moves)[k]? = moves[k - 1]? := by
      rcases k with _ | k
      · left; simp
      · right; simp
    rcases ha : (moves ++ [0])[k]? with _ | a
    · rw [ha] at hx; simp at hx
    rcases hb : (0 :: moves)[k]? with _ | b
    · rw [ha, hb] at hx; simp at hx
    rw [ha, hb] at hx
    simp only [Option.some.injEq] at hx
    rw [ha] at hA
    rw [hb] at hB
    have ha0 : 0 ≤ a := by
      rcases hA with h | ⟨_, h | h⟩
      · exact h0 a (List.mem_of_getElem? h.symm)
      · exact le_of_eq (Option.some.inj h).symm
      · simp at h
    have hb0 : 0 ≤ b := by
      rcases hB with ⟨_, h⟩ | ⟨_, h⟩
      · exact le_of_eq (Option.some.inj h).symm
      · exact h0 b (List.mem_of_getElem? h.symm)
    have hmax1 := le_max_left a b
    have hmax2 := le_max_right a b
    refine ⟨by linarith, ?_, ?_, ?_⟩
    · intro m hm
      rcases hA with h | ⟨h, _⟩
      · rw [hm] at h
        have : a = m := Option.some.inj h
        rw [← hx, ← this]
        linarith
      · rw [hm] at h; simp at h
    · intro m hk hm
      rcases hB with ⟨h, _⟩ | ⟨_, h⟩
      · omega
      · rw [hm] at h
        have : b = m := Option.some.inj h
        rw [← hx, ← this]
        linarith
    · rcases max_choice a b with h | h
      · rw [h] at hx
        rcases hA with h' | ⟨_, h' | h'⟩
        · exact Or.inr (Or.inl ⟨a, h'.symm, hx.symm⟩)
        · left
          have : a = 0 := Option.some.inj h'
          rw [← hx, this, zero_add]
        · simp at h'
      · rw [h] at hx
        rcases hB with ⟨_, h'⟩ | ⟨_, h'⟩
        · left
          have : b = 0 := Option.some.inj h'
          rw [← hx, this, zero_add]
        · exact Or.inr (Or.inr ⟨b, h'.symm, hx.symm⟩)

example : nearest [(1 : ℚ), 3, 5] 4 = some 2 ∧ nearest [(1 : ℚ), 3, 5] (7 / 2) = some 1 ∧
    nearest [(1 : ℚ), 3, 5] 1 = some 0 ∧ objectTol [(2 : ℚ), 7] 1 = [3, 8, 8] := by decide +kernel

end Known

end Verif.Direct
