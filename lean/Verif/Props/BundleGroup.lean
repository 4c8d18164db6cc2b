import Verif.Model.BundleGroup
import Mathlib.Data.Finset.Card
import Mathlib.Data.Fin.VecNotation
import Mathlib.Tactic.Common

/-!
# Properties of metric bundle groups (C11, C12, C13, C44)
-/

namespace Verif.Bundles

section Run
variable {ρ β P V : Type*} [DecidableEq ρ]

/-- The English assumption of C11: a metric's value depends only on the *set* of
visits of the slice (not on their order, nor on the slice point). -/
def SetDetermined (metric : β → P → List ρ → V) : Prop :=
  ∀ b p p' l l', (∀ r, r ∈ l ↔ r ∈ l') → metric b p l = metric b p' l'

/-- Cache invariant: the entry's slice holds the value of its key. -/
def CacheOk (metric : β → P → List ρ → V) (data : β → Nat → V) (c : List (Finset ρ × Nat)) : Prop :=
  ∀ e ∈ c, ∀ b p l, l.toFinset = e.1 → data b e.2 = metric b p l

theorem cacheGet_mem {c : List (Finset ρ × Nat)} {k : Finset ρ} {j : Nat} (h : cacheGet c k = some j) :
    (k, j) ∈ c := by
  unfold cacheGet at h
  rw [Option.map_eq_some_iff] at h
  obtain ⟨e, he, rfl⟩ := h
  have h1 := List.mem_of_find?_eq_some he
  have h2 := List.find?_some he
  simp only [decide_eq_true_eq] at h2
  subst h2
  exact h1

theorem cacheEvict_sub {size : Nat} {c : List (Finset ρ × Nat)} {e} (h : e ∈ cacheEvict size c) : e ∈ c := by
  unfold cacheEvict at h
  split at h
  · exact List.mem_of_mem_tail h
  · exact h

/-- One slice with the cache does to `data` and `mask` what it does without. -/
theorem sliceStep_cached (size : Nat) (metric : β → P → List ρ → V) (hm : SetDetermined metric)
    (st : RunState ρ β V) (s : Slice ρ P) (seen : List Nat)
    (hok : CacheOk metric st.data st.cache) (hseen : ∀ e ∈ st.cache, e.2 ∈ seen) (hs : s.sid ∉ seen) :
    let st' := sliceStep size metric st s
    let sp := sliceStep 0 metric st s
    st'.data = sp.data ∧ st'.mask = sp.mask ∧ CacheOk metric st'.data st'.cache ∧
      ∀ e ∈ st'.cache, e.2 ∈ s.sid :: seen := by
  intro st' sp
  have hupd : ∀ (f : β → V) (j : Nat), j ∈ seen → ∀ b, Function.update (st.data b) s.sid (f b) j = st.data b j := by
    intro f j hj b
    rw [Function.update_of_ne]
    rintro rfl
    exact hs hj
  by_cases h0 : s.idxs.length = 0
  · have e1 : st' = maskSlice st s.sid := by simp [st', sliceStep, h0]
    have e2 : sp = maskSlice st s.sid := by simp [sp, sliceStep, h0]
    rw [e1, e2]
    exact ⟨rfl, rfl, hok, fun e he => List.mem_cons_of_mem _ (hseen e he)⟩
  · have e2 : sp = evalSlice metric st s := by simp [sp, sliceStep, h0]
    by_cases hsz : size > 0
    · have e1 : st' = cachedSlice size metric st s := by simp [st', sliceStep, h0, hsz]
      rw [e1, e2]
      cases hc : cacheGet st.cache s.idxs.toFinset with
      | none =>
        have e3 : cachedSlice size metric st s = { evalSlice metric st s with
            cache := cacheEvict size (st.cache ++ [(s.idxs.toFinset, s.sid)]) } := by
          simp [cachedSlice, hc]
        rw [e3]
        refine ⟨rfl, rfl, ?_, ?_⟩
        · intro e he b p l hl
          have he := cacheEvict_sub he
          rw [List.mem_append, List.mem_singleton] at he
          rcases he with he | rfl
          · show Function.update (st.data b) s.sid _ e.2 = _
            rw [hupd (fun b => metric b s.point s.idxs) e.2 (hseen e he) b]
            exact hok e he b p l hl
          · show Function.update (st.data b) s.sid _ s.sid = _
            rw [Function.update_self]
            apply hm
            intro r
            rw [← List.mem_toFinset, ← List.mem_toFinset, hl]
        · intro e he
          have he := cacheEvict_sub he
          rw [List.mem_append, List.mem_singleton] at he
          rcases he with he | rfl
          · exact List.mem_cons_of_mem _ (hseen e he)
          · exact List.mem_cons_self
      | some j =>
        have hmem := cacheGet_mem hc
        have hval : ∀ b, st.data b j = metric b s.point s.idxs := fun b => hok _ hmem b _ _ rfl
        have e3 : cachedSlice size metric st s =
            { st with
              data := fun b => Function.update (st.data b) s.sid (st.data b j)
              cache := cacheEvict size (cacheDel st.cache s.idxs.toFinset ++ [(s.idxs.toFinset, j)]) } := by
          simp [cachedSlice, hc]
        have hdata : (fun b => Function.update (st.data b) s.sid (st.data b j)) =
            (evalSlice metric st s).data := by
          funext b
          simp only [evalSlice, hval]
        rw [e3]
        refine ⟨hdata, rfl, ?_, ?_⟩
        · intro e he b p l hl
          have he := cacheEvict_sub he
          have he' : e ∈ st.cache := by
            rw [List.mem_append, List.mem_singleton] at he
            rcases he with he | rfl
            · exact (List.mem_filter.mp he).1
            · exact hmem
          show Function.update (st.data b) s.sid _ e.2 = _
          rw [hupd (fun b => st.data b j) e.2 (hseen e he') b]
          exact hok e he' b p l hl
        · intro e he
          have he := cacheEvict_sub he
          rw [List.mem_append, List.mem_singleton] at he
          rcases he with he | rfl
          · exact List.mem_cons_of_mem _ (hseen e (List.mem_filter.mp he).1)
          · exact List.mem_cons_of_mem _ (hseen _ hmem)
    · have : size = 0 := by omega
      subst this
      have e1 : st' = sp := rfl
      rw [e1, e2]
      refine ⟨rfl, rfl, ?_, fun e he => List.mem_cons_of_mem _ (hseen e he)⟩
      intro e he b p l hl
      show Function.update (st.data b) s.sid _ e.2 = _
      rw [hupd (fun b => metric b s.point s.idxs) e.2 (hseen e he) b]
      exact hok e he b p l hl

/-- Without cache the cache component is irrelevant. -/
theorem sliceStep_zero_congr (metric : β → P → List ρ → V) (st st' : RunState ρ β V) (s : Slice ρ P)
    (hd : st.data = st'.data) (hm : st.mask = st'.mask) :
    (sliceStep 0 metric st s).data = (sliceStep 0 metric st' s).data ∧
    (sliceStep 0 metric st s).mask = (sliceStep 0 metric st' s).mask := by
  unfold sliceStep
  by_cases h0 : s.idxs.length = 0
  · simp [h0, maskSlice, hd, hm]
  · simp [h0, evalSlice, hd, hm]

theorem foldl_cached (size : Nat) (metric : β → P → List ρ → V) (hm : SetDetermined metric)
    (slices : List (Slice ρ P)) :
    ∀ (st sp : RunState ρ β V) (seen : List Nat), st.data = sp.data → st.mask = sp.mask →
      CacheOk metric st.data st.cache → (∀ e ∈ st.cache, e.2 ∈ seen) →
      (slices.map Slice.sid).Nodup → (∀ s ∈ slices, s.sid ∉ seen) →
      (slices.foldl (sliceStep size metric) st).data = (slices.foldl (sliceStep 0 metric) sp).data ∧
      (slices.foldl (sliceStep size metric) st).mask = (slices.foldl (sliceStep 0 metric) sp).mask := by
  induction slices with
  | nil => intro st sp seen h1 h2 _ _ _ _; exact ⟨h1, h2⟩
  | cons s l ih =>
    intro st sp seen h1 h2 hok hseen hnd hns
    obtain ⟨hd, hmk, hok', hseen'⟩ := sliceStep_cached size metric hm st s seen hok hseen
      (hns s List.mem_cons_self)
    obtain ⟨hc1, hc2⟩ := sliceStep_zero_congr metric st sp s h1 h2
    rw [List.map_cons, List.nodup_cons] at hnd
    rw [List.foldl_cons, List.foldl_cons]
    refine ih _ _ (s.sid :: seen) (hd.trans hc1) (hmk.trans hc2) hok' hseen' hnd.2 ?_
    intro x hx hmem
    rcases List.mem_cons.mp hmem with e | e
    · exact hnd.1 (e ▸ List.mem_map_of_mem hx)
    · exact hns x (List.mem_cons_of_mem _ hx) e

/-- **C11.** For every cache size, every sequence of slices with distinct ids,
every initial array content and every metric that depends only on the set of
visits, the metric values and masks of all bundles are the same with and without
the cache. -/
theorem cache_transparent (size : Nat) (metric : β → P → List ρ → V) (hm : SetDetermined metric)
    (isBad : β → V → Bool) (garbage : β → Nat → V) (mask0 : Nat → Bool) (slices : List (Slice ρ P))
    (hnd : (slices.map Slice.sid).Nodup) :
    (runSlices size metric isBad garbage mask0 slices).data =
      (runSlices 0 metric isBad garbage mask0 slices).data ∧
    (runSlices size metric isBad garbage mask0 slices).mask =
      (runSlices 0 metric isBad garbage mask0 slices).mask := by
  have h := foldl_cached size metric hm slices
    { data := garbage, mask := fun _ => mask0, cache := [] }
    { data := garbage, mask := fun _ => mask0, cache := [] } [] rfl rfl
    (by intro e he; simp at he) (by intro e he; simp at he) hnd (by simp)
  unfold runSlices maskBad
  exact ⟨h.1, by simp only [h.1, h.2]⟩

/-- The cache never holds more than `size` entries between slices. -/
theorem cache_bounded (size : Nat) (hs : 0 < size) (metric : β → P → List ρ → V) (slices : List (Slice ρ P)) :
    ∀ st : RunState ρ β V, st.cache.length ≤ size →
      (slices.foldl (sliceStep size metric) st).cache.length ≤ size := by
  induction slices with
  | nil => intro st h; exact h
  | cons s l ih =>
    intro st h
    rw [List.foldl_cons]
    apply ih
    have hev : ∀ c : List (Finset ρ × Nat), c.length ≤ size + 1 → (cacheEvict size c).length ≤ size := by
      intro c hc
      unfold cacheEvict
      split
      · rw [List.length_tail]; omega
      · omega
    unfold sliceStep
    split
    · exact h
    · unfold cachedSlice
      simp only
      split
      · apply hev
        rw [List.length_append, List.length_singleton]
        have := List.length_filter_le (fun e : Finset ρ × Nat => decide (e.1 ≠ s.idxs.toFinset)) st.cache
        unfold cacheDel
        omega
      · apply hev
        rw [List.length_append, List.length_singleton]
        omega

/-- Effect of the uncached loop, slice by slice. -/
theorem foldl_plain (metric : β → P → List ρ → V) (slices : List (Slice ρ P)) :
    ∀ (st : RunState ρ β V), (slices.map Slice.sid).Nodup →
      (∀ s ∈ slices, s.idxs ≠ [] → ∀ b,
        (slices.foldl (sliceStep 0 metric) st).data b s.sid = metric b s.point s.idxs) ∧
      (∀ s ∈ slices, ∀ b, (slices.foldl (sliceStep 0 metric) st).mask b s.sid =
        (st.mask b s.sid || decide (s.idxs = []))) ∧
      (∀ i, i ∉ slices.map Slice.sid → ∀ b,
        (slices.foldl (sliceStep 0 metric) st).data b i = st.data b i ∧
        (slices.foldl (sliceStep 0 metric) st).mask b i = st.mask b i) := by
  induction slices with
  | nil => intro st _; simp
  | cons s l ih =>
    intro st hnd
    rw [List.map_cons, List.nodup_cons] at hnd
    obtain ⟨h1, h2, h3⟩ := ih (sliceStep 0 metric st s) hnd.2
    have hdat : ∀ b i, (sliceStep 0 metric st s).data b i =
        if i = s.sid ∧ s.idxs ≠ [] then metric b s.point s.idxs else st.data b i := by
      intro b i
      unfold sliceStep
      by_cases h0 : s.idxs = []
      · simp [h0, maskSlice]
      · have : ¬ s.idxs.length = 0 := by rwa [List.length_eq_zero_iff]
        simp [this, h0, evalSlice, Function.update_apply]
    have hmsk : ∀ b i, (sliceStep 0 metric st s).mask b i =
        if i = s.sid ∧ s.idxs = [] then true else st.mask b i := by
      intro b i
      unfold sliceStep
      by_cases h0 : s.idxs = []
      · simp [h0, maskSlice, Function.update_apply]
      · have : ¬ s.idxs.length = 0 := by rwa [List.length_eq_zero_iff]
        simp [this, h0, evalSlice]
    simp only [List.foldl_cons]
    refine ⟨?_, ?_, ?_⟩
    · intro x hx hne b
      rcases List.mem_cons.mp hx with rfl | hx
      · rw [(h3 x.sid hnd.1 b).1, hdat]
        simp [hne]
      · exact h1 x hx hne b
    · intro x hx b
      rcases List.mem_cons.mp hx with rfl | hx
      · rw [(h3 x.sid hnd.1 b).2, hmsk]
        by_cases h0 : x.idxs = [] <;> simp [h0]
      · rw [h2 x hx b, hmsk]
        have hne : x.sid ≠ s.sid := by
          intro e
          exact hnd.1 (e ▸ List.mem_map_of_mem hx)
        simp [hne]
    · intro i hi b
      rw [List.map_cons, List.mem_cons, not_or] at hi
      rw [(h3 i hi.2 b).1, (h3 i hi.2 b).2, hdat, hmsk]
      simp [hi.1]

/-- **C12.** After a run over slices with distinct ids, for every bundle: a slice
with visits holds the metric value of exactly its own visits, and is masked
exactly when it was masked by the slicer or the value is the bad value; a slice
without visits is masked. (With the cache, under the same assumption as C11.) -/
theorem run_values_and_masks (size : Nat) (metric : β → P → List ρ → V)
    (hm : size = 0 ∨ SetDetermined metric)
    (isBad : β → V → Bool) (garbage : β → Nat → V) (mask0 : Nat → Bool) (slices : List (Slice ρ P))
    (hnd : (slices.map Slice.sid).Nodup) :
    let r := runSlices size metric isBad garbage mask0 slices
    (∀ s ∈ slices, s.idxs ≠ [] → ∀ b, r.data b s.sid = metric b s.point s.idxs ∧
      (r.mask b s.sid = true ↔ mask0 s.sid = true ∨ isBad b (metric b s.point s.idxs) = true)) ∧
    (∀ s ∈ slices, s.idxs = [] → ∀ b, r.mask b s.sid = true) ∧
    (∀ i, mask0 i = true → ∀ b, r.mask b i = true) := by
  intro r
  have hr : r.data = (runSlices 0 metric isBad garbage mask0 slices).data ∧
      r.mask = (runSlices 0 metric isBad garbage mask0 slices).mask := by
    rcases hm with h | h
    · subst h; exact ⟨rfl, rfl⟩
    · exact cache_transparent size metric h isBad garbage mask0 slices hnd
  obtain ⟨h1, h2, h3⟩ := foldl_plain metric slices
    { data := garbage, mask := fun _ => mask0, cache := [] } hnd
  rw [hr.1, hr.2]
  unfold runSlices maskBad
  refine ⟨?_, ?_, ?_⟩
  · intro s hs hne b
    refine ⟨h1 s hs hne b, ?_⟩
    simp only [h1 s hs hne b, h2 s hs b]
    simp [hne, or_comm]
  · intro s hs he b
    simp only [h2 s hs b]
    simp [he]
  · intro i hi b
    by_cases hmem : i ∈ slices.map Slice.sid
    · obtain ⟨s, hs, rfl⟩ := List.mem_map.mp hmem
      simp only [h2 s hs b]
      simp [hi]
    · simp only [(h3 i hmem b).2]
      simp [hi]

end Run

/-- Non-vacuity for C11/C12: four slices, a cache of size 1, a metric counting
visits (sorted-set determined), one empty slice, bad value 2. -/
example :
    let slices : List (Slice Nat Unit) := [⟨0, (), [7, 8]⟩, ⟨1, (), [8, 7]⟩, ⟨2, (), []⟩, ⟨3, (), [5]⟩]
    let metric : Unit → Unit → List Nat → Nat := fun _ _ l => l.toFinset.card
    let r := runSlices 1 metric (fun _ v => v == 1) (fun _ _ => 99) (fun _ => false) slices
    SetDetermined metric ∧ (slices.map Slice.sid).Nodup ∧
    (List.range 4).map (fun i => (r.data () i, r.mask () i)) =
      [(2, false), (2, false), (99, true), (1, true)] := by
  refine ⟨?_, by decide, by decide⟩
  intro b p p' l l' h
  have : l.toFinset = l'.toFinset := by
    ext r
    simpa using h r
  simp only [this]

/-- Why C11 needs its assumption: a metric that looks at the slice point gets the
value of another slice from the cache. -/
example :
    let slices : List (Slice Nat Nat) := [⟨0, 10, [7]⟩, ⟨1, 20, [7]⟩]
    let metric : Unit → Nat → List Nat → Nat := fun _ p _ => p
    (runSlices 1 metric (fun _ _ => false) (fun _ _ => 0) (fun _ => false) slices).data () 1 = 10 ∧
    (runSlices 0 metric (fun _ _ => false) (fun _ _ => 0) (fun _ => false) slices).data () 1 = 20 := by
  decide

section Compat
variable {κ : Type*} [DecidableEq κ]

/-- C13 as promised: every two bundles in one list are compatible and every
bundle is in exactly one list. -/
def GroupsOk (compat : κ → κ → Bool) (keys : List κ) (groups : List (List κ)) : Prop :=
  (∀ g ∈ groups, g.Pairwise (fun a b => compat a b = true)) ∧
  (∀ k ∈ keys, ∃! i : Fin groups.length, k ∈ groups[i])

/-- Invariant of the grouping loop after the keys `pre`. -/
structure GroupInv (compat : κ → κ → Bool) (pre : List κ) (groups : List (List κ)) : Prop where
  shape : ∀ g ∈ groups, ∃ h t, g = h :: t ∧ (∀ k ∈ t, compat h k = true) ∧ g.Sublist pre
  cover : ∀ k ∈ pre, ∃ g ∈ groups, k ∈ g
  heads : groups.Pairwise (fun g g' => ∀ h ∈ g.head?, ∀ h' ∈ g'.head?, compat h h' = false)

theorem groupInv_step (compat : κ → κ → Bool) (pre : List κ) (groups : List (List κ)) (k : κ)
    (inv : GroupInv compat pre groups) : GroupInv compat (pre ++ [k]) (placeKey compat groups k) := by
  have hoff : ∀ h t, offerTo compat k (h :: t) =
      if compat h k then (true, (h :: t) ++ [k]) else (false, h :: t) := by
    intro h t
    rfl
  have hshape : ∀ g ∈ (groups.map (offerTo compat k)).map Prod.snd, ∃ h t, g = h :: t ∧
      (∀ x ∈ t, compat h x = true) ∧ g.Sublist (pre ++ [k]) := by
    intro g hg
    rw [List.map_map] at hg
    obtain ⟨g0, hg0, rfl⟩ := List.mem_map.mp hg
    obtain ⟨h, t, rfl, hc, hs⟩ := inv.shape g0 hg0
    simp only [Function.comp_apply, hoff]
    by_cases hk : compat h k = true
    · refine ⟨h, t ++ [k], by simp [hk], ?_, ?_⟩
      · intro x hx
        rcases List.mem_append.mp hx with hx | hx
        · exact hc x hx
        · rw [List.mem_singleton.mp hx]; exact hk
      · simp only [hk, if_true]
        exact hs.append (List.Sublist.refl _)
    · refine ⟨h, t, by simp [hk], hc, ?_⟩
      simp only [hk]
      exact hs.trans (List.sublist_append_left _ _)
  have hheads : ((groups.map (offerTo compat k)).map Prod.snd).map List.head? = groups.map List.head? := by
    rw [List.map_map, List.map_map]
    apply List.map_congr_left
    intro g hg
    obtain ⟨h, t, rfl, -, -⟩ := inv.shape g hg
    simp only [Function.comp_apply, hoff]
    split <;> simp
  have hpw : ((groups.map (offerTo compat k)).map Prod.snd).Pairwise
      (fun g g' => ∀ h ∈ g.head?, ∀ h' ∈ g'.head?, compat h h' = false) := by
    have h1 := inv.heads
    have h2 : (groups.map List.head?).Pairwise (fun a b => ∀ h ∈ a, ∀ h' ∈ b, compat h h' = false) :=
      List.pairwise_map.mpr h1
    rw [← hheads] at h2
    exact List.pairwise_map.mp h2
  have hcov : ∀ x ∈ pre, ∃ g ∈ (groups.map (offerTo compat k)).map Prod.snd, x ∈ g := by
    intro x hx
    obtain ⟨g, hg, hxg⟩ := inv.cover x hx
    refine ⟨(offerTo compat k g).2, List.mem_map_of_mem (List.mem_map_of_mem hg), ?_⟩
    obtain ⟨h, t, rfl, -, -⟩ := inv.shape g hg
    rw [hoff]
    split
    · exact List.mem_append_left _ hxg
    · exact hxg
  unfold placeKey
  simp only
  by_cases hany : (groups.map (offerTo compat k)).any Prod.fst = true
  · rw [if_pos hany]
    refine ⟨hshape, ?_, hpw⟩
    intro x hx
    rcases List.mem_append.mp hx with hx | hx
    · exact hcov x hx
    · rw [List.mem_singleton.mp hx]
      rw [List.any_eq_true] at hany
      obtain ⟨r, hr, hf⟩ := hany
      obtain ⟨g, hg, rfl⟩ := List.mem_map.mp hr
      refine ⟨(offerTo compat k g).2, List.mem_map_of_mem hr, ?_⟩
      obtain ⟨h, t, rfl, -, -⟩ := inv.shape g hg
      rw [hoff] at hf ⊢
      by_cases hk : compat h k = true
      · simp [hk]
      · simp [hk] at hf
  · rw [if_neg hany]
    refine ⟨?_, ?_, ?_⟩
    · intro g hg
      rcases List.mem_append.mp hg with hg | hg
      · exact hshape g hg
      · rw [List.mem_singleton.mp hg]
        exact ⟨k, [], rfl, by simp, List.sublist_append_right _ _⟩
    · intro x hx
      rcases List.mem_append.mp hx with hx | hx
      · obtain ⟨g, hg, hxg⟩ := hcov x hx
        exact ⟨g, List.mem_append_left _ hg, hxg⟩
      · exact ⟨[k], by simp, hx⟩
    · rw [List.pairwise_append]
      refine ⟨hpw, by simp, ?_⟩
      intro g hg g' hg' h hh h' hh'
      rw [List.mem_singleton.mp hg'] at hh'
      simp only [List.head?_cons, Option.mem_def, Option.some.injEq] at hh'
      subst hh'
      rw [List.map_map] at hg
      obtain ⟨g0, hg0, rfl⟩ := List.mem_map.mp hg
      obtain ⟨a, t, rfl, -, -⟩ := inv.shape g0 hg0
      by_cases hk : compat a k = true
      · exfalso
        apply hany
        rw [List.any_eq_true]
        exact ⟨_, List.mem_map_of_mem hg0, by rw [hoff]; simp [hk]⟩
      · simp only [Function.comp_apply, hoff, hk] at hh
        simp at hh
        subst hh
        simpa using hk

theorem groupInv_all (compat : κ → κ → Bool) (keys : List κ) :
    GroupInv compat keys (findCompatibleLists compat keys) := by
  have : ∀ l pre groups, GroupInv compat pre groups →
      GroupInv compat (pre ++ l) (l.foldl (placeKey compat) groups) := by
    intro l
    induction l with
    | nil => intro pre groups h; simpa using h
    | cons k l ih =>
      intro pre groups h
      rw [List.foldl_cons, show pre ++ k :: l = (pre ++ [k]) ++ l by simp]
      exact ih _ _ (groupInv_step compat pre groups k h)
  simpa [findCompatibleLists] using this keys [] [] ⟨by simp, by simp, List.Pairwise.nil⟩

/-- **C13**, what holds for every compatibility relation: every bundle is run in
some list, lists are non-empty and in dictionary order, and every member is
compatible with the *first* member of its list. Missing with respect to
`GroupsOk`: compatibility of members with each other and membership in only one
list; both fail (`groups_pairwise_false`, `groups_unique_false`). -/
theorem groups_cover_partial (compat : κ → κ → Bool) (keys : List κ) :
    (∀ k ∈ keys, ∃ g ∈ findCompatibleLists compat keys, k ∈ g) ∧
    (∀ g ∈ findCompatibleLists compat keys, ∃ h t, g = h :: t ∧ (∀ k ∈ t, compat h k = true) ∧
      g.Sublist keys) :=
  ⟨(groupInv_all compat keys).cover, (groupInv_all compat keys).shape⟩

/-- If compatibility happens to be an equivalence on the keys, the promise holds. -/
theorem groups_ok_of_equivalence (compat : κ → κ → Bool) (keys : List κ)
    (hrefl : ∀ a ∈ keys, compat a a = true)
    (hsymm : ∀ a ∈ keys, ∀ b ∈ keys, compat a b = true → compat b a = true)
    (htrans : ∀ a ∈ keys, ∀ b ∈ keys, ∀ c ∈ keys, compat a b = true → compat b c = true → compat a c = true) :
    GroupsOk compat keys (findCompatibleLists compat keys) := by
  obtain ⟨hshape, hcov, hheads⟩ := groupInv_all compat keys
  refine ⟨?_, ?_⟩
  · intro g hg
    obtain ⟨h, t, rfl, hc, hs⟩ := hshape g hg
    have hmem : ∀ x ∈ h :: t, x ∈ keys := fun x hx => hs.subset hx
    rw [List.pairwise_cons]
    refine ⟨hc, ?_⟩
    rw [List.pairwise_iff_forall_sublist]
    intro a b hab
    have ha : a ∈ t := hab.subset (by simp)
    have hb : b ∈ t := hab.subset (by simp)
    have hhk := hmem h (by simp)
    have hak := hmem a (by simp [ha])
    have hbk := hmem b (by simp [hb])
    exact htrans a hak h hhk b hbk (hsymm h hhk a hak (hc a ha)) (hc b hb)
  · intro k hk
    have hall : ∀ i : Fin (findCompatibleLists compat keys).length, k ∈ (findCompatibleLists compat keys)[i] →
        ∃ h, (findCompatibleLists compat keys)[i].head? = some h ∧ h ∈ keys ∧ compat h k = true := by
      intro i hi
      obtain ⟨h, t, e, hc, hs⟩ := hshape _ (List.getElem_mem i.2)
      have e' : (findCompatibleLists compat keys)[i] = h :: t := e
      rw [e'] at hi ⊢
      refine ⟨h, rfl, hs.subset (by rw [e]; simp), ?_⟩
      rcases List.mem_cons.mp hi with rfl | hi
      · exact hrefl k hk
      · exact hc k hi
    obtain ⟨g, hg, hkg⟩ := hcov k hk
    obtain ⟨i, hi, rfl⟩ := List.getElem_of_mem hg
    refine ⟨⟨i, hi⟩, hkg, ?_⟩
    intro j hj
    obtain ⟨h, e1, hk1, hc1⟩ := hall ⟨i, hi⟩ hkg
    obtain ⟨h', e2, hk2, hc2⟩ := hall j hj
    rw [List.pairwise_iff_getElem] at hheads
    by_contra hne
    have hne' : j.1 ≠ i := fun e => hne (Fin.ext e)
    rcases Nat.lt_or_gt_of_ne hne' with hlt | hlt
    · have := hheads j.1 i j.2 hi hlt h' e2 h e1
      rw [htrans h' hk2 k hk h hk1 hc2 (hsymm h hk1 k hk hc1)] at this
      simp at this
    · have := hheads i j.1 hi j.2 hlt h e1 h' e2
      rw [htrans h hk1 k hk h' hk2 hc1 (hsymm h' hk2 k hk hc2)] at this
      simp at this

end Compat

section CheckCompatible
variable {S T M κ : Type*} [DecidableEq κ]

/-- **C13**, the promise at the level of bundles, for the case in which it holds:
slicer equality is an equivalence and no two stackers of the same class differ
anywhere among the bundles. Then lists are pairwise compatible and every bundle
is in exactly one. Missing: bundles with differently configured stackers of one
class. -/
theorem groups_ok_partial (q : EqTests S T) (bundles : κ → Bundle S T M) (keys : List κ)
    (hrefl : ∀ s, q.slicerEq s s = true)
    (hsymm : ∀ s t, q.slicerEq s t = true → q.slicerEq t s = true)
    (htrans : ∀ s t u, q.slicerEq s t = true → q.slicerEq t u = true → q.slicerEq s u = true)
    (hstack : ∀ a ∈ keys, ∀ b ∈ keys, ∀ s ∈ (bundles a).stackers, ∀ t ∈ (bundles b).stackers,
      q.cls s = q.cls t → q.stackerEq s t = true) :
    GroupsOk (fun a b => checkCompatible q (bundles a) (bundles b)) keys
      (findCompatibleLists (fun a b => checkCompatible q (bundles a) (bundles b)) keys) := by
  have key : ∀ a ∈ keys, ∀ b ∈ keys, (checkCompatible q (bundles a) (bundles b) = true ↔
      (bundles a).constraint = (bundles b).constraint ∧
      q.slicerEq (bundles a).slicer (bundles b).slicer = true) := by
    intro a ha b hb
    have hno : ((bundles a).stackers.any (fun s => (bundles b).stackers.any (fun s2 =>
      (q.cls s == q.cls s2) && !q.stackerEq s s2))) = false := by
      rw [List.any_eq_false]
      intro s hs
      rw [Bool.not_eq_true, List.any_eq_false]
      intro t ht
      simp only [Bool.and_eq_true, beq_iff_eq, Bool.not_eq_eq_eq_not, Bool.not_true, not_and,
        Bool.not_eq_false]
      exact hstack a ha b hb s hs t ht
    unfold checkCompatible
    rw [hno]
    by_cases h1 : (bundles a).constraint = (bundles b).constraint
    · by_cases h2 : q.slicerEq (bundles a).slicer (bundles b).slicer = true
      · simp [h1, h2, pySortResult]
      · simp [h1, h2]
    · simp [h1]
  apply groups_ok_of_equivalence
  · intro a ha
    rw [key a ha a ha]
    exact ⟨rfl, hrefl _⟩
  · intro a ha b hb h
    rw [key b hb a ha]
    rw [key a ha b hb] at h
    exact ⟨h.1.symm, hsymm _ _ h.2⟩
  · intro a ha b hb c hc h h'
    rw [key a ha c hc]
    rw [key a ha b hb] at h
    rw [key b hb c hc] at h'
    exact ⟨h.1.trans h'.1, htrans _ _ _ h.2 h'.2⟩

/-- **C13**: the maps of two bundles are never compared. -/
theorem maps_ignored (q : EqTests S T) (b1 b2 : Bundle S T M) (m1 m2 : List M) :
    checkCompatible q { b1 with maps := m1 } { b2 with maps := m2 } = checkCompatible q b1 b2 := rfl

end CheckCompatible

/-- Stackers with a class name and one configuration number; equality as in
`BaseStacker.__eq__` (same class and same attributes). -/
def demoTests : EqTests Nat (String × Nat) :=
  ⟨fun a b => a == b, Prod.fst, fun a b => a == b⟩

/-- Three bundles: no stacker, and two different configurations of one stacker. -/
def demoBundles : Fin 3 → Bundle Nat (String × Nat) Unit :=
  ![⟨"", 0, [], []⟩, ⟨"", 0, [], [("A", 1)]⟩, ⟨"", 0, [], [("A", 2)]⟩]

def demoCompat (a b : Fin 3) : Bool := checkCompatible demoTests (demoBundles a) (demoBundles b)

/-- **C13**, refutation of pairwise compatibility: bundles 1 and 2 are
incompatible but are put in one list. -/
theorem groups_pairwise_false :
    findCompatibleLists demoCompat [0, 1, 2] = [[0, 1, 2]] ∧ demoCompat 1 2 = false := by decide

/-- **C13**, refutation of uniqueness: with the bundle without stackers last, it
is put in both lists (and is therefore run twice). -/
theorem groups_unique_false :
    findCompatibleLists demoCompat [1, 2, 0] = [[1, 0], [2, 0]] := by decide

theorem groups_ok_false :
    ¬ ∀ keys : List (Fin 3), GroupsOk demoCompat keys (findCompatibleLists demoCompat keys) := by
  intro h
  have := (h [0, 1, 2]).1 [0, 1, 2] (by rw [groups_pairwise_false.1]; simp)
  simp [groups_pairwise_false.2] at this

/-- **C13**, the observable consequence: in the list of `groups_pairwise_false`
the column that bundle 1 reads holds the values of bundle 2's stacker. `D` is the
value of that column; running stacker `(cls, c)` sets it to `c`. -/
theorem group_clobbers_column :
    groupData demoTests.stackerEq (fun s (_ : Nat) => s.2)
      (([0, 1, 2] : List (Fin 3)).map (fun k => (demoBundles k).stackers)) 0 = 2 ∧
    groupData demoTests.stackerEq (fun s (_ : Nat) => s.2) [(demoBundles 1).stackers] 0 = 1 := by
  decide

section Isolation
variable {Col Val : Type*} [DecidableEq Col]

/-- A stacker seen from outside: which columns it reads and writes, with the two
facts that make these the only ones. Tables are functions from column names. -/
structure StackerSem (Col Val : Type*) where
  run : (Col → Val) → (Col → Val)
  reads : List Col
  writes : List Col
  frame : ∀ d c, c ∉ writes → run d c = d c
  local_ : ∀ d d', (∀ c ∈ reads, d c = d' c) → ∀ c ∈ writes, run d c = run d' c

/-- Columns of the incoming table that matter for columns `m` after running `ss`. -/
def needed (m : Col → Prop) : List (StackerSem Col Val) → Col → Prop
  | [], c => m c
  | s :: ss, c => c ∈ s.reads ∨ (needed m ss c ∧ c ∉ s.writes)

theorem runStackers_agree (ss : List (StackerSem Col Val)) :
    ∀ (m : Col → Prop) (d d' : Col → Val), (∀ c, needed m ss c → d c = d' c) →
      ∀ c, m c → runStackers StackerSem.run ss d c = runStackers StackerSem.run ss d' c := by
  induction ss with
  | nil => intro m d d' h c hc; exact h c hc
  | cons s ss ih =>
    intro m d d' h c hc
    unfold runStackers
    rw [List.foldl_cons, List.foldl_cons]
    refine ih m (s.run d) (s.run d') ?_ c hc
    intro x hx
    by_cases hw : x ∈ s.writes
    · exact s.local_ d d' (fun y hy => h y (Or.inl hy)) x hw
    · rw [s.frame d x hw, s.frame d' x hw]
      exact h x (Or.inr ⟨hx, hw⟩)

theorem runStackers_frame (ss : List (StackerSem Col Val)) :
    ∀ (d : Col → Val) c, (∀ s ∈ ss, c ∉ s.writes) → runStackers StackerSem.run ss d c = d c := by
  induction ss with
  | nil => intro d c _; rfl
  | cons s ss ih =>
    intro d c h
    unfold runStackers
    rw [List.foldl_cons]
    rw [show ss.foldl (fun d s => s.run d) (s.run d) c = runStackers StackerSem.run ss (s.run d) c from rfl]
    rw [ih _ _ (fun x hx => h x (List.mem_cons_of_mem _ hx)), s.frame _ _ (h s List.mem_cons_self)]

theorem uniqStackers_subset {T : Type*} (eq : T → T → Bool) (all : List T) :
    ∀ s ∈ uniqStackers eq all, s ∈ all := by
  have : ∀ (l u : List T) s, s ∈ l.foldl (fun u s => if u.any (fun x => eq x s) then u else u ++ [s]) u →
      s ∈ u ∨ s ∈ l := by
    intro l
    induction l with
    | nil => intro u s h; exact Or.inl h
    | cons a l ih =>
      intro u s h
      rw [List.foldl_cons] at h
      rcases ih _ _ h with h | h
      · split at h
        · exact Or.inl h
        · rcases List.mem_append.mp h with h | h
          · exact Or.inl h
          · exact Or.inr (by simp [List.mem_singleton.mp h])
      · exact Or.inr (List.mem_cons_of_mem _ h)
  intro s hs
  rcases this all [] s hs with h | h
  · simp at h
  · exact h

/-- **C44**, what holds: group number `i` sees, on the columns `m` its metrics
use, the table it would see when run alone on the original data, provided no
stacker of an *earlier* group writes a column that group `i` needs from the
incoming table (i.e. reads before rewriting it). Missing: without that proviso
the claim is false, `groups_not_isolated`. -/
theorem groups_isolated_partial (eq : StackerSem Col Val → StackerSem Col Val → Bool)
    (groups : List (List (List (StackerSem Col Val)))) (m : Col → Prop) :
    ∀ (d : Col → Val) (i : Nat) (hi : i < groups.length),
      (∀ j (hj : j < i), ∀ s ∈ groups[j].flatten, ∀ c ∈ s.writes,
        ¬ needed m (uniqStackers eq groups[i].flatten) c) →
      ∃ di, (groupsData eq StackerSem.run groups d)[i]? = some di ∧
        ∀ c, m c → di c = groupData eq StackerSem.run groups[i] d c := by
  induction groups with
  | nil => intro d i hi; simp at hi
  | cons g gs ih =>
    intro d i hi hw
    cases i with
    | zero => exact ⟨_, rfl, fun c _ => rfl⟩
    | succ i =>
      obtain ⟨di, h1, h2⟩ := ih (groupData eq StackerSem.run g d) i (by simpa using hi) (by
        intro j hj s hs c hc
        exact hw (j + 1) (by omega) s hs c hc)
      refine ⟨di, h1, fun c hc => ?_⟩
      rw [h2 c hc]
      unfold groupData
      apply runStackers_agree _ m _ _ _ c hc
      intro x hx
      apply runStackers_frame
      intro s hs hxs
      exact hw 0 (by omega) s (uniqStackers_subset eq _ s hs) x hxs hx

/-- A stacker that overwrites column 0 with a constant. -/
def overwrite0 (v : Nat) : StackerSem Nat Nat where
  run d c := if c = 0 then v else d c
  reads := []
  writes := [0]
  frame d c h := by simp at h; simp [h]
  local_ d d' _ c h := by simp at h; simp [h]

/-- **C44**, refutation: a first group whose stacker overwrites an existing
column changes that column for a second group without stackers. -/
theorem groups_not_isolated :
    (groupsData (fun _ _ => false) StackerSem.run [[[overwrite0 7]], [[]]] (fun _ => 1)).map (fun d => d 0)
      = [7, 7] ∧
    groupData (fun _ _ => false) StackerSem.run [[]] (fun _ => 1) 0 = 1 := by
  decide

/-- Non-vacuity of `groups_isolated_partial`: two groups with the same stacker,
the second also reading an untouched column 1. -/
example : ∀ j (hj : j < 1), ∀ s ∈ (([[[overwrite0 7]], [[overwrite0 7]]] : List (List (List _)))[j]'(by simp; omega)).flatten,
    ∀ c ∈ s.writes, ¬ needed (fun c => c = 0 ∨ c = 1)
      (uniqStackers (fun _ _ => false) ([[overwrite0 7]] : List (List _)).flatten) c := by
  intro j hj s hs c hc
  have : j = 0 := by omega
  subst this
  simp at hs
  subst hs
  simp [overwrite0] at hc
  subst hc
  simp [uniqStackers, needed, overwrite0]

end Isolation

/-- **C74.** Within a group every stacker of every bundle is represented by an equal one that
is run; the stackers that are run are a sublist of those of the bundles in order (so none
comes from elsewhere) and no two of them are equal, so none is run twice. -/
theorem uniq_stackers_spec {T : Type*} (eq : T → T → Bool) (hrefl : ∀ s, eq s s = true) (all : List T) :
    (uniqStackers eq all).Sublist all ∧
    (uniqStackers eq all).Pairwise (fun a b => eq a b = false) ∧
    ∀ s ∈ all, ∃ u ∈ uniqStackers eq all, eq u s = true := by
  have key : ∀ (l u : List T), u.Pairwise (fun a b => eq a b = false) →
      let r := l.foldl (fun u s => if u.any (fun x => eq x s) then u else u ++ [s]) u
      (∃ e, r = u ++ e ∧ e.Sublist l) ∧ r.Pairwise (fun a b => eq a b = false) ∧
        ∀ s ∈ l, ∃ x ∈ r, eq x s = true := by
    intro l
    induction l with
    | nil => intro u hu; exact ⟨⟨[], by simp, List.Sublist.refl _⟩, hu, by simp⟩
    | cons a l ih =>
      intro u hu
      simp only [List.foldl_cons]
      by_cases h : u.any (fun x => eq x a) = true
      · rw [if_pos h]
        obtain ⟨⟨e, he, hs⟩, h2, h3⟩ := ih u hu
        refine ⟨⟨e, he, hs.cons _⟩, h2, ?_⟩
        intro s hs'
        rcases List.mem_cons.mp hs' with rfl | hs'
        · obtain ⟨x, hx, hxe⟩ := List.any_eq_true.mp h
          exact ⟨x, by rw [he]; exact List.mem_append_left _ hx, hxe⟩
        · exact h3 s hs'
      · rw [if_neg h]
        have hu' : (u ++ [a]).Pairwise (fun a b => eq a b = false) := by
          rw [List.pairwise_append]
          refine ⟨hu, List.pairwise_singleton _ _, ?_⟩
          intro x hx y hy
          rw [List.mem_singleton] at hy
          subst hy
          by_contra hc
          exact h (List.any_eq_true.mpr ⟨x, hx, by simpa using hc⟩)
        obtain ⟨⟨e, he, hs⟩, h2, h3⟩ := ih (u ++ [a]) hu'
        refine ⟨⟨a :: e, by rw [he]; simp, hs.cons_cons _⟩, h2, ?_⟩
        intro s hs'
        rcases List.mem_cons.mp hs' with rfl | hs'
        · exact ⟨s, by rw [he]; simp, hrefl s⟩
        · exact h3 s hs'
  obtain ⟨⟨e, he, hs⟩, h2, h3⟩ := key all [] List.Pairwise.nil
  refine ⟨?_, h2, h3⟩
  show (all.foldl _ []).Sublist all
  rw [he]
  simpa using hs

example : uniqStackers (fun a b : Nat => a % 3 == b % 3) [1, 4, 2, 7, 3, 5] = [1, 2, 3] := by decide

end Verif.Bundles
