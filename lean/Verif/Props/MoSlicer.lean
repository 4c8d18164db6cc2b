import Verif.Model.MoBundles
import Mathlib.Data.List.Nodup
import Mathlib.Data.List.Count
import Mathlib.Algebra.BigOperators.Group.List.Basic

/-!
# C202: the moving object slicer
-/

namespace Verif.MoB

variable {I O R : Type} [DecidableEq I]

theorem iterFrom_eq (oid : O → I) (s : Slicer I O R) : ∀ fuel idx, s.orbits.length < idx + fuel →
    iterFrom oid s fuel idx = (s.orbits.drop idx).map fun orb =>
      ⟨s.obs.filter fun o => decide (oid o = orb.id), orb, match s.hrange with | some hs => hs | none => [orb.h]⟩ := by
  intro fuel
  induction fuel with
  | zero =>
    intro idx h
    rw [List.drop_eq_nil_of_le (by omega)]
    rfl
  | succ fuel ih =>
    intro idx h
    unfold iterFrom next
    by_cases hi : s.orbits.length ≤ idx
    · rw [if_pos hi, List.drop_eq_nil_of_le hi]
      rfl
    · rw [if_neg hi]
      have hl : idx < s.orbits.length := by omega
      rw [List.drop_eq_getElem_cons hl]
      unfold sliceObs
      rw [List.getElem?_eq_getElem hl]
      simp only [Option.map_some, List.map_cons]
      rw [ih (idx + 1) (by omega)]
      cases s.hrange <;> rfl

/-- C202: the slices are the orbits, each one once and in order, with the observations of that object in the
order of the file, and with the H values of the range, else the H of the orbit. It does not matter how far
an earlier loop went. -/
theorem iter_spec (oid : O → I) (s : Slicer I O R) (idx : ℕ) :
    (iter oid s idx).map (fun p => p.orbit) = s.orbits ∧
    (∀ p ∈ iter oid s idx, (∀ o, o ∈ p.obs ↔ o ∈ s.obs ∧ oid o = p.orbit.id) ∧ p.obs.Sublist s.obs ∧
      (∀ hs, s.hrange = some hs → p.hvals = hs) ∧ (s.hrange = none → p.hvals = [p.orbit.h])) ∧
    ∀ idx', iter oid s idx' = iter oid s idx := by
  refine ⟨?_, ?_, fun _ => rfl⟩
  · unfold iter
    rw [iterFrom_eq oid s _ _ (by omega), List.drop_zero, List.map_map]
    exact List.map_id _
  · intro p hp
    unfold iter at hp
    rw [iterFrom_eq oid s _ _ (by omega), List.drop_zero, List.mem_map] at hp
    obtain ⟨orb, _, rfl⟩ := hp
    refine ⟨fun o => by simp, List.filter_sublist, fun hs h => by simp [h], fun h => by simp [h]⟩

/-- C202: with distinct objects, each observation of a known object is in exactly one slice, as often as in
the file, and the others are in none. -/
theorem iter_count [DecidableEq O] (oid : O → I) (s : Slicer I O R) (idx : ℕ)
    (hnd : (s.orbits.map fun o => o.id).Nodup) (o : O) :
    ((iter oid s idx).map fun p => p.obs.count o).sum = if oid o ∈ s.orbits.map (fun b => b.id) then s.obs.count o else 0 := by
  have key : ∀ l : List (Orbit I R), (l.map fun b => b.id).Nodup →
      (l.map fun orb => (s.obs.filter fun x => decide (oid x = orb.id)).count o).sum =
        if oid o ∈ l.map (fun b => b.id) then s.obs.count o else 0 := by
    intro l
    induction l with
    | nil => intro _; rfl
    | cons b l ih =>
      intro h
      rw [List.map_cons, List.nodup_cons] at h
      rw [List.map_cons, List.sum_cons, ih h.2]
      by_cases hb : oid o = b.id
      · have : ¬ (oid o ∈ l.map fun b => b.id) := by rw [hb]; exact h.1
        rw [if_neg this, List.count_filter (by simpa using hb)]
        simp [hb]
      · have h0 : (s.obs.filter fun x => decide (oid x = b.id)).count o = 0 := by
          rw [List.count_eq_zero, List.mem_filter]
          rintro ⟨_, h2⟩
          exact hb (by simpa using h2)
        rw [h0, Nat.zero_add]
        simp [hb]
  unfold iter
  rw [iterFrom_eq oid s _ _ (by omega), List.drop_zero, List.map_map]
  exact key _ hnd

/-- C202: `nslice` is the number of values: one for each object and H value. -/
theorem nslice_spec (oid : O → I) (s : Slicer I O R) (idx : ℕ) :
    s.nslice = ((iter oid s idx).map fun p => p.hvals.length).sum ∧
    s.shape.1 = (iter oid s idx).length ∧ ∀ p ∈ iter oid s idx, p.hvals.length = s.shape.2 := by
  have hl : ∀ p ∈ iter oid s idx, p.hvals.length = s.shape.2 := by
    intro p hp
    obtain ⟨_, _, h1, h2⟩ := (iter_spec oid s idx).2.1 p hp
    unfold Slicer.shape
    cases h : s.hrange with
    | none => rw [h2 h]; rfl
    | some hs => rw [h1 hs h]
  have hlen : s.shape.1 = (iter oid s idx).length := by
    have := congrArg List.length (iter_spec oid s idx).1
    rw [List.length_map] at this
    rw [this]
    unfold Slicer.shape
    cases s.hrange <;> rfl
  refine ⟨?_, hlen, hl⟩
  have : ∀ l : List (Slice I O R), (∀ p ∈ l, p.hvals.length = s.shape.2) →
      (l.map fun p => p.hvals.length).sum = l.length * s.shape.2 := by
    intro l
    induction l with
    | nil => intro _; simp
    | cons p l ih =>
      intro h
      rw [List.map_cons, List.sum_cons, ih (fun p hp => h p (by simp [hp])), h p (by simp), List.length_cons,
        Nat.add_mul, Nat.one_mul, Nat.add_comm]
  rw [this _ hl, ← hlen]
  rfl

/-- A slicer whose orbits and observations are those of its files. -/
def FromFiles (orbits : String → List (Orbit I R)) (obs : Option String → List O) (s : Slicer I O R) : Prop :=
  s.orbits = orbits s.orbitFile ∧ s.obs = obs s.obsFile

/-- C202: equal slicers have the same slices, if both or none have a range of H values. -/
theorem eq_slices_partial (orbits : String → List (Orbit I R)) (obs : Option String → List O) (oid : O → I)
    (s t : Slicer I O R) (hs : FromFiles orbits obs s) (ht : FromFiles orbits obs t)
    (hh : s.hrange.isSome = t.hrange.isSome) (h : slicerEq s t = true) :
    iter oid s 0 = iter oid t 0 ∧ s.shape = t.shape ∧ s.nslice = t.nslice := by
  unfold slicerEq at h
  split at h
  · rename_i h1
    split at h
    · rename_i h2
      have h3 := of_decide_eq_true h
      have e1 : s.orbits = t.orbits := by rw [hs.1, ht.1, h1]
      have e2 : s.obs = t.obs := by rw [hs.2, ht.2, h2]
      have e3 : s.hrange = t.hrange := by
        unfold Slicer.hPoints at h3
        cases hx : s.hrange <;> cases hy : t.hrange
        · rfl
        · rw [hx, hy] at hh; simp at hh
        · rw [hx, hy] at hh; simp at hh
        · rw [hx, hy] at h3
          simp only at h3
          rw [h3]
      have e : s = t := by
        cases s; cases t
        simp only at h1 h2 e1 e2 e3
        subst h1 h2 e1 e2 e3
        rfl
      rw [e]
      exact ⟨rfl, rfl, rfl⟩
    · cases h
  · cases h

/-- C202 is false in general: a slicer without a range is equal to one whose range is the list of the H of the
orbits, but their slices and shapes differ. -/
theorem eq_slices_false : ∃ s t : Slicer ℕ ℕ Unit, s.orbits = t.orbits ∧ s.obs = t.obs ∧ slicerEq s t = true ∧
    s.shape ≠ t.shape ∧ (iter id s 0).map (fun p => p.hvals) ≠ (iter id t 0).map (fun p => p.hvals) :=
  ⟨⟨"a", none, [⟨1, 10, ()⟩, ⟨2, 20, ()⟩], [1, 2, 1], none⟩, ⟨"a", none, [⟨1, 10, ()⟩, ⟨2, 20, ()⟩], [1, 2, 1], some [10, 20]⟩,
    rfl, rfl, by decide +kernel, by decide +kernel, by decide +kernel⟩

/-- Three orbits, two of them observed, and an observation of an unknown object. -/
def slicerEx : Slicer ℕ (ℕ × ℕ) Unit :=
  ⟨"orbits", some "obs", [⟨7, 20, ()⟩, ⟨3, 18, ()⟩, ⟨5, 22, ()⟩], [(3, 0), (7, 1), (3, 2), (9, 3)], some [15, 16]⟩

example : (iter Prod.fst slicerEx 2).map (fun p => (p.orbit.id, p.obs, p.hvals)) =
      [(7, [(7, 1)], [15, 16]), (3, [(3, 0), (3, 2)], [15, 16]), (5, [], [15, 16])] ∧ slicerEx.nslice = 6 := by
  decide +kernel

end Verif.MoB
