import Verif.Model.NDSlicer
import Verif.Lemmas.OneDSlicer

namespace Verif.Slicers
open Verif.Np
variable {α : Type*} [LinearOrder α] {n : Nat}

theorem mem_product {β : Type*} (xss : List (List β)) (t : List β) :
    t ∈ product xss ↔ List.Forall₂ (fun x xs => x ∈ xs) t xss := by
  induction xss generalizing t with
  | nil => simp [product]
  | cons xs xss ih =>
    simp only [product, List.mem_flatMap, List.mem_map]
    constructor
    · rintro ⟨x, hx, u, hu, rfl⟩
      exact List.Forall₂.cons hx ((ih u).mp hu)
    · intro h
      cases h with
      | cons hx hu => exact ⟨_, hx, _, (ih _).mpr hu, rfl⟩

theorem nodup_product {β : Type*} (xss : List (List β)) (h : ∀ xs ∈ xss, xs.Nodup) :
    (product xss).Nodup := by
  induction xss with
  | nil => simp [product]
  | cons xs xss ih =>
    have ih := ih (fun ys hy => h ys (List.mem_cons_of_mem _ hy))
    have hx := h xs List.mem_cons_self
    simp only [product]
    rw [List.nodup_flatMap]
    refine ⟨fun x _ => ih.map (fun a b hab => by simpa using hab), ?_⟩
    refine hx.imp (fun {a b} hab => ?_)
    rw [Function.onFun, List.disjoint_left]
    rintro t ht ht'
    simp only [List.mem_map] at ht ht'
    obtain ⟨u, -, rfl⟩ := ht
    obtain ⟨u', -, he⟩ := ht'
    exact hab (by simpa using (List.cons.inj he).1.symm)

theorem length_product {β : Type*} (xss : List (List β)) :
    (product xss).length = (xss.map List.length).prod := by
  induction xss with
  | nil => simp [product]
  | cons xs xss ih => simp [product, List.length_flatMap, ih, List.map_const', List.sum_replicate]

/-- Value `v` lies in bin `i` of `bins`, the last bin being unbounded above. -/
def InBin (bins : List α) (i : Nat) (v : α) : Prop :=
  ∃ lo, bins[i]? = some lo ∧ i + 1 < bins.length ∧ lo ≤ v ∧
    (i + 2 < bins.length → ∀ hi, bins[i + 1]? = some hi → v < hi)

theorem lefts_get (f : Fin n → α) (bins : List α) (p : List (Fin n)) (i : Nat)
    (h : i + 1 < bins.length) :
    (bins.dropLast.map (searchsortedLeft (p.map f)) ++ [p.length])[i]? =
      some (searchsortedLeft (p.map f) bins[i]) := by
  rw [List.getElem?_append_left (by simp; omega)]
  simp [show i < bins.length - 1 by omega]

theorem lefts_last (f : Fin n → α) (bins : List α) (p : List (Fin n)) :
    (bins.dropLast.map (searchsortedLeft (p.map f)) ++ [p.length])[bins.length - 1]? =
      some p.length := by
  rw [List.getElem?_append_right (by simp)]
  simp

theorem lefts_none (f : Fin n → α) (bins : List α) (p : List (Fin n)) (i : Nat)
    (h0 : 0 < bins.length) (h : bins.length ≤ i) :
    (bins.dropLast.map (searchsortedLeft (p.map f)) ++ [p.length])[i]? = none := by
  rw [List.getElem?_eq_none_iff]
  simp
  omega

/-- Content of a `[left[i] : left[i+1]]` slice with the data length as last
position. -/
theorem left_slice_spec (f : Fin n → α) (bins : List α) (p : List (Fin n)) (hp : IsArgsort f p)
    (i : Nat) (h : i + 1 < bins.length) :
    ∃ l r, (bins.dropLast.map (searchsortedLeft (p.map f)) ++ [p.length])[i]? = some l ∧
      (bins.dropLast.map (searchsortedLeft (p.map f)) ++ [p.length])[i + 1]? = some r ∧
      (pySlice p l r).Nodup ∧ ∀ j, j ∈ pySlice p l r ↔ InBin bins i (f j) := by
  refine ⟨searchsortedLeft (p.map f) bins[i], ?_⟩
  rw [lefts_get f bins p i h]
  by_cases h2 : i + 2 < bins.length
  · refine ⟨_, rfl, lefts_get f bins p (i + 1) h2, hp.nodup.sublist (pySlice_sublist _ _ _), fun j => ?_⟩
    rw [mem_pySlice_searchsorted f p _ _ hp.sorted]
    constructor
    · rintro ⟨-, hlo, hhi⟩
      refine ⟨bins[i], by simp, h, hlo, fun _ hi e => ?_⟩
      rw [List.getElem?_eq_getElem h] at e
      cases e; exact hhi
    · rintro ⟨lo, e, -, hlo, hhi⟩
      rw [List.getElem?_eq_getElem (by omega)] at e
      cases e
      exact ⟨hp.mem j, hlo, hhi h2 _ (List.getElem?_eq_getElem h)⟩
  · have e : i + 1 = bins.length - 1 := by omega
    refine ⟨p.length, rfl, by rw [e]; exact lefts_last f bins p,
      hp.nodup.sublist (pySlice_sublist _ _ _), fun j => ?_⟩
    unfold pySlice
    rw [List.take_length, drop_searchsorted f p _ hp.sorted]
    simp only [List.mem_filter, hp.mem j, true_and, decide_eq_true_eq]
    constructor
    · intro hlo
      exact ⟨bins[i], by simp, h, hlo, fun h3 => absurd h3 h2⟩
    · rintro ⟨lo, e, -, hlo, -⟩
      rw [List.getElem?_eq_getElem (by omega)] at e
      cases e; exact hlo

/-- With sorted edges a value at or above the first edge lies in exactly one
bin (the last being unbounded). -/
theorem inBin_existsUnique (bins : List α) (hs : bins.Pairwise (· ≤ ·)) (hl : 2 ≤ bins.length) (v : α)
    (b₀ : α) (h0 : bins.head? = some b₀) (hv : b₀ ≤ v) : ∃! i, InBin bins i v := by
  have hbr : ∃ i, InBin bins i v := by
    by_cases hlast : v < bins[bins.length - 1]
    · obtain ⟨i, hi, h1, h2⟩ := exists_bracket bins v (bins.length - 1) (by omega)
        (by intro b hb; rw [h0] at hb; cases hb; exact hv) hlast
      exact ⟨i, bins[i], by simp, hi, h1, fun _ hi' e => by
        rw [List.getElem?_eq_getElem hi] at e; cases e; exact h2⟩
    · refine ⟨bins.length - 2, bins[bins.length - 2], by simp, by omega, ?_, fun h3 => by omega⟩
      exact le_trans (sorted_get_le hs (by omega) (by omega)) (not_lt.mp hlast)
  obtain ⟨i, hi⟩ := hbr
  refine ⟨i, hi, fun k hk => ?_⟩
  obtain ⟨lo, e1, l1, a1, c1⟩ := hi
  obtain ⟨lo', e2, l2, a2, c2⟩ := hk
  rw [List.getElem?_eq_getElem (by omega)] at e1 e2
  cases e1; cases e2
  by_contra hne
  rcases Nat.lt_or_ge k i with hlt | hge
  · have := c2 (by omega) _ (List.getElem?_eq_getElem l2)
    have h3 := sorted_get_le hs (show k + 1 ≤ i by omega) (by omega)
    exact absurd (lt_of_lt_of_le this h3) (not_lt.mpr a1)
  · have := c1 (by omega) _ (List.getElem?_eq_getElem l1)
    have h3 := sorted_get_le hs (show i + 1 ≤ k by omega) (by omega)
    exact absurd (lt_of_lt_of_le this h3) (not_lt.mpr a2)

end Verif.Slicers
