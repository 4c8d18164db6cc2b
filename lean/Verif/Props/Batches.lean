import Verif.Model.Batches
import Mathlib.Tactic.Ring
import Mathlib.Tactic.Tauto
import Mathlib.Tactic.SplitIfs

/-!
# Batches: C299–C302
-/

namespace Verif.Batches

/-! ## C299: conditions -/

section
variable {R : Type}

/-- Levels of the grammar of conditions. -/
inductive Lvl
  | or | and | factor

/-- A reader of conditions for the specification, with the usual precedence; `n` bounds its depth. -/
def parse : ℕ → Lvl → List (Tok R) → Option ((R → Bool) × List (Tok R))
  | 0, _, _ => none
  | _ + 1, .factor, .atom p :: r => some (p, r)
  | n + 1, .factor, .not :: r => match parse n .factor r with
    | some (p, r') => some (fun x => !p x, r')
    | none => none
  | n + 1, .factor, .lp :: r => match parse n .or r with
    | some (p, .rp :: r') => some (p, r')
    | _ => none
  | _ + 1, .factor, _ => none
  | n + 1, .and, ts => match parse n .factor ts with
    | none => none
    | some (p, .and :: r) => match parse n .and r with
      | some (q, r') => some (fun x => p x && q x, r')
      | none => none
    | some (p, r) => some (p, r)
  | n + 1, .or, ts => match parse n .and ts with
    | none => none
    | some (p, .or :: r) => match parse n .or r with
      | some (q, r') => some (fun x => p x || q x, r')
      | none => none
    | some (p, r) => some (p, r)

/-- The condition means the test. -/
def Means (ts : List (Tok R)) (p : R → Bool) : Prop := ∃ n, parse n .or ts = some (p, [])

/-- The condition, or no condition, means the test. -/
def Selects (ts : List (Tok R)) (p : R → Bool) : Prop := (ts = [] ∧ p = fun _ => true) ∨ Means ts p

/-- What may follow a condition. -/
def Stops : List (Tok R) → Prop
  | .and :: _ => False
  | .or :: _ => False
  | _ => True

theorem parse_mono (n : ℕ) : ∀ (l : Lvl) (ts : List (Tok R)) (x : (R → Bool) × List (Tok R)), parse n l ts = some x → parse (n + 1) l ts = some x := by
  induction n with
  | zero => intro l ts x h; simp [parse] at h
  | succ n ih =>
    intro l ts x h
    cases l with
    | factor =>
      cases ts with
      | nil => simp [parse] at h
      | cons t ts =>
        cases t with
        | atom p => simpa [parse] using h
        | not =>
          rw [parse] at h ⊢
          cases h1 : parse n .factor ts with
          | none => rw [h1] at h; simp at h
          | some y => rw [ih _ _ _ h1]; rw [h1] at h; exact h
        | lp =>
          rw [parse] at h ⊢
          cases h1 : parse n .or ts with
          | none => rw [h1] at h; simp at h
          | some y => rw [ih _ _ _ h1]; rw [h1] at h; exact h
        | rp => simp [parse] at h
        | and => simp [parse] at h
        | or => simp [parse] at h
    | and =>
      rw [parse] at h ⊢
      cases h1 : parse n .factor ts with
      | none => rw [h1] at h; simp at h
      | some y =>
        rw [ih _ _ _ h1]
        rw [h1] at h
        obtain ⟨p, r⟩ := y
        cases r with
        | nil => exact h
        | cons t r =>
          cases t with
          | and =>
            dsimp only at h ⊢
            cases h2 : parse n .and r with
            | none => rw [h2] at h; simp at h
            | some z => rw [ih _ _ _ h2]; rw [h2] at h; exact h
          | _ => exact h
    | or =>
      rw [parse] at h ⊢
      cases h1 : parse n .and ts with
      | none => rw [h1] at h; simp at h
      | some y =>
        rw [ih _ _ _ h1]
        rw [h1] at h
        obtain ⟨p, r⟩ := y
        cases r with
        | nil => exact h
        | cons t r =>
          cases t with
          | or =>
            dsimp only at h ⊢
            cases h2 : parse n .or r with
            | none => rw [h2] at h; simp at h
            | some z => rw [ih _ _ _ h2]; rw [h2] at h; exact h
          | _ => exact h

theorem parse_le {n m : ℕ} (hnm : n ≤ m) (l : Lvl) (ts : List (Tok R)) (x : (R → Bool) × List (Tok R)) (h : parse n l ts = some x) : parse m l ts = some x := by
  induction hnm with
  | refl => exact h
  | step _ ih => exact parse_mono _ _ _ _ ih

/-- A condition means one test. -/
theorem means_unique (ts : List (Tok R)) (p q : R → Bool) (hp : Means ts p) (hq : Means ts q) : p = q := by
  obtain ⟨n, hn⟩ := hp
  obtain ⟨m, hm⟩ := hq
  have h1 := parse_le (Nat.le_max_left n m) _ _ _ hn
  have h2 := parse_le (Nat.le_max_right n m) _ _ _ hm
  rw [h1] at h2
  cases h2
  rfl

theorem parse_append (n : ℕ) : ∀ (l : Lvl) (ts : List (Tok R)) (p : R → Bool) (r s : List (Tok R)), parse n l ts = some (p, r) → (l = .factor ∨ r ≠ [] ∨ Stops s) →
    parse n l (ts ++ s) = some (p, r ++ s) := by
  induction n with
  | zero => intro l ts p r s h; simp [parse] at h
  | succ n ih =>
    intro l ts p r s h hc
    cases l with
    | factor =>
      cases ts with
      | nil => simp [parse] at h
      | cons t ts =>
        rw [List.cons_append]
        cases t with
        | atom q => simp only [parse, Option.some.injEq, Prod.mk.injEq] at h ⊢; exact ⟨h.1, by rw [h.2]⟩
        | not =>
          rw [parse] at h ⊢
          cases h1 : parse n .factor ts with
          | none => rw [h1] at h; simp at h
          | some y =>
            obtain ⟨q, r'⟩ := y
            rw [ih _ _ _ _ s h1 (Or.inl rfl)]
            rw [h1] at h
            simp only [Option.some.injEq, Prod.mk.injEq] at h ⊢
            exact ⟨h.1, by rw [h.2]⟩
        | lp =>
          rw [parse] at h ⊢
          cases h1 : parse n .or ts with
          | none => rw [h1] at h; simp at h
          | some y =>
            obtain ⟨q, r'⟩ := y
            rw [h1] at h
            cases r' with
            | nil => simp at h
            | cons t r' =>
              rw [ih _ _ _ _ s h1 (Or.inr (Or.inl (by simp)))]
              cases t <;> simp only [List.cons_append, Option.some.injEq, Prod.mk.injEq, reduceCtorEq] at h ⊢
              exact ⟨h.1, by rw [h.2]⟩
        | rp => simp [parse] at h
        | and => simp [parse] at h
        | or => simp [parse] at h
    | and =>
      rw [parse] at h ⊢
      cases h1 : parse n .factor ts with
      | none => rw [h1] at h; simp at h
      | some y =>
        obtain ⟨q, r'⟩ := y
        rw [ih _ _ _ _ s h1 (Or.inl rfl)]
        rw [h1] at h
        cases r' with
        | nil =>
          simp only [Option.some.injEq, Prod.mk.injEq] at h
          obtain ⟨rfl, rfl⟩ := h
          have hs : Stops s := by simpa using hc
          cases s with
          | nil => rfl
          | cons t s => cases t <;> simp [Stops] at hs ⊢
        | cons t r' =>
          rw [List.cons_append]
          cases t with
          | and =>
            dsimp only at h ⊢
            cases h2 : parse n .and r' with
            | none => rw [h2] at h; simp at h
            | some z =>
              obtain ⟨q', r''⟩ := z
              rw [h2] at h
              simp only [Option.some.injEq, Prod.mk.injEq] at h
              obtain ⟨rfl, rfl⟩ := h
              rw [ih _ _ _ _ s h2 (by simpa using hc)]
          | lp => simp only [Option.some.injEq, Prod.mk.injEq] at h ⊢; exact ⟨h.1, by rw [← h.2]; rfl⟩
          | rp => simp only [Option.some.injEq, Prod.mk.injEq] at h ⊢; exact ⟨h.1, by rw [← h.2]; rfl⟩
          | or => simp only [Option.some.injEq, Prod.mk.injEq] at h ⊢; exact ⟨h.1, by rw [← h.2]; rfl⟩
          | not => simp only [Option.some.injEq, Prod.mk.injEq] at h ⊢; exact ⟨h.1, by rw [← h.2]; rfl⟩
          | atom _ => simp only [Option.some.injEq, Prod.mk.injEq] at h ⊢; exact ⟨h.1, by rw [← h.2]; rfl⟩
    | or =>
      rw [parse] at h ⊢
      cases h1 : parse n .and ts with
      | none => rw [h1] at h; simp at h
      | some y =>
        obtain ⟨q, r'⟩ := y
        rw [h1] at h
        cases r' with
        | nil =>
          simp only [Option.some.injEq, Prod.mk.injEq] at h
          obtain ⟨rfl, rfl⟩ := h
          have hs : Stops s := by simpa using hc
          rw [ih _ _ _ _ s h1 (Or.inr (Or.inr hs))]
          cases s with
          | nil => rfl
          | cons t s => cases t <;> simp [Stops] at hs ⊢
        | cons t r' =>
          rw [ih _ _ _ _ s h1 (Or.inr (Or.inl (by simp)))]
          rw [List.cons_append]
          cases t with
          | or =>
            dsimp only at h ⊢
            cases h2 : parse n .or r' with
            | none => rw [h2] at h; simp at h
            | some z =>
              obtain ⟨q', r''⟩ := z
              rw [h2] at h
              simp only [Option.some.injEq, Prod.mk.injEq] at h
              obtain ⟨rfl, rfl⟩ := h
              rw [ih _ _ _ _ s h2 (by simpa using hc)]
          | lp => simp only [Option.some.injEq, Prod.mk.injEq] at h ⊢; exact ⟨h.1, by rw [← h.2]; rfl⟩
          | rp => simp only [Option.some.injEq, Prod.mk.injEq] at h ⊢; exact ⟨h.1, by rw [← h.2]; rfl⟩
          | and => simp only [Option.some.injEq, Prod.mk.injEq] at h ⊢; exact ⟨h.1, by rw [← h.2]; rfl⟩
          | not => simp only [Option.some.injEq, Prod.mk.injEq] at h ⊢; exact ⟨h.1, by rw [← h.2]; rfl⟩
          | atom _ => simp only [Option.some.injEq, Prod.mk.injEq] at h ⊢; exact ⟨h.1, by rw [← h.2]; rfl⟩

/-- A condition in brackets is a factor with the same meaning, whatever follows. -/
theorem brackets (ts s : List (Tok R)) (p : R → Bool) (h : Means ts p) : ∃ n, ∀ m, n ≤ m → parse m .factor (.lp :: (ts ++ .rp :: s)) = some (p, s) := by
  obtain ⟨n, hn⟩ := h
  refine ⟨n + 1, fun m hm => ?_⟩
  apply parse_le hm
  rw [parse, parse_append n .or ts p [] (.rp :: s) hn (Or.inr (Or.inr trivial))]
  rfl

theorem factor_or (n : ℕ) (ts : List (Tok R)) (p : R → Bool) (h : parse n .factor ts = some (p, [])) : Means ts p := by
  refine ⟨n + 2, ?_⟩
  rw [parse]
  have : parse (n + 1) .and ts = some (p, []) := by rw [parse, h]
  rw [this]

/-- Two conditions in brackets with `and` between mean both, whatever they are. -/
theorem both_means (a b : List (Tok R)) (p q : R → Bool) (ha : Means a p) (hb : Means b q) : Means (both a b) (fun x => p x && q x) := by
  obtain ⟨n1, h1⟩ := brackets a (.and :: .lp :: (b ++ [.rp])) p ha
  obtain ⟨n2, h2⟩ := brackets b [] q hb
  have e : both a b = .lp :: (a ++ .rp :: (.and :: .lp :: (b ++ [.rp]))) := by unfold both; simp
  have hx := h1 (n1 + n2 + 1) (by omega)
  have hy := h2 (n1 + n2) (by omega)
  have hz : parse (n1 + n2 + 1) .and (.lp :: (b ++ [.rp])) = some (q, []) := by rw [parse, hy]
  refine ⟨n1 + n2 + 3, ?_⟩
  rw [e, parse]
  have : parse (n1 + n2 + 2) .and (.lp :: (a ++ .rp :: (.and :: .lp :: (b ++ [.rp])))) = some (fun x => p x && q x, []) := by
    rw [parse, hx]
    dsimp only
    rw [hz]
  rw [this]

theorem atom_means (p : R → Bool) : Means [.atom p] p := factor_or 1 _ p rfl

/-- `filter_list`: the condition of a band selects the visits of the band that meet the extra condition, whatever it is; that
of "all" those that meet the extra condition. -/
theorem filter_means (bandOf : R → Char) (e : List (Tok R)) (p : R → Bool) (he : Selects e p) (b : Option Char) :
    Selects (bandSql bandOf (some e) b) (fun r => p r && (b.all (fun c => bandOf r == c))) ∧
    Selects (bandSql bandOf none b) (fun r => b.all (fun c => bandOf r == c)) := by
  have hown : ∀ c, Means [.atom (fun r => bandOf r == c)] (fun r => bandOf r == c) := fun c => atom_means _
  constructor
  · unfold bandSql
    dsimp only
    rcases he with ⟨rfl, rfl⟩ | he
    · cases b with
      | none => exact Or.inl ⟨rfl, by simp⟩
      | some c =>
        right
        simpa using hown c
    · have hne : e.isEmpty = false := by
        cases e with
        | nil => obtain ⟨n, hn⟩ := he; exfalso; revert hn; cases n with
          | zero => simp [parse]
          | succ n => cases n with
            | zero => simp [parse]
            | succ n => cases n <;> simp [parse]
        | cons => rfl
      rw [hne]
      cases b with
      | none => right; simpa using he
      | some c =>
        right
        simpa using both_means _ _ _ _ he (hown c)
  · unfold bandSql
    cases b with
    | none => exact Or.inl ⟨rfl, by simp⟩
    | some c => right; simpa using hown c

/-- The visits that meet a condition. -/
theorem selects_unique (ts : List (Tok R)) (p q : R → Bool) (hp : Selects ts p) (hq : Selects ts q) : p = q := by
  have hnil : ∀ p : R → Bool, ¬ Means [] p := by
    rintro p ⟨n, hn⟩
    revert hn
    cases n with
    | zero => simp [parse]
    | succ n => cases n with
      | zero => simp [parse]
      | succ n => cases n <;> simp [parse]
  rcases hp with ⟨rfl, rfl⟩ | hp
  · rcases hq with ⟨_, rfl⟩ | hq
    · rfl
    · exact absurd hq (hnil q)
  · rcases hq with ⟨rfl, rfl⟩ | hq
    · exact absurd hp (hnil p)
    · exact means_unique ts p q hp hq

/-- The bands are u, g, r, i, z and y, in this order and each once, after "all" if it is asked for. -/
theorem bandList_spec : bandList false = "ugrizy".toList.map some ∧ bandList true = none :: "ugrizy".toList.map some := by
  decide +kernel

/-- Each visit in one of the six bands that meets the extra condition is selected by exactly one band; a count over all is the sum of
the counts of bands. -/
theorem filter_partition (bandOf : R → Char) (p : R → Bool) (visits : List R) (hb : ∀ r ∈ visits, bandOf r ∈ ['u', 'g', 'r', 'i', 'z', 'y']) :
    visits.countP p = ((['u', 'g', 'r', 'i', 'z', 'y'].map (fun c => visits.countP (fun r => p r && bandOf r == c))).sum) := by
  induction visits with
  | nil => simp
  | cons r visits ih =>
    have ih := ih (fun x hx => hb x (by simp [hx]))
    have hr := hb r (by simp)
    simp only [List.map_cons, List.map_nil, List.sum_cons, List.sum_nil] at ih ⊢
    simp only [List.countP_cons]
    rw [ih]
    simp only [List.mem_cons, List.not_mem_nil, or_false] at hr
    cases hp : p r
    · simp
    · rcases hr with h | h | h | h | h | h <;> rw [h] <;> simp <;> omega

/-! ### Adjacent bands -/

theorem and_append (n : ℕ) : ∀ (ts own r : List (Tok R)) (p q : R → Bool) (m : ℕ), parse n .and ts = some (p, []) → parse m .and own = some (q, r) →
    ∃ k, parse k .and (ts ++ .and :: own) = some (fun x => p x && q x, r) := by
  induction n with
  | zero => intro ts own r p q m h; simp [parse] at h
  | succ n ih =>
    intro ts own r p q m h hm
    rw [parse] at h
    cases h1 : parse n .factor ts with
    | none => rw [h1] at h; simp at h
    | some y =>
      obtain ⟨p0, r0⟩ := y
      rw [h1] at h
      have h1' := parse_append n .factor ts p0 r0 (.and :: own) h1 (Or.inl rfl)
      cases r0 with
      | nil =>
        simp only [Option.some.injEq, Prod.mk.injEq] at h
        obtain ⟨rfl, _⟩ := h
        refine ⟨n + m + 1, ?_⟩
        rw [parse, parse_le (by omega : n ≤ n + m) _ _ _ h1']
        dsimp only [List.nil_append]
        rw [parse_le (by omega : m ≤ n + m) _ _ _ hm]
      | cons t r0 =>
        cases t with
        | and =>
          dsimp only at h
          cases h2 : parse n .and r0 with
          | none => rw [h2] at h; simp at h
          | some z =>
            obtain ⟨q1, r1⟩ := z
            rw [h2] at h
            simp only [Option.some.injEq, Prod.mk.injEq] at h
            obtain ⟨rfl, rfl⟩ := h
            obtain ⟨k, hk⟩ := ih r0 own r q1 q m h2 hm
            refine ⟨n + k + 1, ?_⟩
            rw [parse, parse_le (by omega : n ≤ n + k) _ _ _ h1']
            dsimp only [List.cons_append]
            rw [parse_le (by omega : k ≤ n + k) _ _ _ hk]
            simp only [Option.some.injEq, Prod.mk.injEq, and_true]
            funext x
            exact (Bool.and_assoc _ _ _).symm
        | lp => simp at h
        | rp => simp at h
        | or => simp at h
        | not => simp at h
        | atom _ => simp at h

theorem pair_means (bandOf : R → Char) (a b : Char) : ∃ n, parse n .and ([.lp, .atom (fun r => bandOf r == a), .or, .atom (fun r => bandOf r == b), .rp] : List (Tok R)) =
    some (fun r => (bandOf r == a) || (bandOf r == b), []) := ⟨8, by simp [parse]⟩

/-- The condition for two adjacent bands selects the visits in them that meet the extra condition, if that has no `or` outside of brackets. -/
theorem subset_partial (bandOf : R → Char) (e : List (Tok R)) (p : R → Bool) (n : ℕ) (he : parse n .and e = some (p, [])) (a b : Char) :
    Means (subsetSql bandOf (some e) a b) (fun r => p r && ((bandOf r == a) || (bandOf r == b))) := by
  have hne : e.isEmpty = false := by
    cases e with
    | nil => exfalso; revert he; cases n with
      | zero => simp [parse]
      | succ n => cases n <;> simp [parse]
    | cons => rfl
  obtain ⟨m, hm⟩ := pair_means bandOf a b
  obtain ⟨k, hk⟩ := and_append n e _ [] p _ m he hm
  refine ⟨k + 1, ?_⟩
  unfold subsetSql
  dsimp only
  rw [hne]
  rw [parse]
  simp only [Bool.false_eq_true, if_false, List.append_assoc, List.cons_append, List.nil_append]
  rw [hk]

end

/-- The condition for two adjacent bands selects the visits in them that meet the extra condition. -/
def SubsetClaim : Prop := ∀ (bandOf : ℕ × Char → Char) (e : List (Tok (ℕ × Char))) (p : ℕ × Char → Bool), Means e p → ∀ a b, Means (subsetSql bandOf (some e) a b) (fun r => p r && ((bandOf r == a) || (bandOf r == b)))

/-- False: with an extra condition `night < 1 or night > 9` a visit of another band is selected. -/
theorem subset_false : ¬ SubsetClaim := by
  intro h
  let e : List (Tok (ℕ × Char)) := [.atom (fun r => decide (r.1 < 1)), .or, .atom (fun r => decide (9 < r.1))]
  have h1 : Means e (fun r => decide (r.1 < 1) || decide (9 < r.1)) := ⟨5, by simp [e, parse]⟩
  have h2 := h Prod.snd e _ h1 'u' 'g'
  have h3 : Means (subsetSql Prod.snd (some e) 'u' 'g') (fun r => decide (r.1 < 1) || (decide (9 < r.1) && ((r.2 == 'u') || (r.2 == 'g')))) := ⟨9, by simp [e, subsetSql, parse]⟩
  have := congrFun (means_unique _ _ _ h2 h3) (0, 'z')
  revert this
  decide

/-! ### Glance -/

/-- The glance: the visits of the band that meet the condition, if there is one or none is given. -/
theorem glance_partial {R : Type} (bandOf : R → Char) (e : List (Tok R)) (p : R → Bool) (he : Means e p) (b : Char) :
    Means (glanceSql bandOf (some e) b) (fun r => p r && bandOf r == b) ∧ Means (glanceSql bandOf none b) (fun r => bandOf r == b) := by
  constructor
  · obtain ⟨n, hn⟩ := brackets e [.and, .atom (fun r => bandOf r == b)] p he
    have hx := hn (n + 2) (by omega)
    refine ⟨n + 4, ?_⟩
    have e1 : glanceSql bandOf (some e) b = .lp :: (e ++ .rp :: [.and, .atom (fun r => bandOf r == b)]) := by simp [glanceSql]
    have e2 : parse (n + 2) .and ([.atom (fun r => bandOf r == b)] : List (Tok R)) = some (fun r => bandOf r == b, []) := by rw [parse, parse]
    have : parse (n + 3) .and (glanceSql bandOf (some e) b) = some (fun r => p r && bandOf r == b, []) := by
      rw [parse, e1, hx]
      dsimp only
      rw [e2]
    rw [parse, this]
  · exact atom_means _

/-- An empty condition is like none, as in `get_sim_data` and `filter_list`. -/
def EmptyClaim : Prop := ∀ b, ∃ p, Means (glanceSql (fun r : Char => r) (some []) b) p

/-- False: there is `() and` in the query, which means nothing. -/
theorem glance_false : ¬ EmptyClaim := by
  intro h
  obtain ⟨p, n, hn⟩ := h 'u'
  have h1 : ∀ m (ts : List (Tok Char)), parse m .or (.rp :: ts) = none := by
    intro m ts
    cases m with
    | zero => rfl
    | succ m => cases m with
      | zero => rfl
      | succ m => cases m with
        | zero => rfl
        | succ m => simp [parse]
  have h2 : ∀ m (ts : List (Tok Char)), parse m .factor (.lp :: .rp :: ts) = none := by
    intro m ts
    cases m with
    | zero => rfl
    | succ m => rw [parse, h1]
  have h3 : glanceSql (fun r : Char => r) (some []) 'u' = .lp :: .rp :: [.and, .atom (fun r => r == 'u')] := rfl
  rw [h3] at hn
  cases n with
  | zero => simp [parse] at hn
  | succ n =>
    rw [parse] at hn
    cases n with
    | zero => simp [parse] at hn
    | succ n => rw [parse, h2] at hn; simp at hn

/-! ## C300: years -/

/-- Years follow each other with 365 or 366 nights. -/
theorem year_length (y : ℕ) : yearEnd (y + 1) - yearEnd y = 365 ∨ yearEnd (y + 1) - yearEnd y = 366 := by unfold yearEnd; omega

/-- Each night but the one numbered 0 is in exactly one year, within the first `n` exactly up to the end of year `n`. -/
theorem year_unique_partial (night n : ℕ) (h : 0 < night) : ((∃ y, 1 ≤ y ∧ y ≤ n ∧ inYear y night = true) ↔ night ≤ yearEnd n) ∧
    ∀ y y', 1 ≤ y → 1 ≤ y' → inYear y night = true → inYear y' night = true → y = y' := by
  have mono : ∀ a b, a ≤ b → yearEnd a ≤ yearEnd b := fun a b h => by unfold yearEnd; omega
  constructor
  · constructor
    · rintro ⟨y, h1, h2, h3⟩
      unfold inYear at h3
      simp only [decide_eq_true_eq] at h3
      exact h3.2.trans (mono _ _ h2)
    · intro hn
      induction n with
      | zero => unfold yearEnd at hn; omega
      | succ n ih =>
        by_cases hle : night ≤ yearEnd n
        · obtain ⟨y, h1, h2, h3⟩ := ih hle
          exact ⟨y, h1, by omega, h3⟩
        · refine ⟨n + 1, by omega, le_refl _, ?_⟩
          unfold inYear
          simp only [decide_eq_true_eq, Nat.add_sub_cancel]
          exact ⟨by omega, hn⟩
  · intro y y' hy hy' h1 h2
    unfold inYear at h1 h2
    simp only [decide_eq_true_eq] at h1 h2
    by_contra hne
    rcases Nat.lt_or_gt_of_ne hne with hlt | hlt
    · have := mono y (y' - 1) (by omega); omega
    · have := mono y' (y - 1) (by omega); omega

example : inYear 2 366 = true ∧ inYear 2 365 = false ∧ yearEnd 10 = 3652 := by decide

/-- Each night is in a year. -/
def YearClaim : Prop := ∀ night, ∃ y, 1 ≤ y ∧ inYear y night = true

/-- False: visits of the night numbered 0 are in no plot. -/
theorem year_false : ¬ YearClaim := by
  intro h
  obtain ⟨y, _, hy⟩ := h 0
  unfold inYear at hy
  simp at hy

/-- The years of weak lensing are cumulative. -/
theorem before_mono (y y' night : ℕ) (h : y ≤ y') (hb : beforeYear y night = true) : beforeYear y' night = true := by
  unfold beforeYear yearEnd at *
  simp only [decide_eq_true_eq] at *
  omega

/-- The first years differ: the last night of the first year of the hourglass is not in that of weak lensing. -/
theorem first_years : inYear 1 365 = true ∧ beforeYear 1 365 = false ∧ inYear 1 0 = false ∧ beforeYear 1 0 = true := by decide

/-! ## C301: names -/

/-- Two labels are joined by a blank, the first one first. -/
theorem combine_pair (a b : Str) : combine (some a) (some b) = some (a ++ " ".toList ++ b) := by
  simp [combine]

/-- Labels are combined in any order of brackets; no label changes nothing. -/
theorem combine_laws (a b c : Option Str) : combine (combine a b) c = combine a (combine b c) ∧ combine a none = a ∧ combine none a = a ∧ (combine a b = none ↔ a = none ∧ b = none) := by
  cases a <;> cases b <;> cases c <;> simp [combine]

/-- `rstrip`: the part that is left out has only the given characters, and what is left does not end in one. -/
theorem rstrip_spec (s chars : Str) : ∃ t, s = rstrip s chars ++ t ∧ (∀ c ∈ t, c ∈ chars) ∧ ∀ c, (rstrip s chars).getLast? = some c → c ∉ chars := by
  unfold rstrip
  refine ⟨(s.reverse.takeWhile (fun c => decide (c ∈ chars))).reverse, ?_, ?_, ?_⟩
  · rw [← List.reverse_append, List.takeWhile_append_dropWhile, List.reverse_reverse]
  · intro c hc
    rw [List.mem_reverse] at hc
    have : ∀ (l : Str), c ∈ l.takeWhile (fun c => decide (c ∈ chars)) → c ∈ chars := by
      intro l
      induction l with
      | nil => simp
      | cons a l ih =>
        intro h
        by_cases ha : a ∈ chars
        · rw [List.takeWhile_cons_of_pos (by simpa using ha)] at h
          rcases List.mem_cons.mp h with rfl | h
          · exact ha
          · exact ih h
        · rw [List.takeWhile_cons_of_neg (by simpa using ha)] at h
          simp at h
    exact this _ hc
  · intro c hc
    rw [List.getLast?_reverse] at hc
    have : ∀ (l : Str), (l.dropWhile (fun c => decide (c ∈ chars))).head? = some c → c ∉ chars := by
      intro l
      induction l with
      | nil => simp
      | cons a l ih =>
        intro h
        by_cases ha : a ∈ chars
        · rw [List.dropWhile_cons_of_pos (by simpa using ha)] at h
          exact ih h
        · rw [List.dropWhile_cons_of_neg (by simpa using ha)] at h
          simp at h
          rw [← h]; exact ha
    exact this _ hc

/-- With an empty replacement the name of a metric on a column is that of the metric, if this does not end in a character of the column. -/
theorem short_partial (metric col : Str) (hne : metric ≠ []) (h : ∀ c, metric.getLast? = some c → c ≠ ' ' ∧ c ∉ col) : shortName (metric ++ ' ' :: col) col = metric := by
  unfold shortName rstrip
  obtain ⟨m, a, rfl⟩ : ∃ m a, metric = m ++ [a] := by
    rcases metric.eq_nil_or_concat with h' | ⟨m, a, h'⟩
    · exact absurd h' hne
    · exact ⟨m, a, by rw [h', List.concat_eq_append]⟩
  have ha := h a (by simp)
  have hdrop : ∀ (l r : Str), (∀ c ∈ l, c ∈ ' ' :: col) → (l ++ a :: r).dropWhile (fun c => decide (c ∈ ' ' :: col)) = a :: r := by
    intro l r hl
    induction l with
    | nil =>
      rw [List.nil_append, List.dropWhile_cons_of_neg]
      simp [ha.1, ha.2]
    | cons b l ih =>
      rw [List.cons_append, List.dropWhile_cons_of_pos (by simpa using hl b (by simp)), ih (fun c hc => hl c (by simp [hc]))]
  have e : ((m ++ [a]) ++ ' ' :: col).reverse = (' ' :: col).reverse ++ a :: m.reverse := by simp
  rw [e, hdrop _ _ (fun c hc => List.mem_reverse.mp hc)]
  simp

example : shortName "Mean airmass".toList "airmass".toList = "Mean".toList := by decide

/-- With an empty replacement the name of a metric on a column is that of the metric, as documented. -/
def ShortClaim : Prop := ∀ metric col : Str, shortName (metric ++ ' ' :: col) col = metric

/-- False, even for the example of the documentation, the airmass. -/
theorem short_false : ¬ ShortClaim ∧ shortName "Rms airmass".toList "airmass".toList = "R".toList ∧ shortName "Median night".toList "night".toList = "Media".toList := by
  refine ⟨?_, by decide, by decide⟩
  intro h
  have := h "Rms".toList "airmass".toList
  revert this
  decide

/-- Fractions: one for each threshold, named by the option at the same place; an exception exactly if there are fewer names. -/
theorem fractions_spec {T : Type} (sh : T → Str) (ts : List T) (os : List Str) :
    (fractions sh ts (some os) = .error "IndexError" ↔ os.length < ts.length) ∧
    (ts.length ≤ os.length → fractions sh ts (some os) = .ok (ts.zip (os.map (fun o => "FractionPop ".toList ++ o)))) ∧
    fractions sh ts none = .ok (ts.map (fun t => (t, "FractionPop ".toList ++ sh t))) := by
  refine ⟨?_, ?_, ?_⟩
  · induction ts generalizing os with
    | nil => simp [fractions]
    | cons t ts ih =>
      cases os with
      | nil => simp [fractions]
      | cons o os =>
        rw [fractions]
        cases h : fractions sh ts (some os) with
        | error e =>
          have := ih os
          rw [h] at this
          simp only [Except.map, List.length_cons, Nat.add_lt_add_iff_right]
          exact this
        | ok l =>
          have := ih os
          rw [h] at this
          simp only [Except.map, List.length_cons, Nat.add_lt_add_iff_right, reduceCtorEq, false_iff] at this ⊢
          exact this
  · intro hle
    induction ts generalizing os with
    | nil => simp [fractions]
    | cons t ts ih =>
      cases os with
      | nil => simp at hle
      | cons o os => rw [fractions, ih os (by simpa using hle)]; rfl
  · induction ts with
    | nil => simp [fractions]
    | cons t ts ih => rw [fractions, ih]; rfl

/-! ## C302: captions -/

/-- Caption of one label. -/
def labelText (l : Str) : Str := if l = [] then ", all visits.".toList else ", ".toList ++ l ++ ['.']

/-- Each caption has the labels of all filters up to its own. -/
theorem captions_spec (cap : Str) (ls : List Str) (i : ℕ) (h : i < ls.length) : (captions cap ls)[i]? = some (cap ++ (ls.take (i + 1)).flatMap labelText) := by
  induction ls generalizing cap i with
  | nil => simp at h
  | cons l ls ih =>
    have e : captions cap (l :: ls) = (cap ++ labelText l) :: captions (cap ++ labelText l) ls := rfl
    rw [e, List.take_succ_cons, List.flatMap_cons]
    generalize labelText l = t
    cases i with
    | zero => rw [List.take_zero, List.flatMap_nil, List.append_nil]; rfl
    | succ i => rw [List.getElem?_cons_succ, ih _ i (by simpa using h), List.append_assoc]

/-- The caption of each filter has its own label. -/
def CaptionClaim : Prop := ∀ (cap : Str) (ls : List Str) (i : ℕ) (l : Str), ls[i]? = some l → (captions cap ls)[i]? = some (cap ++ labelText l)

/-- False from the second filter on. -/
theorem caption_false : ¬ CaptionClaim ∧ ∀ (cap : Str) (ls : List Str) (i : ℕ) (l c : Str), 0 < i → ls[i]? = some l → (captions cap ls)[i]? = some c → (cap ++ labelText l).length < c.length := by
  have hl : ∀ l, 0 < (labelText l).length := by
    intro l
    unfold labelText
    split_ifs
    · decide
    · simp
  have key : ∀ (cap : Str) (ls : List Str) (i : ℕ) (l c : Str), 0 < i → ls[i]? = some l → (captions cap ls)[i]? = some c → (cap ++ labelText l).length < c.length := by
    intro cap ls i l c hi hls hc
    have hlt : i < ls.length := (List.getElem?_eq_some_iff.mp hls).1
    rw [captions_spec cap ls i hlt] at hc
    cases hc
    rw [List.take_add_one, hls, List.flatMap_append]
    obtain ⟨a, ls, rfl⟩ : ∃ a l', ls = a :: l' := by
      cases ls with
      | nil => simp at hlt
      | cons a l' => exact ⟨a, l', rfl⟩
    obtain ⟨j, rfl⟩ : ∃ j, i = j + 1 := ⟨i - 1, by omega⟩
    have := hl a
    simp only [List.take_succ_cons, List.flatMap_cons, Option.toList_some, List.flatMap_nil, List.length_append, List.length_nil]
    omega
  refine ⟨fun h => ?_, key⟩
  have h1 := h [] [['u'], ['g']] 1 ['g'] rfl
  have h2 := key [] [['u'], ['g']] 1 ['g'] _ (by omega) rfl h1
  exact absurd h2 (Nat.lt_irrefl _)

example : captions "Gap".toList ["u".toList, "g".toList] = ["Gap, u.".toList, "Gap, u., g.".toList] := by decide

/-- Visits of a subset without a label: always an exception if there is a condition. -/
theorem subset_label (label constraint : Option Str) : subsetLabel label constraint = .error "TypeError" ↔ label = none ∧ constraint ≠ none := by
  unfold subsetLabel
  split_ifs with h
  · simpa using h
  · simpa using h

end Verif.Batches
