import Verif.Model.Activations
import Mathlib.Tactic.Linarith
import Mathlib.Data.List.Forall2
import Mathlib.Data.List.Nodup
/-!
C60: the activations that `get_activations` finds.
-/
namespace Nilmtk

/-! ### Specification -/

/-- The appliance is on at row `i` of the chunk. -/
def OnAt (threshold : Rat) (chunk : PSeries) (i : Nat) : Prop := ∃ r, chunk[i]? = some r ∧ ∃ v, r.2 = some v ∧ threshold ≤ v

/-- Row `i` is there, and the appliance is not on. -/
def OffAt (threshold : Rat) (chunk : PSeries) (i : Nat) : Prop := i < chunk.length ∧ ¬ OnAt threshold chunk i

/-- Rows `a` to `b` (exclusive) are an on-period: on throughout, off just before and just after. -/
def OnPeriod (threshold : Rat) (chunk : PSeries) (a b : Nat) : Prop :=
  0 < a ∧ a < b ∧ OffAt threshold chunk (a - 1) ∧ (∀ i, a ≤ i → i < b → OnAt threshold chunk i) ∧ OffAt threshold chunk b

/-- Seconds between two rows. -/
def secsBetween (chunk : PSeries) (i j : Nat) : Rat :=
  (((((chunk[j]?).map Prod.fst).getD 0 - ((chunk[i]?).map Prod.fst).getD 0 : Int)) : Rat) / 1000000000

/-- Consecutive on-periods are merged when fewer than `minOff` seconds lie between them: `periods` are the pieces
(`first` row on, first row off again) of `chunk`. Every on-period lies in a piece, every piece begins and ends with an
on-period, the off-time between neighbours is at least `minOff`, off-times within a piece are shorter. -/
structure Pieces (threshold minOff : Rat) (chunk : PSeries) (periods : List (Nat × Nat)) : Prop where
  ordered : periods.Pairwise (fun p q => p.2 < q.1)
  begins : ∀ p ∈ periods, ∃ b, b ≤ p.2 ∧ OnPeriod threshold chunk p.1 b
  ends : ∀ p ∈ periods, ∃ a, p.1 ≤ a ∧ OnPeriod threshold chunk a p.2
  complete : ∀ a b, OnPeriod threshold chunk a b → ∃ p ∈ periods, p.1 ≤ a ∧ b ≤ p.2
  separated : 0 < minOff → periods.IsChain (fun p q => minOff ≤ secsBetween chunk p.2 q.1)
  smoothed : ∀ p ∈ periods, ∀ a b c d, OnPeriod threshold chunk a b → OnPeriod threshold chunk c d → p.1 ≤ a → b < c → d ≤ p.2 →
    (∀ i, b ≤ i → i < c → OffAt threshold chunk i) → 0 < minOff ∧ secsBetween chunk b c < minOff

/-! ### Lemmas -/

/-- Positions of the changes of size `v`, from row `i` on. -/
def changesFrom (v : Int) : Bool → Nat → List Bool → List Nat
  | _, _, [] => []
  | p, i, x :: xs => (if boolInt x - boolInt p = v then [i] else []) ++ changesFrom v x (i + 1) xs

theorem whereEq_cons (v : Int) (y : Option Int) (ys : List (Option Int)) :
    whereEq v (y :: ys) = (if y = some v then [0] else []) ++ (whereEq v ys).map (· + 1) := by
  unfold whereEq
  rw [List.length_cons, List.range_succ_eq_map, List.filter_cons, List.filter_map]
  have : (List.range ys.length).filter ((fun i => decide ((y :: ys)[i]? = some (some v))) ∘ Nat.succ) =
      (List.range ys.length).filter (fun i => decide (ys[i]? = some (some v))) := by
    apply List.filter_congr
    intro i _
    simp
  rw [this]
  by_cases h : y = some v <;> simp [h]

theorem whereEq_diffFrom (v : Int) (xs : List Bool) : ∀ (p : Bool) (i : Nat),
    (whereEq v (diffFrom p xs)).map (· + i) = changesFrom v p i xs := by
  induction xs with
  | nil => intro p i; rfl
  | cons x xs ih =>
    intro p i
    rw [diffFrom, whereEq_cons, changesFrom, ← ih x (i + 1), List.map_append, List.map_map]
    have : ((fun n => n + i) ∘ fun n => n + 1) = (fun n : Nat => n + (i + 1)) := by
      funext n; simp only [Function.comp]; omega
    rw [this]
    congr 1
    by_cases h : boolInt x - boolInt p = v <;> simp [h]

theorem whereEq_changes (v : Int) (x : Bool) (xs : List Bool) :
    whereEq v (stateChanges (x :: xs)) = changesFrom v x 1 xs := by
  rw [stateChanges, whereEq_cons, ← whereEq_diffFrom]
  simp

/-- The on-periods that end at row `i` or later; the state is the first row of the current on-period. -/
def periodsFrom : Option Nat → Nat → List Bool → List (Nat × Nat)
  | _, _, [] => []
  | none, i, true :: xs => periodsFrom (some i) (i + 1) xs
  | none, i, false :: xs => periodsFrom none (i + 1) xs
  | some a, i, true :: xs => periodsFrom (some a) (i + 1) xs
  | some a, i, false :: xs => (a, i) :: periodsFrom none (i + 1) xs

theorem periodsFrom_bounds (xs : List Bool) : ∀ (st : Option Nat) (i : Nat), (∀ a ∈ st, a < i) →
    (∀ p ∈ periodsFrom st i xs, (st = none → i ≤ p.1) ∧ (∀ a ∈ st, a ≤ p.1) ∧ p.1 < p.2 ∧ i ≤ p.2) ∧
    (periodsFrom st i xs).Pairwise (fun p q => p.2 < q.1) := by
  induction xs with
  | nil => intro st i _; cases st <;> simp [periodsFrom]
  | cons x xs ih =>
    intro st i hst
    cases st with
    | none =>
      cases x with
      | true =>
        rw [periodsFrom]
        obtain ⟨h1, h2⟩ := ih (some i) (i + 1) (by simp)
        refine ⟨fun p hp => ?_, h2⟩
        obtain ⟨-, b, c, d⟩ := h1 p hp
        have := b i (by simp)
        exact ⟨fun _ => this, by simp, c, by omega⟩
      | false =>
        rw [periodsFrom]
        obtain ⟨h1, h2⟩ := ih none (i + 1) (by simp)
        refine ⟨fun p hp => ?_, h2⟩
        obtain ⟨b, -, c, d⟩ := h1 p hp
        have := b rfl
        exact ⟨fun _ => by omega, by simp, c, by omega⟩
    | some a =>
      have ha := hst a (by simp)
      cases x with
      | true =>
        rw [periodsFrom]
        obtain ⟨h1, h2⟩ := ih (some a) (i + 1) (by simp; omega)
        refine ⟨fun p hp => ?_, h2⟩
        obtain ⟨-, b, c, d⟩ := h1 p hp
        exact ⟨by simp, b, c, by omega⟩
      | false =>
        rw [periodsFrom]
        obtain ⟨h1, h2⟩ := ih none (i + 1) (by simp)
        refine ⟨fun p hp => ?_, List.pairwise_cons.2 ⟨fun p hp => ?_, h2⟩⟩
        · rcases List.mem_cons.1 hp with rfl | hp
          · exact ⟨by simp, by simp, ha, le_refl _⟩
          · obtain ⟨b, -, c, d⟩ := h1 p hp
            have := b rfl
            refine ⟨by simp, ?_, c, by omega⟩
            intro a' ha'
            have : a = a' := by simpa using ha'
            omega
        · have := (h1 p hp).1 rfl
          simp only
          omega

/-- The switch events of the rows from `i` on, in terms of the on-periods: the last switch-on may have no switch-off. -/
theorem events_periods (xs : List Bool) : ∀ (st : Option Nat) (i : Nat), (∀ a ∈ st, a < i) →
    changesFrom (-1) st.isSome i xs = (periodsFrom st i xs).map Prod.snd ∧
    ∃ d : List Nat, st.toList ++ changesFrom 1 st.isSome i xs = (periodsFrom st i xs).map Prod.fst ++ d ∧ d.length ≤ 1 ∧
      ∀ x ∈ d, ∀ p ∈ periodsFrom st i xs, p.2 < x := by
  induction xs with
  | nil => intro st i _; cases st <;> simp [periodsFrom, changesFrom]
  | cons x xs ih =>
    intro st i hst
    cases st with
    | none =>
      cases x with
      | true =>
        rw [periodsFrom, changesFrom, changesFrom]
        obtain ⟨h1, d, h2, h3, h4⟩ := ih (some i) (i + 1) (by simp)
        exact ⟨by simpa [boolInt] using h1, d, by simpa [boolInt] using h2, h3, h4⟩
      | false =>
        rw [periodsFrom, changesFrom, changesFrom]
        obtain ⟨h1, d, h2, h3, h4⟩ := ih none (i + 1) (by simp)
        exact ⟨by simpa [boolInt] using h1, d, by simpa [boolInt] using h2, h3, h4⟩
    | some a =>
      have ha := hst a (by simp)
      cases x with
      | true =>
        rw [periodsFrom, changesFrom, changesFrom]
        obtain ⟨h1, d, h2, h3, h4⟩ := ih (some a) (i + 1) (by simp; omega)
        exact ⟨by simpa [boolInt] using h1, d, by simpa [boolInt] using h2, h3, h4⟩
      | false =>
        rw [periodsFrom, changesFrom, changesFrom]
        obtain ⟨h1, d, h2, h3, h4⟩ := ih none (i + 1) (by simp)
        refine ⟨by simpa [boolInt] using h1, d, by simpa [boolInt] using h2, h3, ?_⟩
        intro x hx p hp
        rcases List.mem_cons.1 hp with rfl | hp
        · -- the dangling switch-on comes after row i
          have hm : x ∈ changesFrom 1 false (i + 1) xs := by
            have : x ∈ (periodsFrom none (i + 1) xs).map Prod.fst ++ d := by simp [hx]
            rw [← h2] at this
            simpa using this
          have hge : ∀ (ys : List Bool) (b : Bool) (j : Nat), ∀ y ∈ changesFrom 1 b j ys, j ≤ y := by
            intro ys
            induction ys with
            | nil => intro b j y hy; simp [changesFrom] at hy
            | cons z ys ihy =>
              intro b j y hy
              rw [changesFrom, List.mem_append] at hy
              rcases hy with hy | hy
              · split at hy
                · simp at hy; omega
                · simp at hy
              · have := ihy _ _ y hy
                omega
          have := hge _ _ _ x hm
          simp only
          omega
        · exact h4 x hx p hp

/-- The same when the rows before `i` were all on: the first switch-off has no switch-on. -/
theorem events_on (xs : List Bool) : ∀ i : Nat,
    (changesFrom (-1) true i xs = [] ∧ changesFrom 1 true i xs = []) ∨
    ∃ o ys, i ≤ o ∧ changesFrom (-1) true i xs = o :: changesFrom (-1) false (o + 1) ys ∧
      changesFrom 1 true i xs = changesFrom 1 false (o + 1) ys ∧ (∃ n, xs = List.replicate n true ++ false :: ys ∧ o = i + n) := by
  induction xs with
  | nil => intro i; left; simp [changesFrom]
  | cons x xs ih =>
    intro i
    cases x with
    | true =>
      rcases ih (i + 1) with ⟨h1, h2⟩ | ⟨o, ys, h0, h1, h2, n, h3, h4⟩
      · left; simp [changesFrom, h1, h2, boolInt]
      · right
        refine ⟨o, ys, by omega, by simp [changesFrom, h1, boolInt], by simp [changesFrom, h2, boolInt], n + 1, ?_, by omega⟩
        rw [h3, List.replicate_succ, List.cons_append]
    | false =>
      right
      refine ⟨i, xs, le_refl _, by simp [changesFrom, boolInt], by simp [changesFrom, boolInt], 0, by simp, by simp⟩

/-- The on-periods of a list of states. -/
def periodsOf (w : List Bool) : List (Nat × Nat) :=
  match w.dropWhile (fun b => b) with
  | [] => []
  | _ :: ys => periodsFrom none ((w.takeWhile (fun b => b)).length + 1) ys

theorem aligned_events (rs : List (Nat × Nat)) (d : List Nat) (hd : d.length ≤ 1) (h1 : ∀ x ∈ d, ∀ p ∈ rs, p.2 < x)
    (h2 : rs.Pairwise (fun p q => p.2 < q.1)) (h3 : ∀ p ∈ rs, p.1 < p.2) :
    (rs = [] → alignEvents (rs.map Prod.fst ++ d) (rs.map Prod.snd) = none) ∧
    (rs ≠ [] → alignEvents (rs.map Prod.fst ++ d) (rs.map Prod.snd) = some (rs.map Prod.fst, rs.map Prod.snd)) ∧
    (∀ o, (∀ p ∈ rs, o < p.1) → (∀ x ∈ d, o < x) →
      (rs = [] → alignEvents (rs.map Prod.fst ++ d) (o :: rs.map Prod.snd) = none) ∧
      (rs ≠ [] → alignEvents (rs.map Prod.fst ++ d) (o :: rs.map Prod.snd) = some (rs.map Prod.fst, rs.map Prod.snd))) := by
  have key : ∀ on ons, rs.map Prod.fst ++ d = on :: ons → rs ≠ [] →
      (if (rs.map Prod.snd).getLastD 0 < (on :: ons).getLastD 0 then (on :: ons).dropLast else on :: ons) = rs.map Prod.fst := by
    intro on ons he hrs
    rw [← he]
    obtain ⟨l, p, rfl⟩ := List.eq_nil_or_concat rs |>.resolve_left hrs
    have hp := h3 p (by simp)
    match d, hd with
    | [], _ =>
      rw [List.append_nil, if_neg (by simp; omega)]
    | [x], _ =>
      have := h1 x (by simp) p (by simp)
      simp [this]
  refine ⟨?_, ?_, ?_⟩
  · rintro rfl
    cases d <;> simp [alignEvents]
  · intro hrs
    cases rs with
    | nil => exact absurd rfl hrs
    | cons p rs =>
      have hp := h3 p (by simp)
      have hk := key p.1 (rs.map Prod.fst ++ d) (by simp) hrs
      simp only [List.map_cons] at hk
      simp only [List.map_cons, List.cons_append, alignEvents, if_neg (show ¬ p.2 < p.1 by omega), hk]
      simp
  · intro o ho hod
    refine ⟨?_, ?_⟩
    · rintro rfl
      match d, hd with
      | [], _ => simp [alignEvents]
      | [x], _ =>
        have := hod x (by simp)
        simp [alignEvents, this]
    · intro hrs
      cases rs with
      | nil => exact absurd rfl hrs
      | cons p rs =>
        have hop := ho p (by simp)
        have hk := key p.1 (rs.map Prod.fst ++ d) (by simp) hrs
        simp only [List.map_cons] at hk
        simp only [List.map_cons, List.cons_append, alignEvents, if_pos hop, hk]
        simp

theorem takeWhile_replicate (n : Nat) (ys : List Bool) :
    (List.replicate n true ++ false :: ys).takeWhile (fun b => b) = List.replicate n true ∧
    (List.replicate n true ++ false :: ys).dropWhile (fun b => b) = false :: ys := by
  induction n with
  | zero => simp
  | succ n ih => simp [List.replicate_succ, ih]

theorem dropWhile_all_true (w : List Bool) (h : ∀ x ∈ w, x = true) : w.dropWhile (fun b => b) = [] := by
  induction w with
  | nil => rfl
  | cons x w ih =>
    rw [h x (by simp), List.dropWhile_cons, if_pos rfl]
    exact ih (fun y hy => h y (by simp [hy]))

theorem bools_cases (w : List Bool) : (∀ x ∈ w, x = true) ∨ ∃ n ys, w = List.replicate n true ++ false :: ys := by
  induction w with
  | nil => left; simp
  | cons x w ih =>
    cases x with
    | false => exact Or.inr ⟨0, w, rfl⟩
    | true =>
      rcases ih with h | ⟨n, ys, rfl⟩
      · left; simpa using h
      · exact Or.inr ⟨n + 1, ys, by rw [List.replicate_succ, List.cons_append]⟩

theorem periodsOf_bounds (w : List Bool) :
    (∀ p ∈ periodsOf w, p.1 < p.2) ∧ (periodsOf w).Pairwise (fun p q => p.2 < q.1) := by
  unfold periodsOf
  split
  · simp
  · obtain ⟨h1, h2⟩ := periodsFrom_bounds _ none _ (by simp)
    exact ⟨fun p hp => (h1 p hp).2.2.1, h2⟩

/-- After the alignment, the events are the on-periods. -/
theorem align_periods (w : List Bool) :
    alignEvents (whereEq 1 (stateChanges w)) (whereEq (-1) (stateChanges w)) =
      if periodsOf w = [] then none else some ((periodsOf w).map Prod.fst, (periodsOf w).map Prod.snd) := by
  cases w with
  | nil => rfl
  | cons x xs =>
    obtain ⟨hb1, hb2⟩ := periodsOf_bounds (x :: xs)
    rw [whereEq_changes, whereEq_changes]
    cases x with
    | false =>
      have hp : periodsOf (false :: xs) = periodsFrom none 1 xs := by simp [periodsOf]
      obtain ⟨h1, d, h2, h3, h4⟩ := events_periods xs none 1 (by simp)
      simp only [Option.isSome_none, Option.toList_none, List.nil_append] at h1 h2
      rw [← hp] at h1 h2 h4
      rw [h1, h2]
      obtain ⟨k1, k2, -⟩ := aligned_events _ d h3 h4 hb2 hb1
      split
      · exact k1 ‹_›
      · exact k2 ‹_›
    | true =>
      rcases events_on xs 1 with ⟨h1, h2⟩ | ⟨o, ys, h0, h1, h2, n, h3, h4⟩
      · rw [h1, h2]
        have : periodsOf (true :: xs) = [] := by
          by_contra hne
          -- all rows are on
          have hall : ∀ (ys : List Bool) (i : Nat), changesFrom (-1) true i ys = [] → ∀ y ∈ ys, y = true := by
            intro ys
            induction ys with
            | nil => simp
            | cons y ys ih =>
              intro i h z hz
              rw [changesFrom, List.append_eq_nil_iff] at h
              cases y with
              | true =>
                rcases List.mem_cons.1 hz with rfl | hz
                · rfl
                · exact ih _ h.2 z hz
              | false => simp [boolInt] at h
          have := hall xs 1 h1
          apply hne
          unfold periodsOf
          have hd : (true :: xs).dropWhile (fun b => b) = [] := by
            apply dropWhile_all_true
            intro y hy
            rcases List.mem_cons.1 hy with rfl | hy
            · rfl
            · exact this y hy
          rw [hd]
        rw [this]
        simp [alignEvents]
      · have hp : periodsOf (true :: xs) = periodsFrom none (o + 1) ys := by
          have he : true :: xs = List.replicate (n + 1) true ++ false :: ys := by
            rw [h3, List.replicate_succ, List.cons_append]
          unfold periodsOf
          rw [he, (takeWhile_replicate _ _).1, (takeWhile_replicate _ _).2]
          simp only [List.length_replicate]
          congr 1
          omega
        obtain ⟨e1, d, e2, e3, e4⟩ := events_periods ys none (o + 1) (by simp)
        obtain ⟨b1, -⟩ := periodsFrom_bounds ys none (o + 1) (by simp)
        simp only [Option.isSome_none, Option.toList_none, List.nil_append] at e1 e2
        have hd : ∀ x ∈ d, o < x := by
          intro x hx
          have hm : x ∈ changesFrom 1 false (o + 1) ys := by rw [e2]; simp [hx]
          have hge : ∀ (ys : List Bool) (b : Bool) (j : Nat), ∀ y ∈ changesFrom 1 b j ys, j ≤ y := by
            intro ys
            induction ys with
            | nil => intro b j y hy; simp [changesFrom] at hy
            | cons z ys ihy =>
              intro b j y hy
              rw [changesFrom, List.mem_append] at hy
              rcases hy with hy | hy
              · split at hy
                · simp at hy; omega
                · simp at hy
              · have := ihy _ _ y hy
                omega
          have := hge _ _ _ x hm
          omega
        rw [← hp] at e1 e2 e4 b1
        rw [h1, h2, e1, e2]
        obtain ⟨-, -, k⟩ := aligned_events _ d e3 e4 hb2 hb1
        obtain ⟨k1, k2⟩ := k o (fun p hp => by have := (b1 p hp).1 rfl; omega) hd
        split
        · exact k1 ‹_›
        · exact k2 ‹_›

/-- An on-period of a list of states. -/
def BPeriod (w : List Bool) (a b : Nat) : Prop :=
  0 < a ∧ a < b ∧ w[a - 1]? = some false ∧ (∀ i, a ≤ i → i < b → w[i]? = some true) ∧ w[b]? = some false

theorem mem_periodsFrom (w : List Bool) (xs : List Bool) : ∀ i, w.drop i = xs →
    (0 < i → w[i - 1]? = some false → ∀ a b, (a, b) ∈ periodsFrom none i xs ↔ BPeriod w a b ∧ i ≤ a) ∧
    (∀ a0, 0 < a0 → a0 < i → w[a0 - 1]? = some false → (∀ j, a0 ≤ j → j < i → w[j]? = some true) →
      ∀ a b, (a, b) ∈ periodsFrom (some a0) i xs ↔ BPeriod w a b ∧ a0 ≤ a) := by
  induction xs with
  | nil =>
    intro i hw
    have hlen : w.length ≤ i := by simpa using hw
    have hlt : ∀ b, w[b]? = some false → b < w.length := by
      intro b hb
      by_contra h
      rw [List.getElem?_eq_none (by omega)] at hb
      cases hb
    refine ⟨?_, ?_⟩
    · intro _ _ a b
      simp only [periodsFrom, List.not_mem_nil, false_iff]
      rintro ⟨⟨_, h1, _, _, h2⟩, h3⟩
      have := hlt b h2
      omega
    · intro a0 _ _ _ hall a b
      simp only [periodsFrom, List.not_mem_nil, false_iff]
      rintro ⟨⟨_, h1, _, _, h2⟩, h3⟩
      have := hlt b h2
      have := hall b (by omega) (by omega)
      rw [this] at h2
      cases h2
  | cons x xs ih =>
    intro i hw
    have hx : w[i]? = some x := by
      have : (w.drop i)[0]? = some x := by rw [hw]; rfl
      simpa using this
    have hw' : w.drop (i + 1) = xs := by
      rw [← List.drop_drop, hw]; rfl
    obtain ⟨ih1, ih2⟩ := ih (i + 1) hw'
    refine ⟨?_, ?_⟩
    · intro hi hprev a b
      cases x with
      | true =>
        rw [periodsFrom]
        exact ih2 i hi (by omega) hprev (fun j h1 h2 => by rw [show j = i by omega]; exact hx) a b
      | false =>
        rw [periodsFrom, ih1 (by omega) (by simpa using hx)]
        constructor
        · rintro ⟨h1, h2⟩; exact ⟨h1, by omega⟩
        · rintro ⟨h1, h2⟩
          refine ⟨h1, ?_⟩
          rcases Nat.eq_or_lt_of_le h2 with h | h
          · subst h
            have := h1.2.2.2.1 i (le_refl _) h1.2.1
            rw [this] at hx
            cases hx
          · omega
    · intro a0 ha0 ha0i hprev hall a b
      cases x with
      | true =>
        rw [periodsFrom]
        apply ih2 a0 ha0 (by omega) hprev
        intro j h1 h2
        rcases Nat.eq_or_lt_of_le (Nat.le_of_lt_succ h2) with h | h
        · rw [h]; exact hx
        · exact hall j h1 h
      | false =>
        rw [periodsFrom, List.mem_cons, ih1 (by omega) (by simpa using hx)]
        constructor
        · rintro (h | ⟨h1, h2⟩)
          · cases h
            exact ⟨⟨ha0, ha0i, hprev, hall, hx⟩, le_refl _⟩
          · exact ⟨h1, by omega⟩
        · rintro ⟨h1, h2⟩
          by_cases hai : i + 1 ≤ a
          · exact Or.inr ⟨h1, hai⟩
          · left
            have hai' : a < i := by
              rcases Nat.lt_or_ge a i with h | h
              · exact h
              · have : a = i := by omega
                subst this
                have := h1.2.2.2.1 a (le_refl _) h1.2.1
                rw [this] at hx
                cases hx
            have ha : a = a0 := by
              by_contra hne
              have := hall (a - 1) (by omega) (by omega)
              have h3 := h1.2.2.1
              rw [this] at h3
              cases h3
            have hb : b = i := by
              rcases Nat.lt_trichotomy b i with h | h | h
              · have hh := hall b (by have := h1.2.1; omega) h
                have h5 := h1.2.2.2.2
                rw [hh] at h5
                cases h5
              · exact h
              · have := h1.2.2.2.1 i (by omega) h
                rw [this] at hx
                cases hx
            rw [ha, hb]

theorem mem_periodsOf (w : List Bool) (a b : Nat) : (a, b) ∈ periodsOf w ↔ BPeriod w a b := by
  unfold periodsOf
  rcases bools_cases w with hall | ⟨n, ys, rfl⟩
  · rw [dropWhile_all_true w hall]
    simp only [List.not_mem_nil, false_iff]
    intro h
    have := hall false (List.mem_of_getElem? h.2.2.2.2)
    cases this
  · rw [(takeWhile_replicate n ys).1, (takeWhile_replicate n ys).2]
    simp only [List.length_replicate]
    have hget : (List.replicate n true ++ false :: ys)[n]? = some false := by simp
    have hdrop : (List.replicate n true ++ false :: ys).drop (n + 1) = ys := by
      rw [List.drop_append]; simp
    rw [((mem_periodsFrom _ ys (n + 1) hdrop).1 (by omega) (by simpa using hget)) a b]
    constructor
    · exact fun h => h.1
    · intro h
      refine ⟨h, ?_⟩
      by_contra hlt
      have ha := h.1
      have h3 := h.2.2.1
      rw [List.getElem?_append_left (by simp; omega), List.getElem?_replicate, if_pos (by omega)] at h3
      cases h3

theorem whenOnAbove_true (t : Rat) (chunk : PSeries) (i : Nat) : (whenOnAbove t chunk)[i]? = some true ↔ OnAt t chunk i := by
  unfold whenOnAbove OnAt
  rw [List.getElem?_map]
  cases chunk[i]? with
  | none => simp
  | some r => cases h : r.2 <;> simp [h]

theorem whenOnAbove_false (t : Rat) (chunk : PSeries) (i : Nat) : (whenOnAbove t chunk)[i]? = some false ↔ OffAt t chunk i := by
  unfold OffAt
  rw [← whenOnAbove_true]
  have hl : (whenOnAbove t chunk).length = chunk.length := by simp [whenOnAbove]
  rw [← hl]
  rcases Nat.lt_or_ge i (whenOnAbove t chunk).length with h | h
  · rw [List.getElem?_eq_getElem h]
    cases (whenOnAbove t chunk)[i] <;> simp [h]
  · rw [List.getElem?_eq_none h]
    simp; omega

theorem bperiod_iff (t : Rat) (chunk : PSeries) (a b : Nat) : BPeriod (whenOnAbove t chunk) a b ↔ OnPeriod t chunk a b := by
  unfold BPeriod OnPeriod
  simp only [whenOnAbove_true, whenOnAbove_false]

/-- Merging of neighbouring periods: `ok b c` says that the off-time from `b` to `c` is long enough. -/
def mergeFrom (ok : Nat → Nat → Bool) : Nat → Nat → List (Nat × Nat) → List (Nat × Nat)
  | a, b, [] => [(a, b)]
  | a, b, (c, d) :: rest => if ok b c then (a, b) :: mergeFrom ok c d rest else mergeFrom ok a d rest

theorem merge_props (ok : Nat → Nat → Bool) (rest : List (Nat × Nat)) : ∀ a x b,
    a ≤ x → x < b → ((x, b) :: rest).Pairwise (fun p q => p.2 < q.1) → (∀ p ∈ rest, p.1 < p.2) →
    (∀ p ∈ mergeFrom ok a b rest, (p.1 = a ∨ ∃ r ∈ rest, p.1 = r.1 ∧ r.2 ≤ p.2) ∧ b ≤ p.2 ∧
      (p.1 = a ∨ b < p.1) ∧ ∃ r ∈ (x, b) :: rest, p.2 = r.2 ∧ p.1 ≤ r.1) ∧
    (mergeFrom ok a b rest).Pairwise (fun p q => p.2 < q.1) ∧
    (∃ p ∈ mergeFrom ok a b rest, p.1 = a ∧ b ≤ p.2) ∧
    (∀ r ∈ rest, ∃ p ∈ mergeFrom ok a b rest, p.1 ≤ r.1 ∧ r.2 ≤ p.2) ∧
    (mergeFrom ok a b rest).IsChain (fun p q => ok p.2 q.1 = true) ∧ ((mergeFrom ok a b rest).head?.map Prod.fst = some a) ∧
    (∀ p ∈ mergeFrom ok a b rest, ∀ l1 a' b' c d l2, (x, b) :: rest = l1 ++ (a', b') :: (c, d) :: l2 →
      p.1 ≤ a' → d ≤ p.2 → ok b' c = false) := by
  induction rest with
  | nil =>
    intro a x b hax hxb _ _
    refine ⟨by simp [mergeFrom]; exact hax, by simp [mergeFrom], by simp [mergeFrom], by simp, by simp [mergeFrom],
      by simp [mergeFrom], ?_⟩
    intro p _ l1 a' b' c d l2 h
    have := congrArg List.length h
    simp at this
    omega
  | cons r rest ih =>
    obtain ⟨c, d⟩ := r
    intro a x b hax hxb hord hlt
    rw [List.pairwise_cons] at hord
    have hbc : b < c := hord.1 (c, d) (by simp)
    have hcd : c < d := hlt (c, d) (by simp)
    rw [mergeFrom]
    cases hok : ok b c with
    | true =>
      obtain ⟨h1, h2, h3, h4, h5, h6, h7⟩ := ih c c d (le_refl _) hcd hord.2 (fun p hp => hlt p (by simp [hp]))
      have hge : ∀ p ∈ mergeFrom ok c d rest, c ≤ p.1 := by
        intro p hp
        rcases (h1 p hp).2.2.1 with h | h <;> omega
      simp only [if_true]
      refine ⟨?_, ?_, ?_, ?_, ?_, ?_, ?_⟩
      · intro p hp
        rcases List.mem_cons.1 hp with rfl | hp
        · exact ⟨Or.inl rfl, le_refl _, Or.inl rfl, (x, b), by simp, rfl, hax⟩
        · obtain ⟨k1, k2, k3, r, k4, k5⟩ := h1 p hp
          refine ⟨?_, by omega, Or.inr (by have := hge p hp; omega), r, List.mem_cons_of_mem _ k4, k5⟩
          rcases k1 with k1 | ⟨r, k1, k6⟩
          · exact Or.inr ⟨(c, d), by simp, k1, k2⟩
          · exact Or.inr ⟨r, by simp [k1], k6⟩
      · exact List.pairwise_cons.2 ⟨fun p hp => by have := hge p hp; simp only; omega, h2⟩
      · exact ⟨(a, b), by simp, rfl, le_refl _⟩
      · intro r hr
        rcases List.mem_cons.1 hr with rfl | hr
        · obtain ⟨p, hp, e1, e2⟩ := h3
          exact ⟨p, by simp [hp], by simp [e1], e2⟩
        · obtain ⟨p, hp, e⟩ := h4 r hr
          exact ⟨p, by simp [hp], e⟩
      · cases hm : mergeFrom ok c d rest with
        | nil => simp
        | cons p ps =>
          rw [hm] at h5 h6
          simp only [List.head?_cons, Option.map_some, Option.some.injEq] at h6
          exact List.isChain_cons_cons.2 ⟨by rw [h6]; exact hok, h5⟩
      · simp
      · intro p hp l1 a' b' c' d' l2 he hpa hdp
        cases l1 with
        | nil =>
          simp only [List.nil_append, List.cons.injEq, Prod.mk.injEq] at he
          obtain ⟨⟨rfl, rfl⟩, ⟨rfl, rfl⟩, rfl⟩ := he
          exfalso
          rcases List.mem_cons.1 hp with rfl | hp
          · simp only at hdp; omega
          · have := hge p hp; omega
        | cons l l1 =>
          simp only [List.cons_append, List.cons.injEq] at he
          rcases List.mem_cons.1 hp with rfl | hp
          · exfalso
            have : (c', d') ∈ (c, d) :: rest := by rw [he.2]; simp
            have h1 := hord.1 _ this
            have h2 := hlt _ this
            simp only at h1 h2 hdp
            omega
          · exact h7 p hp l1 a' b' c' d' l2 he.2 hpa hdp
    | false =>
      obtain ⟨h1, h2, h3, h4, h5, h6, h7⟩ := ih a c d (by omega) hcd hord.2 (fun p hp => hlt p (by simp [hp]))
      simp only [Bool.false_eq_true, if_false]
      refine ⟨?_, h2, ?_, ?_, h5, h6, ?_⟩
      · intro p hp
        obtain ⟨k1, k2, k3, r, k4, k5⟩ := h1 p hp
        refine ⟨?_, by omega, ?_, r, List.mem_cons_of_mem _ k4, k5⟩
        · rcases k1 with k1 | ⟨r, k1, k6⟩
          · exact Or.inl k1
          · exact Or.inr ⟨r, by simp [k1], k6⟩
        · rcases k3 with k3 | k3
          · exact Or.inl k3
          · exact Or.inr (by omega)
      · obtain ⟨p, hp, e1, e2⟩ := h3
        exact ⟨p, hp, e1, by omega⟩
      · intro r hr
        rcases List.mem_cons.1 hr with rfl | hr
        · obtain ⟨p, hp, e1, e2⟩ := h3
          exact ⟨p, hp, by simp only; omega, e2⟩
        · exact h4 r hr
      · intro p hp l1 a' b' c' d' l2 he hpa hdp
        cases l1 with
        | nil =>
          simp only [List.nil_append, List.cons.injEq, Prod.mk.injEq] at he
          obtain ⟨⟨rfl, rfl⟩, ⟨rfl, rfl⟩, rfl⟩ := he
          exact hok
        | cons l l1 =>
          simp only [List.cons_append, List.cons.injEq] at he
          exact h7 p hp l1 a' b' c' d' l2 he.2 hpa hdp

theorem takeAt_succ (x : Nat) (xs is : List Nat) : takeAt (x :: xs) (is.map (· + 1)) = takeAt xs is := by
  unfold takeAt
  rw [List.filterMap_map]
  rfl

theorem takeAt_append (xs is js : List Nat) : takeAt xs (is ++ js) = takeAt xs is ++ takeAt xs js := by
  unfold takeAt
  rw [List.filterMap_append]

theorem takeAt_zero (x : Nat) (xs is : List Nat) : takeAt (x :: xs) (0 :: is.map (· + 1)) = x :: takeAt xs is := by
  rw [← takeAt_succ x xs is]
  rfl

theorem longGaps_cons (chunk : PSeries) (m : Rat) (a b c d : Nat) (rest : List (Nat × Nat)) :
    longGaps chunk m (a :: c :: rest.map Prod.fst) (b :: d :: rest.map Prod.snd) =
      (if m ≤ secsOf (timeAt chunk c - timeAt chunk b) then [0] else []) ++
        (longGaps chunk m (c :: rest.map Prod.fst) (d :: rest.map Prod.snd)).map (· + 1) := by
  unfold longGaps
  simp only [List.tail_cons, List.dropLast_cons_cons, List.zipWith_cons_cons, List.length_cons]
  rw [List.range_succ_eq_map, List.filter_cons, List.filter_map]
  have : ∀ (n : Nat) (x : Rat) (l : List Rat), (List.range n).filter ((fun i => decide (m ≤ (x :: l).getD i 0)) ∘ Nat.succ) =
      (List.range n).filter (fun i => decide (m ≤ l.getD i 0)) := by
    intro n x l
    apply List.filter_congr
    intro i _
    simp
  rw [this]
  by_cases h : m ≤ secsOf (timeAt chunk c - timeAt chunk b) <;> simp [h]

/-- The smoothed events are the merged periods. -/
theorem smooth_eq (chunk : PSeries) (m : Rat) (rest : List (Nat × Nat)) : ∀ a b,
    let ok := fun b c => decide (m ≤ secsOf (timeAt chunk c - timeAt chunk b))
    let gaps := longGaps chunk m (a :: rest.map Prod.fst) (b :: rest.map Prod.snd)
    takeAt (a :: rest.map Prod.fst) (0 :: gaps.map (· + 1)) = (mergeFrom ok a b rest).map Prod.fst ∧
    takeAt (b :: rest.map Prod.snd) (gaps ++ [(b :: rest.map Prod.snd).length - 1]) = (mergeFrom ok a b rest).map Prod.snd := by
  have hstart : ∀ (ok : Nat → Nat → Bool) (rest : List (Nat × Nat)) (a a' b : Nat),
      ((mergeFrom ok a b rest).map Prod.fst).tail = ((mergeFrom ok a' b rest).map Prod.fst).tail ∧
      (mergeFrom ok a b rest).map Prod.snd = (mergeFrom ok a' b rest).map Prod.snd ∧
      (mergeFrom ok a b rest).map Prod.fst = a :: ((mergeFrom ok a b rest).map Prod.fst).tail := by
    intro ok rest
    induction rest with
    | nil => intro a a' b; simp [mergeFrom]
    | cons r rest ih =>
      intro a a' b
      obtain ⟨c, d⟩ := r
      rw [mergeFrom, mergeFrom]
      cases ok b c with
      | true => simp
      | false => simpa using ih a a' d
  induction rest with
  | nil =>
    intro a b
    simp [longGaps, takeAt, mergeFrom]
  | cons r rest ih =>
    obtain ⟨c, d⟩ := r
    intro a b
    simp only [List.map_cons]
    obtain ⟨ih1, ih2⟩ := ih c d
    rw [longGaps_cons]
    generalize hg : longGaps chunk m (c :: rest.map Prod.fst) (d :: rest.map Prod.snd) = gaps at *
    have ih1' : takeAt (rest.map Prod.fst) gaps =
        ((mergeFrom (fun b c => decide (m ≤ secsOf (timeAt chunk c - timeAt chunk b))) c d rest).map Prod.fst).tail := by
      rw [← ih1]
      rw [takeAt_zero]; rfl
    have ih2' : takeAt (b :: d :: rest.map Prod.snd) (gaps.map (· + 1) ++ [(b :: d :: rest.map Prod.snd).length - 1]) =
        (mergeFrom (fun b c => decide (m ≤ secsOf (timeAt chunk c - timeAt chunk b))) c d rest).map Prod.snd := by
      rw [← ih2]
      have : (gaps.map (· + 1) ++ [(b :: d :: rest.map Prod.snd).length - 1]) =
          (gaps ++ [(d :: rest.map Prod.snd).length - 1]).map (· + 1) := by simp
      rw [this, takeAt_succ]
    rw [mergeFrom]
    by_cases hok : m ≤ secsOf (timeAt chunk c - timeAt chunk b)
    · simp only [if_pos hok, decide_eq_true hok, if_true]
      refine ⟨?_, ?_⟩
      · rw [takeAt_zero, List.map_cons, ← ih1]
        rfl
      · rw [List.append_assoc, takeAt_append, ih2']
        rfl
    · simp only [if_neg hok, decide_eq_false hok, Bool.false_eq_true, if_false, List.nil_append]
      refine ⟨?_, ?_⟩
      · rw [takeAt_zero, takeAt_succ, ih1', (hstart _ rest a c d).2.2, (hstart _ rest a c d).1]
      · rw [ih2', (hstart _ rest a c d).2.1]

/-! ### Theorems -/

/-- Rows `lo` (inclusive) to `hi` (exclusive) of the chunk, as far as they are there. -/
def rowsBetween (chunk : PSeries) (lo hi : Nat) : PSeries := (chunk.drop lo).take (hi - lo)

/-- The activation for a piece: `1 + border` rows before it, `border` rows after it. -/
def activationOf (chunk : PSeries) (border : Nat) (p : Nat × Nat) : PSeries :=
  rowsBetween chunk (p.1 - (1 + border)) (p.2 + border)

theorem loop_eq (chunk : PSeries) (minOn : Rat) (border : Nat) (ps : List (Nat × Nat)) :
    activationLoop chunk minOn border ps =
      ((ps.filter (fun p => decide (minOn ≤ secsBetween chunk p.1 p.2))).map (activationOf chunk border)).filter
        (fun s => s.all (fun r => r.2.isSome)) := by
  induction ps with
  | nil => rfl
  | cons p ps ih =>
    obtain ⟨on, off⟩ := p
    have hs : secsOf (timeAt chunk off - timeAt chunk on) = secsBetween chunk on off := rfl
    have ha : ilocSlice chunk (if (on : Int) - (1 + border) < 0 then 0 else (on : Int) - (1 + border)).toNat (off + border) =
        activationOf chunk border (on, off) := by
      have : (if (on : Int) - (1 + border) < 0 then 0 else (on : Int) - (1 + border)).toNat = on - (1 + border) := by
        split <;> omega
      rw [this]
      unfold ilocSlice activationOf rowsBetween
      rw [List.drop_take]
    rw [activationLoop, hs, List.filter_cons]
    simp only [ha, ih]
    by_cases h1 : secsBetween chunk on off < minOn
    · rw [if_pos h1, decide_eq_false (not_le.2 h1)]
      simp
    · rw [if_neg h1, decide_eq_true (not_lt.1 h1), if_pos rfl, List.map_cons, List.filter_cons]
      have hn : anyNull (activationOf chunk border (on, off)) =
          !(activationOf chunk border (on, off)).all (fun r => r.2.isSome) := by
        unfold anyNull
        rw [List.all_eq_not_any_not]
        simp [Option.not_isSome]
      rw [hn]
      cases (activationOf chunk border (on, off)).all (fun r => r.2.isSome) <;> simp

/-- `get_activations` never fails an assertion. It splits the on-periods of the chunk that begin and end in it into pieces
(`Pieces`), and returns, in order, the rows of those that last at least `min_on_duration` seconds and hold no NaN. -/
theorem C60_activations (chunk : PSeries) (minOff minOn : Rat) (border : Nat) (threshold : Rat) :
    ∃ periods, Pieces threshold minOff chunk periods ∧
      getActivations chunk minOff minOn border threshold = .ok
        (((periods.filter (fun p => decide (minOn ≤ secsBetween chunk p.1 p.2))).map (activationOf chunk border)).filter
          (fun s => s.all (fun r => r.2.isSome))) := by
  have hmem := fun a b => (mem_periodsOf (whenOnAbove threshold chunk) a b).trans (bperiod_iff threshold chunk a b)
  obtain ⟨hb1, hb2⟩ := periodsOf_bounds (whenOnAbove threshold chunk)
  unfold getActivations
  simp only [align_periods]
  generalize periodsOf (whenOnAbove threshold chunk) = rs at *
  have adjacent : ∀ a b c d, OnPeriod threshold chunk a b → OnPeriod threshold chunk c d → b < c →
      (∀ i, b ≤ i → i < c → OffAt threshold chunk i) → ∃ l1 l2, rs = l1 ++ (a, b) :: (c, d) :: l2 := by
    intro a b c d h1 h2 hbc hoff
    have m1 := (hmem a b).2 h1
    have m2 := (hmem c d).2 h2
    obtain ⟨l1, r, rfl⟩ := List.append_of_mem m1
    rw [List.pairwise_append, List.pairwise_cons] at hb2
    rcases List.mem_append.1 m2 with m2 | m2
    · have := hb2.2.2 _ m2 (a, b) (by simp)
      have := h1.2.1
      have := h2.2.1
      simp only at *
      omega
    · rcases List.mem_cons.1 m2 with m2 | m2
      · cases m2; have := h1.2.1; omega
      · cases r with
        | nil => simp at m2
        | cons e r =>
          obtain ⟨e, f⟩ := e
          rcases List.mem_cons.1 m2 with m2 | m2
          · cases m2
            exact ⟨l1, r, rfl⟩
          · exfalso
            have k1 := hb2.2.1.1 (e, f) (by simp)
            have k2 := (List.pairwise_cons.1 hb2.2.1.2).1 _ m2
            have k3 := (hmem e f).1 (by simp)
            have := k3.2.1
            exact (hoff e (by simp only at k1; omega) (by simp only at k2; omega)).2 (k3.2.2.2.1 e (le_refl _) this)
  by_cases hrs : rs = []
  · refine ⟨[], ⟨by simp, by simp, by simp, ?_, by simp, by simp⟩, ?_⟩
    · intro a b h
      have := (hmem a b).2 h
      rw [hrs] at this
      simp at this
    · rw [if_pos hrs]; rfl
  · rw [if_neg hrs]
    simp only [List.length_map, ne_eq, not_true, if_false]
    unfold smoothEvents
    by_cases hm : 0 < minOff
    · cases rs with
      | nil => exact absurd rfl hrs
      | cons r rest =>
        obtain ⟨a, b⟩ := r
        simp only [if_pos hm, List.map_cons]
        obtain ⟨e1, e2⟩ := smooth_eq chunk minOff rest a b
        rw [e1, e2]
        simp only [List.length_map, ne_eq, not_true, if_false]
        have hz : ((mergeFrom (fun b c => decide (minOff ≤ secsOf (timeAt chunk c - timeAt chunk b))) a b rest).map
            Prod.fst).zip ((mergeFrom (fun b c => decide (minOff ≤ secsOf (timeAt chunk c - timeAt chunk b))) a b rest).map
            Prod.snd) = mergeFrom (fun b c => decide (minOff ≤ secsOf (timeAt chunk c - timeAt chunk b))) a b rest := by
          rw [List.zip_map']
          simp
        rw [hz, loop_eq]
        obtain ⟨h1, h2, h3, h4, h5, -, h7⟩ := merge_props
          (fun b c => decide (minOff ≤ secsOf (timeAt chunk c - timeAt chunk b))) rest a a b (le_refl _)
          (hb1 (a, b) (by simp)) hb2 (fun p hp => hb1 p (by simp [hp]))
        refine ⟨_, ⟨h2, ?_, ?_, ?_, ?_, ?_⟩, rfl⟩
        · intro p hp
          rcases (h1 p hp).1 with h | ⟨r, hr, h, hle⟩
          · exact ⟨b, (h1 p hp).2.1, by rw [h]; exact (hmem a b).1 (by simp)⟩
          · exact ⟨r.2, hle, by rw [h]; exact (hmem r.1 r.2).1 (by simp [hr])⟩
        · intro p hp
          obtain ⟨-, -, -, r, hr, h, hle⟩ := h1 p hp
          exact ⟨r.1, hle, by rw [h]; exact (hmem r.1 r.2).1 hr⟩
        · intro a' b' h
          have := (hmem a' b').2 h
          rcases List.mem_cons.1 this with h | h
          · cases h
            obtain ⟨p, hp, e1, e2⟩ := h3
            exact ⟨p, hp, by omega, e2⟩
          · exact h4 _ h
        · intro _
          exact h5.imp (fun p q h => of_decide_eq_true h)
        · intro p hp a' b' c d k1 k2 k3 k4 k5 k6
          obtain ⟨l1, l2, he⟩ := adjacent a' b' c d k1 k2 k4 k6
          have := h7 p hp l1 a' b' c d l2 he k3 k5
          exact ⟨hm, by simpa [secsBetween, secsOf, timeAt] using this⟩
    · simp only [if_neg hm, List.length_map, not_true, if_false]
      have hz : (rs.map Prod.fst).zip (rs.map Prod.snd) = rs := by
        rw [List.zip_map']
        simp
      rw [hz, loop_eq]
      refine ⟨rs, ⟨hb2, ?_, ?_, ?_, fun h => absurd h hm, ?_⟩, rfl⟩
      · exact fun p hp => ⟨p.2, le_refl _, (hmem p.1 p.2).1 hp⟩
      · exact fun p hp => ⟨p.1, le_refl _, (hmem p.1 p.2).1 hp⟩
      · exact fun a b h => ⟨(a, b), (hmem a b).2 h, le_refl _, le_refl _⟩
      · intro p hp a b c d k1 k2 k3 k4 k5 _
        exfalso
        have hpp := (hmem p.1 p.2).1 hp
        have := k1.2.1
        have := k2.2.1
        exact k1.2.2.2.2.2 (hpp.2.2.2.1 b (by omega) (by omega))

theorem mem_activation (chunk : PSeries) (border : Nat) (p : Nat × Nat) (r : Int × Option Rat) :
    r ∈ activationOf chunk border p ↔ ∃ i, p.1 - (1 + border) ≤ i ∧ i < p.2 + border ∧ chunk[i]? = some r := by
  unfold activationOf rowsBetween
  rw [List.mem_iff_getElem?]
  constructor
  · rintro ⟨i, hi⟩
    rw [List.getElem?_take] at hi
    split at hi
    · rw [List.getElem?_drop] at hi
      exact ⟨_, by omega, by omega, hi⟩
    · cases hi
  · rintro ⟨i, h1, h2, h3⟩
    refine ⟨i - (p.1 - (1 + border)), ?_⟩
    rw [List.getElem?_take, if_pos (by omega), List.getElem?_drop]
    rw [show p.1 - (1 + border) + (i - (p.1 - (1 + border))) = i by omega]
    exact h3

/-- Two on-periods are far enough apart for the border rows not to overlap. -/
def WideGaps (threshold : Rat) (chunk : PSeries) (border : Nat) : Prop :=
  ∀ a b c d, OnPeriod threshold chunk a b → OnPeriod threshold chunk c d → b < c → b + 2 * border < c

/-- With increasing timestamps, and gaps of more than `2 * border` rows, all rows of an activation come before all rows of
the next. Missing: narrower gaps, see `C60_overlap_counterexample`. For `border = 0` every gap is wide enough. -/
theorem C60_disjoint_partial (chunk : PSeries) (minOff minOn : Rat) (border : Nat) (threshold : Rat)
    (ht : chunk.Pairwise (fun x y => x.1 < y.1)) (hw : WideGaps threshold chunk border) :
    ∃ acts, getActivations chunk minOff minOn border threshold = .ok acts ∧
      acts.Pairwise (fun s t => ∀ x ∈ s, ∀ y ∈ t, x.1 < y.1) := by
  obtain ⟨ps, hp, he⟩ := C60_activations chunk minOff minOn border threshold
  refine ⟨_, he, ?_⟩
  have hord : ps.Pairwise (fun p q => p.2 + 2 * border < q.1) := by
    apply hp.ordered.imp_of_mem
    intro p q h1 h2 hlt
    obtain ⟨a, -, ha⟩ := hp.ends p h1
    obtain ⟨d, -, hd⟩ := hp.begins q h2
    exact hw a p.2 q.1 d ha hd hlt
  apply List.Pairwise.filter
  rw [List.pairwise_map]
  apply List.Pairwise.filter
  apply hord.imp
  intro p q hlt x hx y hy
  obtain ⟨i, -, h2, h3⟩ := (mem_activation _ _ _ _).1 hx
  obtain ⟨j, k1, -, k3⟩ := (mem_activation _ _ _ _).1 hy
  obtain ⟨hi, rfl⟩ := List.getElem?_eq_some_iff.1 h3
  obtain ⟨hj, rfl⟩ := List.getElem?_eq_some_iff.1 k3
  exact List.pairwise_iff_getElem.1 ht i j hi hj (by omega)

theorem C60_border_zero (threshold : Rat) (chunk : PSeries) : WideGaps threshold chunk 0 := by
  intro a b c d _ _ h; omega

/-- With the default border of one row, activations may share rows: here row 1 and row 2 are in both. -/
theorem C60_overlap_counterexample :
    ∃ (chunk : PSeries) (acts : List PSeries) (s t : PSeries) (l : List PSeries),
      getActivations chunk 0 0 1 5 = .ok acts ∧ acts = s :: t :: l ∧ ∃ x ∈ s, x ∈ t := by
  exact ⟨[(0, some 0), (10, some 9), (20, some 0), (30, some 9), (40, some 0)],
    [[(0, some 0), (10, some 9), (20, some 0)], [(10, some 9), (20, some 0), (30, some 9), (40, some 0)]],
    [(0, some 0), (10, some 9), (20, some 0)], [(10, some 9), (20, some 0), (30, some 9), (40, some 0)], [],
    by decide +kernel, rfl, (20, some 0), by simp, by simp⟩

/-- Every on-period that begins and ends in the chunk, is long enough, and lies in a chunk without NaN, is in an
activation, as a whole. -/
theorem C60_complete (chunk : PSeries) (minOff minOn : Rat) (border : Nat) (threshold : Rat)
    (ht : chunk.Pairwise (fun x y => x.1 < y.1)) (hn : ∀ r ∈ chunk, r.2 ≠ none) (a b : Nat)
    (hab : OnPeriod threshold chunk a b) (hlong : minOn ≤ secsBetween chunk a b) :
    ∃ acts, getActivations chunk minOff minOn border threshold = .ok acts ∧
      ∃ s ∈ acts, ∀ i r, a ≤ i → i < b → chunk[i]? = some r → r ∈ s := by
  obtain ⟨ps, hp, he⟩ := C60_activations chunk minOff minOn border threshold
  refine ⟨_, he, ?_⟩
  obtain ⟨p, hps, h1, h2⟩ := hp.complete a b hab
  obtain ⟨a', -, ha'⟩ := hp.ends p hps
  have hpl : p.2 < chunk.length := ha'.2.2.2.2.1
  have mono : ∀ i j, i ≤ j → j < chunk.length →
      ((chunk[i]?).map Prod.fst).getD 0 ≤ ((chunk[j]?).map Prod.fst).getD 0 := by
    intro i j hij hj
    rcases Nat.eq_or_lt_of_le hij with rfl | hlt
    · exact le_refl _
    · rw [List.getElem?_eq_getElem (by omega), List.getElem?_eq_getElem hj]
      exact (List.pairwise_iff_getElem.1 ht i j (by omega) hj hlt).le
  refine ⟨activationOf chunk border p, ?_, ?_⟩
  · rw [List.mem_filter]
    refine ⟨List.mem_map.2 ⟨p, List.mem_filter.2 ⟨hps, ?_⟩, rfl⟩, ?_⟩
    · rw [decide_eq_true_iff]
      refine le_trans hlong ?_
      unfold secsBetween
      have e1 := mono p.1 a h1 (by have := hab.2.1; omega)
      have e2 := mono b p.2 h2 hpl
      apply div_le_div_of_nonneg_right _ (by norm_num)
      exact_mod_cast (by omega)
    · rw [List.all_eq_true]
      intro r hr
      obtain ⟨i, -, -, hi⟩ := (mem_activation _ _ _ _).1 hr
      have := hn r (List.mem_of_getElem? hi)
      exact Option.isSome_iff_ne_none.2 this
  · intro i r hi1 hi2 hr
    exact (mem_activation _ _ _ _).2 ⟨i, by omega, by omega, hr⟩

/-- Every activation holds an on-period, lasts at least `min_on_duration`, and is free of NaN. -/
theorem C60_sound (chunk : PSeries) (minOff minOn : Rat) (border : Nat) (threshold : Rat) :
    ∃ acts, getActivations chunk minOff minOn border threshold = .ok acts ∧ ∀ s ∈ acts, (∀ r ∈ s, r.2 ≠ none) ∧
      ∃ a b, OnAt threshold chunk a ∧ OffAt threshold chunk (a - 1) ∧ OffAt threshold chunk b ∧ OnAt threshold chunk (b - 1) ∧
        a < b ∧ minOn ≤ secsBetween chunk a b ∧ s = (chunk.take (b + border)).drop (a - 1 - border) := by
  obtain ⟨ps, hp, he⟩ := C60_activations chunk minOff minOn border threshold
  refine ⟨_, he, ?_⟩
  intro s hs
  rw [List.mem_filter] at hs
  obtain ⟨hs, hn⟩ := hs
  obtain ⟨p, hp', rfl⟩ := List.mem_map.1 hs
  rw [List.mem_filter] at hp'
  obtain ⟨b, hb, hb'⟩ := hp.begins p hp'.1
  obtain ⟨a, ha, ha'⟩ := hp.ends p hp'.1
  refine ⟨?_, p.1, p.2, hb'.2.2.2.1 p.1 (le_refl _) hb'.2.1, hb'.2.2.1, ha'.2.2.2.2,
    ha'.2.2.2.1 _ (by have := ha'.2.1; omega) (by have := ha'.2.1; omega), by have := ha'.2.1; omega, by simpa using hp'.2, ?_⟩
  · intro r hr
    rw [List.all_eq_true] at hn
    exact Option.isSome_iff_ne_none.1 (hn r hr)
  · unfold activationOf rowsBetween
    rw [List.drop_take, Nat.sub_sub]

/-- An appliance that is still on at the end of the chunk (or was on at its beginning) is not reported. -/
theorem C60_unfinished_counterexample :
    ∃ chunk : PSeries, (∃ i, OnAt 5 chunk i) ∧ (∃ i, OffAt 5 chunk i) ∧ getActivations chunk 0 0 1 5 = .ok [] := by
  refine ⟨[(0, some 0), (10, some 9), (20, some 9)], ⟨1, _, rfl, 9, rfl, by decide⟩, ⟨0, by decide, ?_⟩, by decide +kernel⟩
  rintro ⟨r, hr, v, hv, h⟩
  simp only [List.getElem?_cons_zero, Option.some.injEq] at hr
  subst hr
  simp only [Option.some.injEq] at hv
  subst hv
  exact absurd h (by decide)

example : getActivations [(0, some 0), (10000000000, some 9), (20000000000, some 0), (30000000000, some 7),
    (40000000000, some 0), (50000000000, some 1), (60000000000, some 8), (70000000000, some 2)] 15 5 0 5 =
    .ok [[(0, some 0), (10000000000, some 9), (20000000000, some 0), (30000000000, some 7)],
      [(50000000000, some 1), (60000000000, some 8)]] := by decide +kernel

end Nilmtk
