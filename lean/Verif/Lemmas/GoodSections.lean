import Verif.Model.GoodSections
import Verif.Lemmas.TimeFrame
import Verif.Spec.HDF
import Mathlib.Tactic.Linarith
/-!
Lemmas about good sections: the zip of starts and ends as a structural recursion, and how the
sections of consecutive chunks join.
-/
namespace Nilmtk
open TF

/-- Set the start of the first pair. -/
def setHead (x : Int) : List (Option Int × Option Int) → List (Option Int × Option Int)
  | [] => []
  | (_, e) :: l => (some x, e) :: l

/-- The (start, end) pairs of the good sections of one chunk; `prev`: the first reading continues a
good section, `next`: the last reading is followed by another one in time. -/
def pairs (msp : Int) (prev next : Bool) : List Int → List (Option Int × Option Int)
  | [] => []
  | [x] =>
    match prev, next with
    | false, false => []
    | false, true => [(some x, none)]
    | true, false => [(none, some x)]
    | true, true => [(none, none)]
  | x :: y :: l =>
    if y - x ≤ msp then
      if prev then pairs msp true next (y :: l) else setHead x (pairs msp true next (y :: l))
    else
      if prev then (none, some x) :: pairs msp false next (y :: l) else pairs msp false next (y :: l)

/-- Starts and ends including the look-ahead correction. -/
def evStarts (msp : Int) (prev next : Bool) (idx : List Int) (last : Int) : List Int :=
  let r := scanGaps msp prev idx
  if r.2.2 then r.1 else (if next then r.1 ++ [last] else r.1)

/-- See `evStarts`. -/
def evEnds (msp : Int) (prev next : Bool) (idx : List Int) (last : Int) : List Int :=
  let r := scanGaps msp prev idx
  if r.2.2 then (if next then r.2.1 else r.2.1 ++ [last]) else r.2.1

theorem scanGaps_cons (msp : Int) (prev : Bool) (x y : Int) (l : List Int) :
    scanGaps msp prev (x :: y :: l) =
      (if !prev && decide (y - x ≤ msp) then x :: (scanGaps msp (decide (y - x ≤ msp)) (y :: l)).1
        else (scanGaps msp (decide (y - x ≤ msp)) (y :: l)).1,
       if prev && !decide (y - x ≤ msp) then x :: (scanGaps msp (decide (y - x ≤ msp)) (y :: l)).2.1
        else (scanGaps msp (decide (y - x ≤ msp)) (y :: l)).2.1,
       (scanGaps msp (decide (y - x ≤ msp)) (y :: l)).2.2) := rfl

theorem evStarts_cons (msp : Int) (prev next : Bool) (x y : Int) (l : List Int) (last : Int) :
    evStarts msp prev next (x :: y :: l) last =
      if !prev && decide (y - x ≤ msp) then x :: evStarts msp (decide (y - x ≤ msp)) next (y :: l) last
      else evStarts msp (decide (y - x ≤ msp)) next (y :: l) last := by
  unfold evStarts
  rw [scanGaps_cons]
  generalize scanGaps msp (decide (y - x ≤ msp)) (y :: l) = r
  obtain ⟨a, b, c⟩ := r
  generalize (!prev && decide (y - x ≤ msp)) = u
  cases c <;> cases next <;> cases u <;> rfl

theorem evEnds_cons (msp : Int) (prev next : Bool) (x y : Int) (l : List Int) (last : Int) :
    evEnds msp prev next (x :: y :: l) last =
      if prev && !decide (y - x ≤ msp) then x :: evEnds msp (decide (y - x ≤ msp)) next (y :: l) last
      else evEnds msp (decide (y - x ≤ msp)) next (y :: l) last := by
  unfold evEnds
  rw [scanGaps_cons]
  generalize scanGaps msp (decide (y - x ≤ msp)) (y :: l) = r
  obtain ⟨a, b, c⟩ := r
  generalize (prev && !decide (y - x ≤ msp)) = u
  cases c <;> cases next <;> cases u <;> rfl

theorem ev_ge (msp : Int) (prev next : Bool) (x : Int) (l : List Int) (last : Int)
    (hs : (x :: l).Pairwise (· < ·)) (hl : (x :: l).getLast? = some last) :
    (∀ z ∈ evStarts msp prev next (x :: l) last, x ≤ z) ∧
    (∀ z ∈ evEnds msp prev next (x :: l) last, x ≤ z) := by
  induction l generalizing x prev with
  | nil =>
    simp only [List.getLast?_singleton, Option.some.injEq] at hl
    subst hl
    simp only [evStarts, evEnds, scanGaps]
    cases prev <;> cases next <;> simp
  | cons y l ih =>
    obtain ⟨h1, h2⟩ := List.pairwise_cons.1 hs
    rw [List.getLast?_cons_cons] at hl
    have hxy := h1 y List.mem_cons_self
    obtain ⟨i1, i2⟩ := ih (decide (y - x ≤ msp)) y h2 hl
    rw [evStarts_cons, evEnds_cons]
    constructor
    · intro z hz
      split at hz
      · rcases List.mem_cons.1 hz with rfl | hz
        · omega
        · have := i1 z hz; omega
      · have := i1 z hz; omega
    · intro z hz
      split at hz
      · rcases List.mem_cons.1 hz with rfl | hz
        · omega
        · have := i2 z hz; omega
      · have := i2 z hz; omega

theorem endsOpen_true_cons (x : Int) (S E : List Int) (hE : ∀ z ∈ E, x < z) :
    endsOpen false (x :: S) E = endsOpen true S E := by
  unfold endsOpen
  cases hE' : E.getLast? with
  | none => simp
  | some e =>
    cases S with
    | nil =>
      have := hE e (List.mem_of_getLast? hE')
      simp; omega
    | cons s S => rw [List.getLast?_cons_cons]

theorem endsOpen_false_cons (x : Int) (S E : List Int) (hS : ∀ z ∈ S, x < z) :
    endsOpen true S (x :: E) = endsOpen false S E := by
  unfold endsOpen
  cases E with
  | nil =>
    simp only [List.getLast?_singleton, List.getLast?_nil, Bool.or_false]
    cases hS' : S.getLast? with
    | none =>
      rw [List.getLast?_eq_none_iff] at hS'; subst hS'; simp
    | some s =>
      have h1 := hS s (List.mem_of_getLast? hS')
      have h2 : 0 < S.length := List.length_pos_of_mem (List.mem_of_getLast? hS')
      simp [h1, h2]
  | cons e E =>
    rw [List.getLast?_cons_cons]
    cases h : (e :: E).getLast? with
    | none => simp at h
    | some z => rfl

theorem endsOpen_ev (msp : Int) (prev next : Bool) (x : Int) (l : List Int) (last : Int)
    (hs : (x :: l).Pairwise (· < ·)) (hl : (x :: l).getLast? = some last) :
    endsOpen prev (evStarts msp prev next (x :: l) last) (evEnds msp prev next (x :: l) last) = next := by
  induction l generalizing x prev with
  | nil =>
    simp only [evStarts, evEnds, scanGaps]
    cases prev <;> cases next <;> simp [endsOpen]
  | cons y l ih =>
    obtain ⟨h1, h2⟩ := List.pairwise_cons.1 hs
    rw [List.getLast?_cons_cons] at hl
    have hxy := h1 y List.mem_cons_self
    have ih := ih (decide (y - x ≤ msp)) y h2 hl
    obtain ⟨g1, g2⟩ := ev_ge msp (decide (y - x ≤ msp)) next y l last h2 hl
    have g1' : ∀ z ∈ evStarts msp (decide (y - x ≤ msp)) next (y :: l) last, x < z :=
      fun z hz => by have := g1 z hz; omega
    have g2' : ∀ z ∈ evEnds msp (decide (y - x ≤ msp)) next (y :: l) last, x < z :=
      fun z hz => by have := g2 z hz; omega
    rw [evStarts_cons, evEnds_cons]
    by_cases hc : y - x ≤ msp
    · simp only [hc, decide_true] at ih g1' g2' ⊢
      cases prev
      · simp only [Bool.not_false, Bool.and_self, if_true, Bool.false_and, Bool.false_eq_true, if_false]
        rw [endsOpen_true_cons _ _ _ g2']; exact ih
      · simpa using ih
    · simp only [hc, decide_false] at ih g1' g2' ⊢
      cases prev
      · simpa using ih
      · simp only [Bool.not_true, Bool.not_false, Bool.and_self, if_true, Bool.false_eq_true,
          if_false]
        rw [endsOpen_false_cons _ _ _ g1']; exact ih

/-- `good_sect_starts` with the `None` of a section continued from the previous chunk. -/
def padS (prev : Bool) (S : List Int) : List (Option Int) := if prev then none :: S.map some else S.map some
/-- `good_sect_ends` with the `None` of an open-ended section. -/
def padE (next : Bool) (E : List Int) : List (Option Int) := if next then E.map some ++ [none] else E.map some

theorem zip_pairs (msp : Int) (prev next : Bool) (x : Int) (l : List Int) (last : Int)
    (hl : (x :: l).getLast? = some last) :
    (padS prev (evStarts msp prev next (x :: l) last)).length =
      (padE next (evEnds msp prev next (x :: l) last)).length ∧
    (padS prev (evStarts msp prev next (x :: l) last)).zip (padE next (evEnds msp prev next (x :: l) last)) =
      pairs msp prev next (x :: l) := by
  induction l generalizing x prev with
  | nil =>
    simp only [List.getLast?_singleton, Option.some.injEq] at hl
    subst hl
    simp only [evStarts, evEnds, scanGaps]
    cases prev <;> cases next <;> simp [padS, padE, pairs]
  | cons y l ih =>
    rw [List.getLast?_cons_cons] at hl
    obtain ⟨i1, i2⟩ := ih (decide (y - x ≤ msp)) y hl
    rw [evStarts_cons, evEnds_cons, pairs]
    by_cases hc : y - x ≤ msp
    · simp only [hc, decide_true] at i1 i2 ⊢
      cases prev
      · simp only [Bool.not_false, Bool.and_self, if_true, Bool.false_and, Bool.false_eq_true, if_false]
        generalize hS : evStarts msp true next (y :: l) last = S at i1 i2
        generalize hE : evEnds msp true next (y :: l) last = E at i1 i2
        rw [← i2]
        simp only [padS, if_true] at i1 ⊢
        constructor
        · simpa using i1
        · cases hp : padE next E with
          | nil => rw [hp] at i1; simp at i1
          | cons e es => simp [setHead]
      · simp only [Bool.not_true, Bool.false_and, Bool.and_false, Bool.false_eq_true, if_false, if_true]
        exact ⟨i1, i2⟩
    · simp only [hc, decide_false] at i1 i2 ⊢
      cases prev
      · simp only [Bool.not_false, Bool.and_false, Bool.false_and, Bool.false_eq_true, if_false]
        exact ⟨i1, i2⟩
      · simp only [Bool.not_true, Bool.not_false, Bool.and_self, if_true, Bool.false_eq_true,
          if_false]
        rw [← i2]
        have e : padE next (x :: evEnds msp false next (y :: l) last) =
            some x :: padE next (evEnds msp false next (y :: l) last) := by
          cases next <;> simp [padE]
        rw [e]
        simp only [padS, Bool.false_eq_true, if_false, if_true] at i1 ⊢
        simp [← i1]

/-- Pairs in order: every start is before the end of its pair, bounds increase. -/
inductive PairsOK : Int → List (Option Int × Option Int) → Prop where
  | nil (b : Int) : PairsOK b []
  | closed (b s e : Int) (l : List (Option Int × Option Int)) : b ≤ s → s < e → PairsOK (e + 1) l →
      PairsOK b ((some s, some e) :: l)
  | contd (b e : Int) (l : List (Option Int × Option Int)) : b ≤ e → PairsOK (e + 1) l →
      PairsOK b ((none, some e) :: l)
  | opened (b s : Int) : b ≤ s → PairsOK b [(some s, none)]
  | through (b : Int) : PairsOK b [(none, none)]

theorem PairsOK.mono {b b' : Int} {l : List (Option Int × Option Int)} (h : PairsOK b l) (hb : b' ≤ b) :
    PairsOK b' l := by
  cases h with
  | nil => exact .nil _
  | closed _ s e l h1 h2 h3 => exact .closed _ _ _ _ (by omega) h2 h3
  | contd _ e l h1 h2 => exact .contd _ _ _ (by omega) h2
  | opened _ s h1 => exact .opened _ _ (by omega)
  | through => exact .through _

theorem pairs_head (msp : Int) (prev next : Bool) (x : Int) (l : List Int) :
    ∀ a rest, pairs msp prev next (x :: l) = a :: rest → (prev = true ↔ a.1 = none) := by
  induction l generalizing x prev with
  | nil =>
    intro a rest h
    cases prev <;> cases next <;> simp [pairs] at h
    all_goals (obtain ⟨rfl, _⟩ := h; simp)
  | cons y l ih =>
    intro a rest h
    rw [pairs] at h
    split at h
    · cases prev
      · simp only [Bool.false_eq_true, if_false] at h
        cases hp : pairs msp true next (y :: l) with
        | nil => rw [hp] at h; simp [setHead] at h
        | cons p ps =>
          rw [hp] at h
          simp only [setHead, List.cons.injEq] at h
          obtain ⟨rfl, _⟩ := h; simp
      · simp only [if_true] at h
        exact ih true y a rest h
    · cases prev
      · simp only [Bool.false_eq_true, if_false] at h
        exact ih false y a rest h
      · simp only [if_true, List.cons.injEq] at h
        obtain ⟨rfl, _⟩ := h; simp

theorem pairs_true_ne_nil (msp : Int) (next : Bool) (x : Int) (l : List Int) :
    ∃ e rest, pairs msp true next (x :: l) = (none, e) :: rest := by
  induction l generalizing x with
  | nil => cases next <;> simp [pairs]
  | cons y l ih =>
    rw [pairs]
    split
    · simpa using ih y
    · exact ⟨_, _, rfl⟩

theorem pairs_ok (msp : Int) (prev next : Bool) (x : Int) (l : List Int)
    (hs : (x :: l).Pairwise (· < ·)) : PairsOK x (pairs msp prev next (x :: l)) := by
  induction l generalizing x prev with
  | nil =>
    cases prev <;> cases next <;> simp only [pairs]
    · exact .nil _
    · exact .opened _ _ (le_refl _)
    · exact .contd _ _ _ (le_refl _) (.nil _)
    · exact .through _
  | cons y l ih =>
    obtain ⟨h1, h2⟩ := List.pairwise_cons.1 hs
    have hxy := h1 y List.mem_cons_self
    rw [pairs]
    split
    · cases prev
      · simp only [Bool.false_eq_true, if_false]
        have i := ih true y h2
        obtain ⟨e, rest, hp⟩ := pairs_true_ne_nil msp next y l
        rw [hp] at i ⊢
        simp only [setHead]
        cases i with
        | contd _ e _ a b => exact .closed _ _ _ _ (le_refl _) (by omega) b
        | through => exact .opened _ _ (le_refl _)
      · simp only [if_true]; exact (ih true y h2).mono (by omega)
    · cases prev
      · simp only [Bool.false_eq_true, if_false]; exact (ih false y h2).mono (by omega)
      · simp only [if_true]; exact .contd _ _ _ (le_refl _) ((ih false y h2).mono (by omega))

/-- The TimeFrame of a pair. -/
def toTF (p : Option Int × Option Int) : TF := mk' p.1 p.2

theorem buildSections_ok {b : Int} {l : List (Option Int × Option Int)} (h : PairsOK b l) :
    buildSections l = .ok (l.map toTF) := by
  induction h with
  | nil => rfl
  | closed b s e l h1 h2 h3 ih =>
    rw [buildSections, if_neg (by simp; omega), ctor_ok (by intro a b ha hb; cases ha; cases hb; exact h2), ih]
    rfl
  | contd b e l h1 h2 ih =>
    rw [buildSections, if_neg (by simp), ctor_ok (by simp), ih]; rfl
  | opened b s h1 => rw [buildSections, if_neg (by simp), ctor_ok (by simp)]; rfl
  | through => rw [buildSections, if_neg (by simp), ctor_ok (by simp)]; rfl

/-- Strictly increasing complete rows are already the sorted index. -/
theorem completeIndex_eq {α : Type} (rows : List (Row (Option α))) (hinc : Increasing rows)
    (hn : ∀ r ∈ rows, r.2.isSome = true) : completeIndex rows = rows.map Prod.fst := by
  unfold completeIndex
  rw [List.filter_eq_self.2 hn]
  apply List.Pairwise.insertionSort_eq
  rw [List.pairwise_map]
  exact hinc.imp (fun h => le_of_lt h)

theorem getGoodSections_eq {α : Type} (msp : Int) (rows : List (Row (Option α)))
    (look : Option (List (Row (Option α)))) (prev : Bool) (x : Int) (l : List Int) (last : Int) (gap : Option Int)
    (hidx : completeIndex rows = x :: l) (hs : (x :: l).Pairwise (· < ·)) (h2 : l ≠ [])
    (hl : (x :: l).getLast? = some last) (hlook : lookAheadGap look last = .ok gap) :
    getGoodSections msp rows look prev = .ok ((pairs msp prev (near msp gap) (x :: l)).map toTF) := by
  have hlen : ¬ (x :: l).length < 2 := by
    cases l with
    | nil => exact absurd rfl h2
    | cons _ _ => simp
  unfold getGoodSections
  simp only [hidx, hl, if_neg hlen, hlook]
  have htf : tooFar msp gap = !near msp gap := by
    cases gap with
    | none => rfl
    | some g => simp [tooFar, near, ← decide_not]
  simp only [htf]
  have hS : (if (scanGaps msp prev (x :: l)).2.2 = true then (scanGaps msp prev (x :: l)).1
      else if near msp gap = true then (scanGaps msp prev (x :: l)).1 ++ [last]
      else (scanGaps msp prev (x :: l)).1) = evStarts msp prev (near msp gap) (x :: l) last := rfl
  have hE : (if (scanGaps msp prev (x :: l)).2.2 = true then
      if (!near msp gap) = true then (scanGaps msp prev (x :: l)).2.1 ++ [last]
      else (scanGaps msp prev (x :: l)).2.1
      else (scanGaps msp prev (x :: l)).2.1) = evEnds msp prev (near msp gap) (x :: l) last := by
    unfold evEnds
    cases near msp gap <;> simp
  rw [hS, hE, endsOpen_ev msp prev (near msp gap) x l last hs hl]
  obtain ⟨z1, z2⟩ := zip_pairs msp prev (near msp gap) x l last hl
  have e1 : (if prev = true then none :: (evStarts msp prev (near msp gap) (x :: l) last).map some
      else (evStarts msp prev (near msp gap) (x :: l) last).map some) =
      padS prev (evStarts msp prev (near msp gap) (x :: l) last) := rfl
  have e2 : (if near msp gap = true then (evEnds msp prev (near msp gap) (x :: l) last).map some ++ [none]
      else (evEnds msp prev (near msp gap) (x :: l) last).map some) =
      padE (near msp gap) (evEnds msp prev (near msp gap) (x :: l) last) := rfl
  rw [e1, e2, if_pos z1, z2]
  exact buildSections_ok (pairs_ok msp prev _ x l hs)

/-! ### Joining chunks -/

/-- Join the pairs of two consecutive chunks; `mid`: the boundary lies inside a good section. -/
def joinPairs (mid : Bool) (a b : List (Option Int × Option Int)) : List (Option Int × Option Int) :=
  if mid then
    match a.getLast?, b with
    | some p, q :: b' => a.dropLast ++ (p.1, q.2) :: b'
    | _, _ => a ++ b
  else a ++ b

theorem joinPairs_cons (mid : Bool) (p : Option Int × Option Int) (a b : List (Option Int × Option Int))
    (ha : a ≠ [] ∨ mid = false) : joinPairs mid (p :: a) b = p :: joinPairs mid a b := by
  cases mid with
  | false => rfl
  | true =>
    have ha : a ≠ [] := by simpa using ha
    cases a with
    | nil => exact absurd rfl ha
    | cons q a =>
      simp only [joinPairs, if_true, List.getLast?_cons_cons, List.dropLast_cons_cons]
      cases h : (q :: a).getLast? with
      | none => simp at h
      | some z => cases b <;> simp

theorem pairs_next_ne_nil (msp : Int) (prev : Bool) (x : Int) (l : List Int) :
    pairs msp prev true (x :: l) ≠ [] := by
  induction l generalizing x prev with
  | nil => cases prev <;> simp [pairs]
  | cons y l ih =>
    rw [pairs]
    split
    · cases prev
      · simp only [Bool.false_eq_true, if_false]
        obtain ⟨e, rest, hp⟩ := pairs_true_ne_nil msp true y l
        rw [hp]; simp [setHead]
      · simp only [if_true]; exact ih true y
    · cases prev
      · simp only [Bool.false_eq_true, if_false]; exact ih false y
      · simp

theorem setHead_join (mid : Bool) (x : Int) (a b : List (Option Int × Option Int)) (ha : a ≠ []) :
    joinPairs mid (setHead x a) b = setHead x (joinPairs mid a b) := by
  cases a with
  | nil => exact absurd rfl ha
  | cons p a =>
    cases mid with
    | false => rfl
    | true =>
      cases a with
      | nil => cases b <;> simp [setHead, joinPairs]
      | cons q a =>
        simp only [setHead, joinPairs, if_true, List.getLast?_cons_cons, List.dropLast_cons_cons]
        cases h : (q :: a).getLast? with
        | none => simp at h
        | some z => cases b <;> simp

/-- The pairs of a whole series are the joined pairs of its two parts sharing the reading `y`. -/
theorem pairs_join (msp : Int) (prev next : Bool) (A : List Int) (y z : Int) (B : List Int) :
    pairs msp prev next (A ++ y :: z :: B) =
      joinPairs (decide (z - y ≤ msp)) (pairs msp prev (decide (z - y ≤ msp)) (A ++ [y]))
        (pairs msp (decide (z - y ≤ msp)) next (y :: z :: B)) := by
  induction A generalizing prev with
  | nil =>
    simp only [List.nil_append]
    by_cases hc : z - y ≤ msp
    · obtain ⟨e, rest, hp⟩ := pairs_true_ne_nil msp next z B
      cases prev <;> simp [pairs, hc, joinPairs, setHead, hp]
    · cases prev <;> simp [pairs, hc, joinPairs]
  | cons x A ih =>
    have hsplit : ∃ w W, A ++ [y] = w :: W ∧ A ++ y :: z :: B = w :: (W ++ z :: B) := by
      cases A with
      | nil => exact ⟨y, [], rfl, rfl⟩
      | cons w A => exact ⟨w, A ++ [y], rfl, by simp⟩
    obtain ⟨w, W, h1, h2⟩ := hsplit
    rw [List.cons_append, List.cons_append, h1, h2, pairs, pairs]
    have ih1 := ih true
    have ih0 := ih false
    rw [h1, h2] at ih1 ih0
    split
    · cases prev
      · simp only [Bool.false_eq_true, if_false]
        rw [ih1, setHead_join]
        obtain ⟨e, rest, hp⟩ := pairs_true_ne_nil msp (decide (z - y ≤ msp)) w W
        rw [hp]; simp
      · simp only [if_true]; exact ih1
    · cases prev
      · simp only [Bool.false_eq_true, if_false]; exact ih0
      · simp only [if_true]
        rw [ih0, joinPairs_cons]
        by_cases hc : z - y ≤ msp
        · left; simp only [hc, decide_true]; exact pairs_next_ne_nil msp false w W
        · right; simp [hc]

theorem pairs_last (msp : Int) (prev next : Bool) (x : Int) (l : List Int) :
    ∀ p, (pairs msp prev next (x :: l)).getLast? = some p → (next = true ↔ p.2 = none) := by
  induction l generalizing x prev with
  | nil =>
    intro a h
    cases prev <;> cases next <;> simp [pairs] at h
    all_goals (subst h; simp)
  | cons y l ih =>
    intro p h
    rw [pairs] at h
    split at h
    · cases prev
      · simp only [Bool.false_eq_true, if_false] at h
        have i := ih true y
        obtain ⟨e, rest, hp⟩ := pairs_true_ne_nil msp next y l
        rw [hp] at h i
        cases rest with
        | nil =>
          simp only [setHead, List.getLast?_singleton, Option.some.injEq] at h
          subst h
          exact i (none, e) rfl
        | cons q rest =>
          rw [setHead, List.getLast?_cons_cons] at h
          rw [List.getLast?_cons_cons] at i
          exact i p h
      · simp only [if_true] at h; exact ih true y p h
    · cases prev
      · simp only [Bool.false_eq_true, if_false] at h; exact ih false y p h
      · simp only [if_true] at h
        cases hp : pairs msp false next (y :: l) with
        | nil =>
          rw [hp] at h
          simp only [List.getLast?_singleton, Option.some.injEq] at h
          subst h
          cases next with
          | false => simp
          | true => exact absurd hp (pairs_next_ne_nil msp false y l)
        | cons q rest =>
          rw [hp, List.getLast?_cons_cons, ← hp] at h
          exact ih false y p h

theorem pairs_start_some (msp : Int) (next : Bool) (x : Int) (l : List Int) :
    ∀ p ∈ pairs msp false next (x :: l), p.1 ≠ none := by
  have key : ∀ (prev : Bool) (x : Int), (∀ p ∈ (pairs msp prev next (x :: l)).tail, p.1 ≠ none) ∧
      (prev = false → ∀ p ∈ pairs msp prev next (x :: l), p.1 ≠ none) := by
    induction l with
    | nil => intro prev x; cases prev <;> cases next <;> simp [pairs]
    | cons y l ih =>
      intro prev x
      rw [pairs]
      split
      · obtain ⟨e, rest, hp⟩ := pairs_true_ne_nil msp next y l
        have i := (ih true y).1
        rw [hp] at i ⊢
        cases prev
        · simp only [Bool.false_eq_true, if_false, setHead, List.tail_cons] at i ⊢
          refine ⟨i, fun _ p hp => ?_⟩
          rcases List.mem_cons.1 hp with rfl | hp
          · simp
          · exact i p hp
        · simpa using i
      · have i := (ih false y).2 rfl
        cases prev
        · simp only [Bool.false_eq_true, if_false]
          exact ⟨fun p hp => i p (List.mem_of_mem_tail hp), fun _ => i⟩
        · simpa using i
  exact (key false x).2 rfl

theorem pairs_tail_start (msp : Int) (next : Bool) (x : Int) (l : List Int) :
    ∀ p ∈ (pairs msp false next (x :: l)).tail, p.1 ≠ none :=
  fun p hp => pairs_start_some msp next x l p (List.mem_of_mem_tail hp)

end Nilmtk
